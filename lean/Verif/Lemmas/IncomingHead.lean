import Verif.Lemmas.Incoming
import Verif.Lemmas.Request
/-!
# The head of a well-formed request
-/
namespace J8a
open Go Uri

theorem readHead_of {s first r1 m t proto r : Str} {v : Nat × Nat} {lines kvs : List Str} {c : Bool} {e1 e2 e3 : Entries}
    {fr : Framing} (a1 : readLine s = some (first, r1)) (a2 : parseRequestLine first = some (m, t, proto))
    (hm : validFieldName m = true) (hv : httpVersion proto = some v) (hv1 : v.1 = 1)
    (a4 : headLines (r1.length + 1) r1 = some (lines, r)) (a5 : unfoldLines lines = some kvs)
    (a6 : fixCoding (v.2 ≥ 1) (fixPragma (mimeHeader kvs)) = some (c, e1)) (a7 : fixLength m c e1 = some (fr, e2))
    (a8 : fixTrailer c e2 = some e3) (ho : headerOk m v e3 = true) (hx : expectOk e3 = true) :
    readHead s = some (⟨m, t, v, delKey e3 "Host", fr⟩, r) := by
  unfold readHead
  simp only [Option.bind_eq_bind, Option.bind_eq_some_iff, Prod.exists]
  refine ⟨first, r1, a1, m, t, proto, a2, ?_⟩
  rw [if_neg (by simp [hm])]
  simp only [Option.bind_eq_some_iff, Prod.exists]
  obtain ⟨v1, v2⟩ := v
  refine ⟨v1, v2, hv, ?_⟩
  rw [if_neg (by simpa using hv1)]
  simp only [Option.bind_eq_some_iff, Prod.exists]
  refine ⟨lines, r, a4, kvs, a5, c, e1, a6, fr, e2, a7, e3, a8, ?_⟩
  rw [if_pos (by rw [ho, hx]; rfl)]

theorem parseRequestLine_of {m t p : Str} (hm : ' ' ∉ m) (ht : ' ' ∉ t) :
    parseRequestLine (m ++ ' ' :: (t ++ ' ' :: p)) = some (m, t, p) := by
  unfold parseRequestLine
  rw [cutAt_sep hm]
  simp only
  rw [cutAt_sep ht, if_pos (by simp)]

/-! ## Header maps without empty lists -/

theorem mem_mimeHeader {kvs : List Str} {k : Str} (hk : k ≠ []) :
    k ∈ (mimeHeader kvs).map Prod.fst ↔ (mimeHeader kvs).values k ≠ [] := by
  rw [values_mimeHeader _ _ hk]
  unfold mimeHeader
  rw [mem_keys_foldl_addField]
  simp only [List.map_nil, List.not_mem_nil, false_or, ne_eq, List.map_eq_nil_iff]
  constructor
  · intro h hn
    obtain ⟨f, hf, he⟩ := List.mem_map.1 h
    have : f ∈ ((kvs.map mimeField).filter fun f => f.1 = k) :=
      List.mem_filter.2 ⟨(List.mem_filter.1 hf).1, by simp [he]⟩
    rw [hn] at this
    cases this
  · intro h
    obtain ⟨f, t, he⟩ := List.exists_cons_of_ne_nil h
    have hf : f ∈ ((kvs.map mimeField).filter fun f => f.1 = k) := by rw [he]; simp
    obtain ⟨h1, h2⟩ := List.mem_filter.1 hf
    simp only [decide_eq_true_eq] at h2
    exact List.mem_map.2 ⟨f, List.mem_filter.2 ⟨h1, by simp [h2, hk]⟩, h2⟩

theorem values_append_single {e : Entries} {n : Str} (hn : n ∉ e.map Prod.fst) (v : List Str) (k : Str) :
    (e ++ [(n, v)]).values k = if k = n then v else e.values k := by
  unfold Entries.values
  rw [lookup_append_single]
  by_cases hk : k = n
  · rw [if_pos hk, hk, lookup_none_of_not_mem hn]
    simp
  · rw [if_neg hk]
    cases e.lookup k <;> simp [hk]

theorem values_fixPragma {e : Entries} {k : Str} (hk : k ≠ "Cache-Control".toList) :
    (fixPragma e).values k = e.values k := by
  unfold fixPragma
  split
  · rename_i h
    simp only [Bool.and_eq_true, Bool.not_eq_true'] at h
    rw [values_append_single (fun hm => by rw [(hasKey_iff e "Cache-Control").2 hm] at h; exact absurd h.2 (by decide)),
      if_neg hk]
  · rfl

theorem values_fixPragma_cache {kvs : List Str} :
    (fixPragma (mimeHeader kvs)).values "Cache-Control".toList =
      if ((mimeHeader kvs).values "Pragma".toList).head? = some "no-cache".toList ∧
        (mimeHeader kvs).values "Cache-Control".toList = [] then ["no-cache".toList]
      else (mimeHeader kvs).values "Cache-Control".toList := by
  have hc : hasKey (mimeHeader kvs) "Cache-Control" = false ↔ (mimeHeader kvs).values "Cache-Control".toList = [] := by
    rw [← Bool.not_eq_true, hasKey_iff, mem_mimeHeader (by decide)]
    simp
  unfold fixPragma
  split
  · rename_i h
    simp only [Bool.and_eq_true, Bool.not_eq_true', decide_eq_true_eq] at h
    rw [values_append_single (fun hm => by rw [(hasKey_iff _ "Cache-Control").2 hm] at h; exact absurd h.2 (by decide)),
      if_pos rfl, if_pos ⟨h.1, hc.1 h.2⟩]
  · rename_i h
    simp only [Bool.and_eq_true, Bool.not_eq_true', decide_eq_true_eq] at h
    rw [if_neg (fun h' => h ⟨h'.1, hc.2 h'.2⟩)]

theorem hasKey_fixPragma {kvs : List Str} {n : String} (hn : n.toList ≠ []) (hp : n.toList ≠ "Cache-Control".toList) :
    hasKey (fixPragma (mimeHeader kvs)) n = true ↔ (mimeHeader kvs).values n.toList ≠ [] := by
  rw [hasKey_iff, ← mem_mimeHeader hn]
  unfold fixPragma
  split
  · simp only [List.map_append, List.map_cons, List.map_nil, List.mem_append, List.mem_singleton]
    exact ⟨fun h => h.resolve_right hp, .inl⟩
  · rfl

/-! ## The fields are valid -/

theorem token_upper {c : Char} (h : isTokenChar c = true) : isTokenChar c.toUpper = true ∧ isTokenChar c.toLower = true := by
  have key : tchars.all (fun c => isTokenChar c.toUpper && isTokenChar c.toLower) = true := by decide
  have := List.all_eq_true.1 key c (token_of_char h)
  simpa using this

theorem canonGo_token {s : Str} (h : s.all isTokenChar = true) (b : Bool) : (canonGo b s).all isTokenChar = true := by
  induction s generalizing b with
  | nil => rfl
  | cons c s ih =>
    simp only [List.all_cons, Bool.and_eq_true] at h
    rw [canonGo, List.all_cons, ih h.2, Bool.and_true]
    cases b
    · exact (token_upper h.1).2
    · exact (token_upper h.1).1

theorem canon_valid {s : Str} (h : Token s) : validFieldName (canon s) = true := by
  have ht := all_of_token h
  unfold validFieldName
  rw [Bool.and_eq_true]
  constructor
  · simp only [ne_eq, decide_eq_true_eq]
    intro e
    have := lower_canon s
    rw [e] at this
    obtain ⟨c, t, hc⟩ := List.exists_cons_of_ne_nil h.1
    rw [hc] at this
    simp [toLower] at this
  · unfold canon
    rw [if_pos ht]
    exact canonGo_token ht true

theorem value_valid {v : Str} (h : ∀ c ∈ v, c = '\t' ∨ (0x20 ≤ c.toNat ∧ c.toNat ≠ 0x7f)) : validFieldValue v = true := by
  unfold validFieldValue
  rw [List.all_eq_true]
  intro c hc
  rcases h c hc with rfl | ⟨h1, h2⟩
  · decide
  · have a : ¬ c.toNat < 0x20 := by omega
    simp [a, h2]

theorem entries_valid {lines : List (Str × (Str × Str))} (h : ∀ l ∈ lines, FieldLine l.1 l.2) :
    ∀ kv ∈ fixPragma (mimeHeader (lines.map fun l => trimBlank l.1)),
      (validFieldName kv.1 && kv.2.all validFieldValue) = true := by
  have e : (lines.map fun l => trimBlank l.1).map mimeField = lines.map fun l => (canon l.2.1, l.2.2) := by
    rw [List.map_map]
    apply List.map_congr_left
    intro l hl
    exact mimeField_line (h l hl)
  have base : ∀ kv ∈ mimeHeader (lines.map fun l => trimBlank l.1),
      (validFieldName kv.1 && kv.2.all validFieldValue) = true := by
    intro kv hkv
    have hw := wf_mimeHeader (lines.map fun l => trimBlank l.1)
    have hk : kv.1 ∈ (mimeHeader (lines.map fun l => trimBlank l.1)).map Prod.fst := List.mem_map.2 ⟨kv, hkv, rfl⟩
    have hv := Entries.lookup_of_mem hw.nodup (show (kv.1, kv.2) ∈ _ from hkv)
    unfold mimeHeader at hk
    rw [mem_keys_foldl_addField, e] at hk
    simp only [List.map_nil, List.not_mem_nil, false_or] at hk
    obtain ⟨f, hf, hfe⟩ := List.mem_map.1 hk
    obtain ⟨l, hl, rfl⟩ := List.mem_map.1 (List.mem_filter.1 hf).1
    simp only at hfe
    have hn : validFieldName kv.1 = true := by rw [← hfe]; exact canon_valid (h l hl).name
    have hne : kv.1 ≠ [] := by
      intro e0
      rw [e0] at hn
      exact absurd hn (by decide)
    rw [hn, Bool.true_and, List.all_eq_true]
    intro v hv'
    rw [← hv, values_mimeHeader _ _ hne, e] at hv'
    obtain ⟨g, hg, rfl⟩ := List.mem_map.1 hv'
    obtain ⟨l', hl', rfl⟩ := List.mem_map.1 (List.mem_filter.1 hg).1
    exact value_valid (h l' hl').value
  intro kv hkv
  unfold fixPragma at hkv
  split at hkv
  · rcases List.mem_append.1 hkv with hm | hm
    · exact base kv hm
    · rw [List.mem_singleton.1 hm]; decide
  · exact base kv hkv

/-! ## How the body is delimited -/

theorem dropWhile_none {p : Char → Bool} {s : Str} (h : ∀ c ∈ s, p c = false) : s.dropWhile p = s := by
  cases s with
  | nil => rfl
  | cons c s => rw [List.dropWhile_cons, if_neg (by rw [h c (by simp)]; decide)]

theorem trim_none {p : Char → Bool} {s : Str} (h : ∀ c ∈ s, p c = false) :
    ((s.dropWhile p).reverse.dropWhile p).reverse = s := by
  rw [dropWhile_none h, dropWhile_none (fun c hc => h c (by simpa using hc)), List.reverse_reverse]

theorem trimSpace_digits {v : Str} (h : ∀ c ∈ v, c.isDigit = true) : trimSpace v = v := by
  apply trim_none
  intro c hc
  have h1 := h c hc
  simp only [Char.isDigit, Bool.and_eq_true, decide_eq_true_eq] at h1
  have h2 : (48 : Nat) ≤ c.toNat := by
    have := h1.1
    rwa [ge_iff_le, UInt32.le_iff_toNat_le] at this
  have h3 : c ≠ ' ' := by rintro rfl; revert h2; decide
  simp only [isSpace, h3, decide_false, Bool.false_or, Bool.and_eq_false_iff, decide_eq_false_iff_not]
  right
  omega

theorem chunked_trim {v : Str} (h : toLower v = "chunked".toList) : toLower (trimString v) = "chunked".toList := by
  have : trimString v = v := by
    apply trim_none
    intro c hc
    have : c.toLower ∈ toLower v := List.mem_map.2 ⟨c, hc, rfl⟩
    rw [h] at this
    cases hs : isASCIISpace c with
    | false => rfl
    | true =>
      exfalso
      simp only [isASCIISpace, Bool.or_eq_true, decide_eq_true_eq] at hs
      rcases hs with ((rfl | rfl) | rfl) | rfl <;> exact absurd this (by decide)
  rw [this, h]

theorem split_infix (c : Char) : ∀ (s w : Str), w ∈ split c s → w <:+: s := by
  intro s
  induction s with
  | nil => intro w hw; rw [split] at hw; rw [List.mem_singleton.1 hw]; exact List.infix_rfl
  | cons d s ih =>
    have first : ∀ (s : Str) w ws, split c s = w :: ws → w <+: s := by
      intro s
      induction s with
      | nil => intro w ws h; rw [split] at h; rw [← (List.cons.inj h).1]; exact List.prefix_rfl
      | cons d s ih =>
        intro w ws h
        rw [split] at h
        split at h
        · rw [← (List.cons.inj h).1]; exact List.nil_prefix
        · split at h
          · rw [← (List.cons.inj h).1]
            exact List.cons_prefix_cons.2 ⟨rfl, List.nil_prefix⟩
          · rename_i w' ws' hs
            rw [← (List.cons.inj h).1]
            exact List.cons_prefix_cons.2 ⟨rfl, ih _ _ hs⟩
    intro w hw
    rw [split] at hw
    split at hw
    · rcases List.mem_cons.1 hw with rfl | hw
      · exact List.nil_infix
      · exact List.infix_cons (ih w hw)
    · split at hw
      · rw [List.mem_singleton.1 hw]
        exact (List.cons_prefix_cons.2 ⟨rfl, List.nil_prefix⟩).isInfix
      · rename_i w' ws' hs
        rcases List.mem_cons.1 hw with rfl | hw
        · exact (List.cons_prefix_cons.2 ⟨rfl, first _ _ _ hs⟩).isInfix
        · exact List.infix_cons (ih w (by rw [hs]; simp [hw]))

theorem trim_infix (p : Char → Bool) (s : Str) : ((s.dropWhile p).reverse.dropWhile p).reverse <:+: s := by
  have h1 : s.dropWhile p <:+ s := List.dropWhile_suffix p
  have h2 : ((s.dropWhile p).reverse.dropWhile p) <:+ (s.dropWhile p).reverse := List.dropWhile_suffix p
  have h3 : ((s.dropWhile p).reverse.dropWhile p).reverse <+: s.dropWhile p := by
    have := List.reverse_prefix.2 h2
    rwa [List.reverse_reverse] at this
  exact h3.isInfix.trans h1.isInfix

theorem infix_lower {a b : Str} (h : a <:+: b) : toLower a <:+: toLower b := by
  obtain ⟨x, y, rfl⟩ := h
  exact ⟨toLower x, toLower y, by simp [toLower]⟩

theorem fixTrailer_incoming {e : Entries} (h : ∀ v ∈ e.values "Trailer".toList,
    ∀ n ∈ ["transfer-encoding", "trailer", "content-length"], ¬ n.toList <:+: toLower v) :
    ∃ e', fixTrailer true e = some e' ∧ e'.Sublist e ∧ ∀ k, k ≠ "Trailer".toList → e'.values k = e.values k := by
  unfold fixTrailer
  split
  · simp only
    split
    · rename_i hb
      exfalso
      rw [List.any_eq_true] at hb
      obtain ⟨n, hn, hm⟩ := hb
      obtain ⟨v, hv, hn⟩ := List.mem_flatMap.1 hn
      obtain ⟨w, hw, rfl⟩ := List.mem_map.1 hn
      have hi : toLower (trimString w) <:+: toLower v := infix_lower ((trim_infix _ w).trans (split_infix _ _ _ hw))
      simp only [List.map_cons, List.map_nil, List.mem_cons, List.not_mem_nil, or_false, decide_eq_true_eq] at hm
      have hl := lower_canon (trimString w)
      rcases hm with hm | hm | hm
      · rw [hm] at hl
        exact h v hv "transfer-encoding" (by simp) (by rw [← hl] at hi; exact hi)
      · rw [hm] at hl
        exact h v hv "trailer" (by simp) (by rw [← hl] at hi; exact hi)
      · rw [hm] at hl
        exact h v hv "content-length" (by simp) (by rw [← hl] at hi; exact hi)
    · refine ⟨_, rfl, List.filter_sublist, fun k hk => ?_⟩
      rw [values_delKey, if_neg hk]
  · exact ⟨e, rfl, List.Sublist.refl _, fun k _ => rfl⟩

/-- The values of a name in the map that is read. -/
theorem values_read {lines : List (Str × (Str × Str))} (h : ∀ l ∈ lines, FieldLine l.1 l.2) (n : String)
    (hc : canon n.toList = n.toList) (ht : n.toList.all isTokenChar = true) (hn : n.toList ≠ [])
    (hcc : n.toList ≠ "Cache-Control".toList) :
    (fixPragma (mimeHeader (lines.map fun l => trimBlank l.1))).values n.toList =
      fieldValues (lines.map Prod.snd) (toLower n.toList) := by
  rw [values_fixPragma hcc]
  have := values_fields h ht hn
  rwa [hc] at this

theorem fixLength_few {m : Str} {c : Bool} {e : Entries} {vs : List Str} (hv : e.values "Content-Length".toList = vs)
    (hle : ¬ vs.length > 1) : fixLength m c e =
      if m = "HEAD".toList then
        if vs = [] ∨ vs = ["0".toList] then some (if c then .ignored else .sized 0, e) else none
      else if c then some (.chunked, e)
      else match vs with
        | [v] => if trimSpace v = [] then some (.sized 0, delKey e "Content-Length")
          else (parseLength (trimSpace v)).map fun n => (.sized n, e)
        | _ => some (.sized 0, delKey e "Content-Length") := by
  unfold fixLength
  simp only
  rw [hv, if_neg (fun h => hle h.1), if_neg hle, if_neg hle]
  rfl

theorem transfer_incoming {lines : List (Str × (Str × Str))} {m : HttpRequest} {s rest : Str}
    (hl : ∀ l ∈ lines, FieldLine l.1 l.2) (hf : lines.map Prod.snd = m.fields) (hb : ReqBody m.fields s m.body rest)
    (ha : Acceptable m) (hbare : HeadBare m) (hlen : m.body.length < 2 ^ 63) (e : Entries)
    (he : e = fixPragma (mimeHeader (lines.map fun l => trimBlank l.1))) :
    ∃ c e1 fr e2 e3, fixCoding true e = some (c, e1) ∧ fixLength m.method c e1 = some (fr, e2) ∧
      fixTrailer c e2 = some e3 ∧ readBody fr s = (m.body, some rest) ∧ e3.Sublist e ∧
      (∀ k, k ≠ "Transfer-Encoding".toList → k ≠ "Trailer".toList → e3.values k = e.values k) ∧
      e3.values "Transfer-Encoding".toList = [] := by
  have vte : e.values "Transfer-Encoding".toList = fieldValues m.fields "transfer-encoding".toList := by
    rw [he, ← hf]; exact values_read hl "Transfer-Encoding" (by decide) (by decide) (by decide) (by decide)
  have vcl : e.values "Content-Length".toList = fieldValues m.fields "content-length".toList := by
    rw [he, ← hf]; exact values_read hl "Content-Length" (by decide) (by decide) (by decide) (by decide)
  have vtr : e.values "Trailer".toList = fieldValues m.fields "trailer".toList := by
    rw [he, ← hf]; exact values_read hl "Trailer" (by decide) (by decide) (by decide) (by decide)
  have hte : hasKey e "Transfer-Encoding" = true ↔ e.values "Transfer-Encoding".toList ≠ [] := by
    rw [he, hasKey_fixPragma (by decide) (by decide), values_fixPragma (by decide)]
  have plain : ∀ e', fixTrailer false e' = some e' := fun e' => by unfold fixTrailer; rfl
  have none_coding : fieldValues m.fields "transfer-encoding".toList = [] → fixCoding true e = some (false, e) := by
    intro h
    unfold fixCoding
    rw [if_neg (by rw [hte, vte, h]; simp)]
  generalize m.body = body at hb hlen ⊢
  cases hb with
  | none h1 h2 =>
    rw [h2] at vcl
    by_cases hh : m.method = "HEAD".toList
    · refine ⟨false, e, .sized 0, e, e, none_coding h1, ?_, plain _, by simp [readBody], List.Sublist.refl _,
        fun _ _ _ => rfl, by rw [vte, h1]⟩
      rw [fixLength_few vcl (by simp), if_pos hh, if_pos (.inl rfl)]
      rfl
    · refine ⟨false, e, .sized 0, delKey e "Content-Length", delKey e "Content-Length", none_coding h1, ?_, plain _,
        by simp [readBody], List.filter_sublist, ?_, by rw [values_delKey, vte, h1]; rfl⟩
      · rw [fixLength_few vcl (by simp), if_neg hh]
        rfl
      · intro k _ _
        rw [values_delKey]
        split
        · rename_i hk; rw [hk, vcl]
        · rfl
  | @sized v _ _ h1 h2 hv hd hn =>
    rw [h2] at vcl
    have hts := trimSpace_digits hd
    have hbody : readBody (.sized (digitsVal v)) (body ++ rest) = (body, some rest) := by
      rw [readBody, hn, if_pos (by simp)]
      simp
    by_cases hh : m.method = "HEAD".toList
    · have h0 : v = "0".toList := by
        rcases (hbare hh).2 with h | h
        · rw [h2] at h; cases h
        · rw [h2] at h; exact (List.cons.inj h).1
      refine ⟨false, e, .sized 0, e, e, none_coding h1, ?_, plain _, ?_, List.Sublist.refl _,
        fun _ _ _ => rfl, by rw [vte, h1]⟩
      · rw [fixLength_few vcl (by simp), if_pos hh, if_pos (.inr (by rw [h0]))]
        rfl
      · have : digitsVal v = 0 := by rw [h0]; decide
        rw [← this]; exact hbody
    · refine ⟨false, e, .sized (digitsVal v), e, e, none_coding h1, ?_, plain _, hbody, List.Sublist.refl _,
        fun _ _ _ => rfl, by rw [vte, h1]⟩
      have hp : parseLength v = some (digitsVal v) := by
        unfold parseLength
        rw [if_pos ⟨hv, List.all_eq_true.2 hd, by rw [hn]; unfold maxInt64; omega⟩]
      rw [fixLength_few vcl (by simp), if_neg hh, if_neg (by decide)]
      simp only
      rw [hts, if_neg hv, hp]
      rfl
  | @chunked v _ _ _ h1 hv h2 hc =>
    rw [h2] at vcl
    have hh : m.method ≠ "HEAD".toList := fun h => by
      have := (hbare h).1
      rw [h1] at this
      cases this
    obtain ⟨e3, ht, hsub, hval⟩ := fixTrailer_incoming
      (e := delKey (delKey e "Transfer-Encoding") "Content-Length") (by
        rw [values_delKey, if_neg (by decide), values_delKey, if_neg (by decide), vtr]
        exact ha.trailer)
    refine ⟨true, delKey (delKey e "Transfer-Encoding") "Content-Length", .chunked,
      delKey (delKey e "Transfer-Encoding") "Content-Length", e3, ?_, ?_, ht, readChunks_chunks hc _ (by omega),
      hsub.trans (List.filter_sublist.trans List.filter_sublist), ?_, ?_⟩
    · unfold fixCoding
      rw [if_pos (hte.2 (by rw [vte, h1]; simp))]
      simp only [vte, h1]
      rw [if_pos (chunked_trim hv)]
      rfl
    · have : (delKey (delKey e "Transfer-Encoding") "Content-Length").values "Content-Length".toList = [] := by
        rw [values_delKey, if_pos rfl]
      rw [fixLength_few this (by simp), if_neg hh, if_pos rfl]
    · intro k hk1 hk2
      rw [hval k hk2, values_delKey]
      split
      · rename_i hk; rw [hk, vcl]
      · rw [values_delKey, if_neg hk1]
    · rw [hval _ (by decide), values_delKey, if_neg (by decide), values_delKey, if_pos rfl]

theorem hasToken_lower {v t : Str} (hv : v ≠ []) (h : toLower v = toLower t) (hl : v.length = t.length) :
    hasToken v t = true := by
  obtain ⟨c, s, rfl⟩ := List.exists_cons_of_ne_nil hv
  unfold hasToken
  rw [hasTokenAfter, ← hl, List.take_length, List.drop_length]
  simp [equalFold, h]

theorem readHead_lines {lines : List (Str × (Str × Str))} {m : HttpRequest} {s : Str} (hmt : Token m.method)
    (htg : m.target ≠ [] ∧ ∀ c ∈ m.target, 0x20 < c.toNat ∧ c.toNat ≠ 0x7f)
    (hl : ∀ l ∈ lines, FieldLine l.1 l.2) (hf : lines.map Prod.snd = m.fields) (ha : Acceptable m)
    {c : Bool} {e1 e2 e3 : Entries} {fr : Framing}
    (h1 : fixCoding true (fixPragma (mimeHeader (lines.map fun l => trimBlank l.1))) = some (c, e1))
    (h2 : fixLength m.method c e1 = some (fr, e2)) (h3 : fixTrailer c e2 = some e3)
    (h5 : e3.Sublist (fixPragma (mimeHeader (lines.map fun l => trimBlank l.1))))
    (h6 : ∀ k, k ≠ "Transfer-Encoding".toList → k ≠ "Trailer".toList →
      e3.values k = (fixPragma (mimeHeader (lines.map fun l => trimBlank l.1))).values k)
    (h7 : e3.values "Transfer-Encoding".toList = []) :
    ∃ h, readHead (m.method ++ ' ' :: (m.target ++ ' ' :: ("HTTP/1.1".toList ++ (crlf ++
        (lines.flatMap (fun l => l.1 ++ crlf) ++ (crlf ++ s)))))) = some (h, s) ∧
      h.method = m.method ∧ h.target = m.target ∧ h.framing = fr ∧
      (∀ k, k.all isTokenChar = true → k ≠ [] → toLower k ∉ ["host", "transfer-encoding", "trailer", "cache-control"].map
        String.toList → h.header.values (canon k) = fieldValues m.fields (toLower k)) ∧
      h.header.values "Host".toList = [] ∧ h.header.values "Transfer-Encoding".toList = [] ∧
      h.header.values "Cache-Control".toList =
        if (fieldValues m.fields "pragma".toList).head? = some "no-cache".toList ∧
          fieldValues m.fields "cache-control".toList = [] then ["no-cache".toList]
        else fieldValues m.fields "cache-control".toList := by
  have nm : ∀ {c}, c ∉ tchars → c ∉ m.method := fun hc => token_no hmt hc
  have nt : ∀ {c : Char}, c.toNat ≤ 0x20 → c ∉ m.target := fun hc hm => by
    have := (htg.2 _ hm).1
    omega
  have hfirst : '\n' ∉ m.method ++ ' ' :: (m.target ++ ' ' :: "HTTP/1.1".toList) := by
    simp only [List.mem_append, List.mem_cons, not_or]
    exact ⟨nm (by decide), by decide, nt (by decide), by decide, by decide⟩
  have a1 := readLine_crlf hfirst (lines.flatMap (fun l => l.1 ++ crlf) ++ (crlf ++ s))
  simp only [List.append_assoc, List.cons_append] at a1
  have low : ∀ n : String, canon n.toList = n.toList → n.toList.all isTokenChar = true → n.toList ≠ [] →
      n.toList ≠ "Cache-Control".toList → n.toList ≠ "Transfer-Encoding".toList → n.toList ≠ "Trailer".toList →
      e3.values n.toList = fieldValues m.fields (toLower n.toList) := by
    intro n p1 p2 p3 p4 p5 p6
    rw [h6 _ p5 p6, values_read hl n p1 p2 p3 p4, hf]
  have hhost := low "Host" (by decide) (by decide) (by decide) (by decide) (by decide) (by decide)
  have hexp := low "Expect" (by decide) (by decide) (by decide) (by decide) (by decide) (by decide)
  rw [show toLower "Host".toList = "host".toList by decide] at hhost
  rw [show toLower "Expect".toList = "expect".toList by decide] at hexp
  have hval : validFieldName m.method = true := by
    unfold validFieldName
    rw [all_of_token hmt]
    simp [hmt.1]
  have hok : headerOk m.method (1, 1) e3 = true := by
    obtain ⟨host, hh, hhc⟩ := ha.host
    have hvh : validHost host = true := by
      unfold validHost
      rw [List.all_eq_true]
      intro c hc
      exact List.all_eq_true.1 (show hostChars.all (fun c => c.isAlphanum || c ∈ "!$%&()*+,-.:;=[']_~".toList) = true by
        decide) c (hhc c hc)
    unfold headerOk
    rw [hhost, hh]
    simp only [Bool.and_eq_true]
    refine ⟨⟨⟨by simp, by simp⟩, by simp [hvh]⟩, List.all_eq_true.2 fun kv hkv => ?_⟩
    exact entries_valid hl kv (h5.subset hkv)
  have hex : expectOk e3 = true := by
    unfold expectOk Entries.get
    rw [show canon "Expect".toList = "Expect".toList by decide, hexp]
    rcases ha.expect with h | ⟨v, h, hv⟩
    · rw [h]; rfl
    · rw [h]
      simp only [List.headD_cons]
      rw [hasToken_lower (v := v) (t := "100-continue".toList), Bool.or_true]
      · rintro rfl; exact absurd hv (by decide)
      · rw [hv]; decide
      · have := congrArg List.length hv
        rw [toLower, List.length_map] at this
        exact this
  have H := readHead_of a1 (parseRequestLine_of (nm (by decide)) (nt (by decide))) hval
    (show httpVersion "HTTP/1.1".toList = some (1, 1) by decide) rfl
    (headLines_fields s lines _ hl (by have := lines_length lines (crlf ++ s); omega)) (unfoldLines_fields hl) h1 h2 h3 hok hex
  refine ⟨_, H, rfl, rfl, rfl, ?_, ?_, ?_, ?_⟩
  · intro k hk hne hx
    have hc : ∀ n : String, toLower n.toList ∈ ["host", "transfer-encoding", "trailer", "cache-control"].map String.toList →
        canon k ≠ n.toList := by
      intro n hn e
      apply hx
      rw [← e, lower_canon] at hn
      exact hn
    simp only
    rw [values_delKey, if_neg (hc "Host" (by decide)), h6 _ (hc "Transfer-Encoding" (by decide)) (hc "Trailer" (by decide)),
      values_fixPragma (hc "Cache-Control" (by decide)), values_fields hl hk hne, hf]
  · rw [values_delKey, if_pos rfl]
  · rw [values_delKey, if_neg (by decide), h7]
  · have v1 := values_fields hl (k := "Pragma".toList) (by decide) (by decide)
    have v2 := values_fields hl (k := "Cache-Control".toList) (by decide) (by decide)
    rw [show canon "Pragma".toList = "Pragma".toList by decide, show toLower "Pragma".toList = "pragma".toList by decide, hf] at v1
    rw [show canon "Cache-Control".toList = "Cache-Control".toList by decide,
      show toLower "Cache-Control".toList = "cache-control".toList by decide, hf] at v2
    simp only
    rw [values_delKey, if_neg (by decide), h6 _ (by decide) (by decide), values_fixPragma_cache, v1, v2]

/-- A well-formed request is read as it is. -/
theorem readHead_incoming {stream rest : Str} {m : HttpRequest} (hr : ReadsIncoming stream m rest) (ha : Acceptable m)
    (hbare : HeadBare m) (hlen : m.body.length < 2 ^ 63) :
    ∃ h after, readHead stream = some (h, after) ∧ h.method = m.method ∧ h.target = m.target ∧ readBody h.framing after = (m.body, some rest) ∧
      (∀ k, k.all isTokenChar = true → k ≠ [] → toLower k ∉ ["host", "transfer-encoding", "trailer", "cache-control"].map
        String.toList → h.header.values (canon k) = fieldValues m.fields (toLower k)) ∧
      h.header.values "Host".toList = [] ∧ h.header.values "Transfer-Encoding".toList = [] ∧
      h.header.values "Cache-Control".toList =
        if (fieldValues m.fields "pragma".toList).head? = some "no-cache".toList ∧
          fieldValues m.fields "cache-control".toList = [] then ["no-cache".toList]
        else fieldValues m.fields "cache-control".toList := by
  obtain ⟨lines, s, hl, hf, hb, rfl⟩ := hr.text
  obtain ⟨c, e1, fr, e2, e3, h1, h2, h3, h4, h5, h6, h7⟩ := transfer_incoming hl hf hb ha hbare hlen _ rfl
  obtain ⟨h, g1, g2, g3, g4, g5⟩ := readHead_lines (s := s) hr.method hr.target hl hf ha h1 h2 h3 h5 h6 h7
  exact ⟨h, s, g1, g2, g3, by rw [g4]; exact h4, g5⟩

/-- With HEAD a chunked body is left on the connection. -/
theorem readHead_head {stream rest : Str} {m : HttpRequest} (hr : ReadsIncoming stream m rest) (ha : Acceptable m)
    (hm : m.method = "HEAD".toList) (hte : fieldValues m.fields "transfer-encoding".toList ≠ []) :
    ∃ h after, readHead stream = some (h, after) ∧ h.method = m.method ∧ h.target = m.target ∧ h.framing = .ignored ∧
      Chunks after m.body rest := by
  obtain ⟨lines, s, hl, hf, hb, rfl⟩ := hr.text
  generalize hbd : m.body = body at hb ⊢
  cases hb with
  | none h1 _ => exact absurd h1 hte
  | sized h1 _ => exact absurd h1 hte
  | @chunked v _ _ _ h1 hv h2 hc =>
    have vte : (fixPragma (mimeHeader (lines.map fun l => trimBlank l.1))).values "Transfer-Encoding".toList =
        fieldValues m.fields "transfer-encoding".toList := by
      rw [← hf]; exact values_read hl "Transfer-Encoding" (by decide) (by decide) (by decide) (by decide)
    have vcl : (fixPragma (mimeHeader (lines.map fun l => trimBlank l.1))).values "Content-Length".toList =
        fieldValues m.fields "content-length".toList := by
      rw [← hf]; exact values_read hl "Content-Length" (by decide) (by decide) (by decide) (by decide)
    have vtr : (fixPragma (mimeHeader (lines.map fun l => trimBlank l.1))).values "Trailer".toList =
        fieldValues m.fields "trailer".toList := by
      rw [← hf]; exact values_read hl "Trailer" (by decide) (by decide) (by decide) (by decide)
    rw [h2] at vcl
    have hk : hasKey (fixPragma (mimeHeader (lines.map fun l => trimBlank l.1))) "Transfer-Encoding" = true := by
      rw [hasKey_fixPragma (by decide) (by decide), ← values_fixPragma (by decide), vte, h1]
      simp
    generalize he : fixPragma (mimeHeader (lines.map fun l => trimBlank l.1)) = e at vte vcl vtr hk
    obtain ⟨e3, ht, hsub, hval⟩ := fixTrailer_incoming
      (e := delKey (delKey e "Transfer-Encoding") "Content-Length") (by
        rw [values_delKey, if_neg (by decide), values_delKey, if_neg (by decide), vtr]
        exact ha.trailer)
    have g1 : fixCoding true e = some (true, delKey (delKey e "Transfer-Encoding") "Content-Length") := by
      unfold fixCoding
      rw [if_pos hk]
      simp only [vte, h1]
      rw [if_pos (chunked_trim hv)]
      rfl
    have g2 : fixLength m.method true (delKey (delKey e "Transfer-Encoding") "Content-Length") =
        some (.ignored, delKey (delKey e "Transfer-Encoding") "Content-Length") := by
      have : (delKey (delKey e "Transfer-Encoding") "Content-Length").values "Content-Length".toList = [] := by
        rw [values_delKey, if_pos rfl]
      rw [fixLength_few this (by simp), if_pos hm, if_pos (.inl rfl)]
      rfl
    obtain ⟨h, k1, k2, k3, k4, -⟩ := readHead_lines (s := s) hr.method hr.target hl hf ha (by rw [he]; exact g1) g2 ht
      (by rw [he]; exact hsub.trans (List.filter_sublist.trans List.filter_sublist)) (by
        intro k hk1 hk2
        rw [he, hval k hk2, values_delKey]
        split
        · rename_i hk; rw [hk, vcl]
        · rw [values_delKey, if_neg hk1])
      (by rw [hval _ (by decide), values_delKey, if_neg (by decide), values_delKey, if_pos rfl])
    exact ⟨h, s, k1, k2, k3, k4, hc⟩

/-- No request begins like a chunk. -/
theorem chunks_unreadable {s b r : Str} (h : Chunks s b r) : readHead s = none := by
  have key : ∀ (size ext x : Str), (∀ c ∈ size, c ∈ hexDigits) → ChunkExt ext →
      readHead (size ++ (ext ++ (crlf ++ x))) = none := by
    intro size ext x hx he
    have hno : '\n' ∉ size ++ ext := by
      simp only [List.mem_append, not_or]
      refine ⟨hex_no hx (by decide), ?_⟩
      rcases he with rfl | ⟨t, rfl, -, h⟩
      · simp
      · simpa using h
    cases hr : readHead (size ++ (ext ++ (crlf ++ x))) with
    | none => rfl
    | some p =>
      exfalso
      obtain ⟨first, r1, proto, lines, kvs, c, e1, e2, e3, a1, a2, a3, -⟩ := readHead_some (h := p.1) (r := p.2) hr
      have hl := readLine_crlf hno x
      rw [List.append_assoc] at hl
      rw [hl] at a1
      injection a1 with a1
      injection a1 with a1 _
      rw [← a1] at a2
      unfold parseRequestLine at a2
      split at a2
      · rename_i hsp
        injection a2 with a2
        injection a2 with a2 _
        rcases he with rfl | ⟨t, rfl, -, -⟩
        · rw [List.append_nil] at hsp
          exact hex_no hx (by decide) hsp.1
        · have hm : ';' ∈ p.1.method := by
            rw [← a2]
            unfold cutAt
            simp only
            rw [List.takeWhile_append]
            have e0 : size.takeWhile (fun c => decide (c ≠ ' ')) = size := by
              apply takeWhile_all
              intro c hc
              simp only [decide_eq_true_eq]
              rintro rfl
              exact hex_no hx (by decide) hc
            rw [e0, if_pos rfl]
            simp
          exact token_no (token_of_valid a3) (by decide) hm
      · cases a2
  cases h with
  | @last zeros ext rest lines hz h0 hl he hf => exact key zeros ext _ (fun c hc => by rw [h0 c hc]; decide) he
  | @chunk size ext data stream body rest hs hx hl he hd hsz _ => exact key size ext _ hx he

end J8a

import Verif.Lemmas.WireBytes
import Verif.Props.Requests
/-!
# Lemmas about a request as it is read by an upstream
-/
namespace J8a
open Go

theorem lower_of_upper (c : Char) : c.toUpper.toLower = c.toLower := by
  by_cases h : c.val ≥ 'a'.val ∧ c.val ≤ 'z'.val
  · have hu : ∀ n : Fin 26, (Char.ofNat (n.val + 97)).toUpper.toLower
        = (Char.ofNat (n.val + 97)).toLower := by decide
    have h1 : 97 ≤ c.toNat := h.1
    have h2 : c.toNat ≤ 122 := h.2
    have := hu ⟨c.toNat - 97, by omega⟩
    simp only at this
    rw [Nat.sub_add_cancel h1] at this
    simpa using this
  · have : c.toUpper = c := by unfold Char.toUpper; exact dif_neg h
    rw [this]

theorem lower_canonGo (b : Bool) (k : Str) : toLower (canonGo b k) = toLower k := by
  induction k generalizing b with
  | nil => rfl
  | cons c cs ih =>
    have := ih (c == '-')
    unfold toLower at this ⊢
    rw [canonGo, List.map_cons, List.map_cons, this]
    cases b
    · rw [if_neg (by decide), toLower_toLower]
    · rw [if_pos rfl, lower_of_upper]

theorem lower_canon (k : Str) : toLower (canon k) = toLower k := by
  unfold canon
  split
  · exact lower_canonGo _ _
  · rfl

/-- Names are the same in any case. -/
theorem name_eq {f k : Str} (hf : f.all isTokenChar = true) (hk : k.all isTokenChar = true) (hc : canon f = f) :
    (toLower f = toLower k) = (f = canon k) := by
  apply propext
  constructor
  · intro h
    rw [← hc]
    unfold canon
    rw [if_pos hf, if_pos hk, ← canonGo_lower true f, ← canonGo_lower true k, h]
  · rintro h
    rw [h, lower_canon]

/-- The names of a header map. -/
def Enumerates (keys : List Str) (h : Hdr) : Prop := keys.Nodup ∧ ∀ k, k ∈ keys ↔ h k ≠ []

theorem filter_flatMap {g : Str → List Str} {tr : Str → Str} {K : Str} : ∀ {l : List Str}, l.Nodup →
    ((l.flatMap fun k => (g k).map fun v => (k, tr v)).filter fun f => f.1 = K).map Prod.snd =
      if K ∈ l then (g K).map tr else [] := by
  intro l
  induction l with
  | nil => intro _; rfl
  | cons k l ih =>
    intro hn
    obtain ⟨h1, h2⟩ := List.nodup_cons.1 hn
    rw [List.flatMap_cons, List.filter_append, List.map_append, ih h2, List.filter_map, List.map_map]
    by_cases hk : k = K
    · subst hk
      rw [if_neg h1, if_pos (by simp), List.append_nil]
      have : (g k).filter ((fun f : Str × Str => decide (f.1 = k)) ∘ fun v => (k, tr v)) = g k := by
        rw [List.filter_eq_self]; simp
      rw [this]
      rfl
    · have : (g k).filter ((fun f : Str × Str => decide (f.1 = K)) ∘ fun v => (k, tr v)) = [] := by
        rw [List.filter_eq_nil_iff]; simp [hk]
      rw [this]
      simp [Ne.symm hk]

theorem wireUserAgent_mem {h : Hdr} {v : Str} (hv : v ∈ wireUserAgent h) :
    v = "Go-http-client/1.1".toList ∨ v ∈ h "User-Agent".toList := by
  unfold wireUserAgent at hv
  split at hv
  · exact .inl (List.mem_singleton.1 hv)
  · rename_i w ws hw
    right
    split at hv
    · simp at hv
    · rw [List.mem_singleton.1 hv, hw]; simp

theorem digits_text (n : Nat) : FieldText (natToDec n) := by
  intro c hc
  have h := natToDec_isDigit hc
  simp only [Char.isDigit, Bool.and_eq_true, decide_eq_true_eq] at h
  have h1 : 48 ≤ c.toNat := h.1
  have h2 : c.toNat ≤ 57 := h.2
  exact .inr ⟨by omega, by omega⟩

theorem trimOws_digits (n : Nat) : trimOws (natToDec n) = natToDec n := by
  have key : ∀ c, c ∈ natToDec n → c ≠ ' ' ∧ c ≠ '\t' := by
    intro c hc
    have h := natToDec_isDigit hc
    constructor <;> (rintro rfl; revert h; decide)
  have := trimOws_value (w1 := []) (w2 := []) (v := natToDec n) (by simp [Ows]) (by simp [Ows])
    (fun c hc => key c (List.mem_of_mem_head? hc)) (fun c hc => key c (List.mem_of_getLast? hc))
  simpa using this

theorem fieldText_lit {s : Str} (h : s.all (fun c => c = '\t' || (decide (0x20 ≤ c.toNat) && c.toNat ≠ 0x7f)) = true) :
    FieldText s := by
  intro c hc
  have := List.all_eq_true.1 h c hc
  simpa using this

/-- What `writeRequest` has checked. -/
structure WriteChecked (keys : List Str) (q : UpReq) : Prop where
  names : ∀ k ∈ keys, validFieldName k = true
  values : ∀ k ∈ keys, ∀ v ∈ q.header k, validFieldValue v = true
  method : validFieldName q.method = true

theorem writeRequest_some {keys : List Str} {q : UpReq} {bytes : Str} (h : writeRequest keys q = some bytes) :
    ∃ t host, wireTarget q = some t ∧ sentHost q = some host ∧ WriteChecked keys q ∧ containsCTL t = false ∧
      bytes = q.method ++ ' ' :: t ++ " HTTP/1.1\r\n".toList ++
        (requestFields host keys q).flatMap (fun f => f.1 ++ ": ".toList ++ f.2 ++ "\r\n".toList) ++
        "\r\n".toList ++ bodyText q.body := by
  unfold writeRequest at h
  split at h
  · rename_i t host u ht hh hu
    split at h
    · rename_i hc
      simp only [Bool.and_eq_true, List.all_eq_true, Bool.not_eq_true'] at hc
      obtain ⟨⟨⟨h1, h2⟩, -⟩, h4⟩ := hc
      refine ⟨t, host, ht, hh, ⟨fun k hk => (h1 k hk).1, fun k hk v hv => (h1 k hk).2 v hv, h2⟩, h4, ?_⟩
      exact (Option.some.inj h).symm
    · cases h
  · cases h

theorem requestFields_ok {host : Str} {keys : List Str} {q : UpReq} (hc : WriteChecked keys q)
    (he : Enumerates keys q.header) (hh : sentHost q = some host) :
    ∀ f ∈ requestFields host keys q, validFieldName f.1 = true ∧ FieldText f.2 := by
  intro f hf
  unfold requestFields at hf
  simp only [List.mem_append, List.mem_cons, List.mem_map, List.mem_flatMap, List.mem_filter] at hf
  rcases hf with (((rfl | ⟨v, hv, rfl⟩) | ⟨v, hv, rfl⟩) | ⟨k, ⟨hk, -⟩, v, hv, rfl⟩) | hf
  · exact ⟨(by decide : validFieldName "Host".toList = true), fun c hc => .inr (sentHost_chars hh c hc).1⟩
  · refine ⟨(by decide : validFieldName "User-Agent".toList = true), ?_⟩
    rcases wireUserAgent_mem hv with rfl | hv
    · exact fieldText_lit (by decide)
    · have hk : "User-Agent".toList ∈ keys := (he.2 _).2 (List.ne_nil_of_mem hv)
      exact fieldText_of_valid (hc.values _ hk v hv)
  · refine ⟨(by decide : validFieldName "Content-Length".toList = true), ?_⟩
    unfold wireLength at hv
    split at hv
    · rw [List.mem_singleton.1 hv]; exact digits_text _
    · simp at hv
  · have ht := fieldText_of_valid (hc.values _ hk v hv)
    refine ⟨hc.names k hk, ?_⟩
    simp only
    rw [newline_id ht, trim_eq ht]
    exact trimOws_text ht
  · split at hf
    · obtain rfl := List.mem_singleton.1 hf
      exact ⟨by decide, fieldText_lit (by decide)⟩
    · simp at hf

theorem requestFields_canon {host : Str} {keys : List Str} {q : UpReq}
    (hk : ∀ k ∈ keys, canon k = k) : ∀ f ∈ requestFields host keys q, canon f.1 = f.1 := by
  intro f hf
  unfold requestFields at hf
  simp only [List.mem_append, List.mem_cons, List.mem_map, List.mem_flatMap, List.mem_filter] at hf
  rcases hf with (((rfl | ⟨v, hv, rfl⟩) | ⟨v, hv, rfl⟩) | ⟨k, ⟨hk', -⟩, v, hv, rfl⟩) | hf
  · exact (by decide : canon "Host".toList = "Host".toList)
  · exact (by decide : canon "User-Agent".toList = "User-Agent".toList)
  · exact canon_cl
  · exact hk k hk'
  · split at hf
    · obtain rfl := List.mem_singleton.1 hf
      exact (by decide : canon "Accept-Encoding".toList = "Accept-Encoding".toList)
    · simp at hf

theorem filter_tagged (n K : Str) (l : List Str) :
    ((l.map fun v => (n, v)).filter fun f : Str × Str => f.1 = K).map Prod.snd = if n = K then l else [] := by
  induction l with
  | nil => simp
  | cons v l ih =>
    rw [List.map_cons, List.filter_cons]
    by_cases h : n = K
    · simp only [h, decide_true, if_true, List.map_cons] at ih ⊢
      rw [ih]
    · simp only [h, decide_false, if_false] at ih ⊢
      simpa using ih

/-- The values that are written under a name. -/
theorem requestFields_values {host : Str} {keys : List Str} {q : UpReq} (hc : WriteChecked keys q)
    (he : Enumerates keys q.header) (T : NetLib) (hT : T.hostOf q.uri = host) (K : Str) :
    (((requestFields host keys q).filter fun f => f.1 = K).map Prod.snd).map trimOws =
      (wireHeader T q K).map trimOws := by
  have hmid := filter_flatMap (g := q.header) (tr := fun v => trimString (newlineToSpace v)) (K := K)
    (l := keys.filter fun k => k ∉ reqWriteExclude) (he.1.filter _)
  have hclean : ((q.header K).map fun v => trimString (newlineToSpace v)).map trimOws = (q.header K).map trimOws := by
    rw [List.map_map]
    apply List.map_congr_left
    intro v hv
    have hk : K ∈ keys := (he.2 _).2 (List.ne_nil_of_mem hv)
    have ht := fieldText_of_valid (hc.values _ hk v hv)
    simp only [Function.comp_apply]
    rw [newline_id ht, trim_eq ht, trimOws_idem]
  have hnone : K ∉ keys → q.header K = [] := fun h => by
    by_cases h' : q.header K = []
    · exact h'
    · exact absurd ((he.2 K).2 h') h
  have hua := filter_tagged "User-Agent".toList K (wireUserAgent q.header)
  have hcl := filter_tagged "Content-Length".toList K (wireLength q)
  have hho := filter_tagged "Host".toList K [host]
  have hae := filter_tagged "Accept-Encoding".toList K (if addsGzip q then ["gzip".toList] else [])
  have hsplit : requestFields host keys q = ([host].map fun v => ("Host".toList, v)) ++
      (wireUserAgent q.header).map (fun v => ("User-Agent".toList, v)) ++
      (wireLength q).map (fun v => ("Content-Length".toList, v)) ++
      (keys.filter (fun k => k ∉ reqWriteExclude)).flatMap
        (fun k => (q.header k).map fun v => (k, trimString (newlineToSpace v))) ++
      (if addsGzip q then ["gzip".toList] else []).map (fun v => ("Accept-Encoding".toList, v)) := by
    unfold requestFields
    cases addsGzip q <;> simp
  rw [hsplit]
  simp only [List.filter_append, List.map_append]
  rw [hmid, hua, hcl, hho, hae]
  unfold wireHeader
  rw [hT]
  simp only [List.mem_filter, decide_eq_true_eq]
  by_cases h1 : K = "Host".toList
  · subst h1
    rw [if_pos rfl, if_neg (by decide), if_neg (by decide), if_neg (fun h => h.2 (by decide)), if_neg (by decide), if_pos rfl]
    rfl
  · rw [if_neg (Ne.symm h1), if_neg h1]
    by_cases h2 : K = "User-Agent".toList
    · subst h2
      rw [if_pos rfl, if_neg (by decide), if_neg (fun h => h.2 (by decide)), if_neg (by decide), if_pos rfl]
      simp
    · rw [if_neg (Ne.symm h2), if_neg h2]
      by_cases h3 : K = "Content-Length".toList
      · subst h3
        rw [if_pos rfl, if_neg (fun h => h.2 (by decide)), if_neg (by decide), if_pos rfl]
        simp
      · rw [if_neg (Ne.symm h3), if_neg h3]
        by_cases h4 : K = "Transfer-Encoding".toList ∨ K = "Trailer".toList
        · rw [if_pos h4, if_neg (fun h => h.2 (by rcases h4 with h4 | h4 <;> rw [h4] <;> decide)),
            if_neg (by rcases h4 with h4 | h4 <;> rw [h4] <;> decide)]
          simp
        · rw [if_neg h4]
          have hex : K ∉ reqWriteExclude := by
            intro hm
            simp only [reqWriteExclude, List.map_cons, List.map_nil, List.mem_cons, List.not_mem_nil, or_false] at hm
            rcases hm with hm | hm | hm | hm | hm
            · exact h1 hm
            · exact h2 hm
            · exact h3 hm
            · exact h4 (.inl hm)
            · exact h4 (.inr hm)
          have hvals : List.map trimOws (if K ∈ keys ∧ K ∉ reqWriteExclude then
              List.map (fun v => trimString (newlineToSpace v)) (q.header K) else []) = (q.header K).map trimOws := by
            by_cases hk : K ∈ keys
            · rw [if_pos ⟨hk, hex⟩, hclean]
            · rw [if_neg (fun h => hk h.1), hnone hk]
          rw [hvals]
          by_cases h5 : K = "Accept-Encoding".toList
          · subst h5
            cases hg : addsGzip q <;> simp
          · rw [if_neg (Ne.symm h5), if_neg (fun h => h5 h.1)]
            simp

/-- The message that is written. -/
def sentMessage (t host : Str) (keys : List Str) (q : UpReq) : HttpRequest where
  method := q.method
  target := t
  fields := (requestFields host keys q).map fun f => (f.1, trimOws f.2)
  body := bodyText q.body

theorem sentMessage_values {t host : Str} {keys : List Str} {q : UpReq} (hc : WriteChecked keys q)
    (he : Enumerates keys q.header) (hk : ∀ k ∈ keys, canon k = k) (hh : sentHost q = some host) (T : NetLib)
    (hT : T.hostOf q.uri = host) (k : Str) (htok : k.all isTokenChar = true) :
    fieldValues (sentMessage t host keys q).fields (toLower k) = (wireHeader T q (canon k)).map trimOws := by
  rw [← requestFields_values hc he T hT]
  unfold fieldValues sentMessage
  simp only
  rw [List.filter_map, List.map_map, List.map_map]
  have : (requestFields host keys q).filter
      ((fun f : Str × Str => decide (toLower f.1 = toLower k)) ∘ fun f => (f.1, trimOws f.2)) =
      (requestFields host keys q).filter fun f => f.1 = canon k := by
    apply List.filter_congr
    intro f hf
    have h1 := (requestFields_ok hc he hh f hf).1
    simp only [validFieldName, Bool.and_eq_true] at h1
    have := name_eq h1.2 htok (requestFields_canon hk f hf)
    simp only [Function.comp_apply]
    exact decide_eq_decide.2 (iff_of_eq this)
  rw [this]
  rfl

theorem containsCTL_no {s : Str} (h : containsCTL s = false) : ∀ c ∈ s, 0x20 ≤ c.toNat ∧ c.toNat ≠ 0x7f := by
  intro c hc
  simp only [containsCTL, List.any_eq_false] at h
  have := h c hc
  simp at this
  omega

theorem requestURI_ne {u : Url} : u.requestURI ≠ [] := by
  unfold Url.requestURI
  split
  · split <;> simp_all
  · rename_i h
    split <;> simp_all

theorem wireTarget_ne {q : UpReq} {t : Str} (ht : wireTarget q = some t) (hm : q.method ≠ "CONNECT".toList) :
    t ≠ [] := by
  unfold wireTarget at ht
  obtain ⟨u, -, rfl⟩ := Option.map_eq_some_iff.1 ht
  rw [if_neg (fun h => hm h.1)]
  exact requestURI_ne

theorem sentMessage_reads {t host : Str} {keys : List Str} {q : UpReq} (hc : WriteChecked keys q)
    (he : Enumerates keys q.header) (hk : ∀ k ∈ keys, canon k = k) (hh : sentHost q = some host)
    (ht : containsCTL t = false) (hne : t ≠ []) (hsp : ' ' ∉ t) (more : Str) :
    ReadsRequest (q.method ++ ' ' :: t ++ " HTTP/1.1\r\n".toList ++
        (requestFields host keys q).flatMap (fun f => f.1 ++ ": ".toList ++ f.2 ++ "\r\n".toList) ++
        "\r\n".toList ++ bodyText q.body ++ more) (sentMessage t host keys q) more := by
  let T : NetLib := { resolve := fun _ _ => none, gunzip := fun b => (b, .eof), hostOf := fun _ => host }
  have hv := fun k hk' => sentMessage_values (t := t) hc he hk hh T rfl k hk'
  refine ⟨token_of_valid hc.method, ⟨hne, ?_⟩, ?_, ?_⟩
  · intro c hc'
    have h1 := containsCTL_no ht c hc'
    have h2 : c.toNat ≠ 0x20 := by
      intro h
      have : c = ' ' := Char.toNat_inj.1 (h.trans rfl)
      exact hsp (this ▸ hc')
    exact ⟨by omega, h1.2⟩
  · have h1 := hv "Transfer-Encoding".toList (by decide)
    have h2 := hv "Content-Length".toList (by decide)
    rw [canon_te, show toLower "Transfer-Encoding".toList = "transfer-encoding".toList by decide] at h1
    rw [canon_cl, show toLower "Content-Length".toList = "content-length".toList by decide] at h2
    have e1 : wireHeader T q "Transfer-Encoding".toList = [] := by
      unfold wireHeader
      rw [if_neg (by decide), if_neg (by decide), if_neg (by decide), if_pos (.inl rfl)]
    have e2 : wireHeader T q "Content-Length".toList = wireLength q := by
      unfold wireHeader
      rw [if_neg (by decide), if_neg (by decide), if_pos rfl]
    rw [e1] at h1
    rw [e2] at h2
    have hl : (sentMessage t host keys q).body.length = q.body.length := by
      simp [sentMessage, bodyText]
    rw [hl]
    unfold wireLength at h2
    split at h2
    · rw [List.map_singleton, trimOws_digits] at h2
      have := BodyLength.one h1 h2 (natToDec_ne_nil _) (fun c hc => natToDec_isDigit hc)
      rwa [digitsVal_natToDec] at this
    · rename_i hz
      have : q.body.length = 0 := by
        have := not_or.1 hz
        omega
      rw [this]
      exact .none h1 h2
  · refine ⟨(requestFields host keys q).map fun f => (f.1 ++ ": ".toList ++ f.2, (f.1, trimOws f.2)), ?_, ?_, ?_⟩
    · intro l hl
      obtain ⟨f, hf, rfl⟩ := List.mem_map.1 hl
      obtain ⟨h1, h2⟩ := requestFields_ok hc he hh f hf
      exact fieldLine_write (token_of_valid h1) h2
    · simp only [List.map_map, sentMessage]
      rfl
    · simp [sentMessage, crlf, List.flatMap_map]

/-- A target with a space cannot be read. -/
theorem space_unreadable {method t x : Str} (hm : Token method) (ht : containsCTL t = false) (hsp : ' ' ∈ t)
    (m : HttpRequest) (rest : Str) : ¬ ReadsRequest (method ++ ' ' :: (t ++ " HTTP/1.1\r\n".toList ++ x)) m rest := by
  intro h
  obtain ⟨lines, -, -, e⟩ := h.text
  obtain ⟨-, e1⟩ := cut_unique (token_no hm (by decide)) (token_no h.method (by decide)) e
  obtain ⟨a, b, rfl, ha⟩ := List.eq_append_cons_of_mem hsp
  have hmt : ' ' ∉ m.target := by
    intro hm'
    have := (h.target.2 _ hm').1
    exact absurd this (by decide)
  have e2 : a ++ ' ' :: (b ++ " HTTP/1.1\r\n".toList ++ x) = m.target ++ ' ' :: ("HTTP/1.1".toList ++ (crlf ++
      (lines.flatMap (fun l => l.1 ++ crlf) ++ (crlf ++ (m.body ++ rest))))) := by
    rw [← e1]; simp
  obtain ⟨-, e3⟩ := cut_unique ha hmt e2
  have hb : '\r' ∉ b ++ " HTTP/1.1".toList := by
    intro hm'
    rcases List.mem_append.1 hm' with h1 | h1
    · have := (containsCTL_no ht '\r' (by simp [h1])).1
      exact absurd this (by decide)
    · exact absurd h1 (by decide)
  have e4 : (b ++ " HTTP/1.1".toList) ++ '\r' :: ('\n' :: x) = "HTTP/1.1".toList ++ '\r' :: ('\n' ::
      (lines.flatMap (fun l => l.1 ++ crlf) ++ (crlf ++ (m.body ++ rest)))) := by
    have := e3
    simp only [crlf, List.cons_append, List.nil_append] at this
    simp only [crlf, List.cons_append, List.nil_append]
    rw [← this]; simp
  have e5 := congrArg List.length (cut_unique hb (by decide) e4).1
  simp at e5

end J8a

import Verif.Lemmas.Path
import Verif.Lemmas.UrlOk
import Verif.Model.Redirect
import Verif.Spec.Resource
/-!
# Lemmas about redirections
-/
namespace J8a
open Go Uri

/-! ## Decoding and segments -/

theorem decoded_cons {c : Char} (h : c ≠ '%') (r : Str) : decoded (c :: r) = c :: decoded r := by
  rw [decoded]
  rintro a b r rfl
  exact fun _ => absurd rfl h

theorem decoded_pct {a b : Char} (ha : a ∈ hexdig) (hb : b ∈ hexdig) (r : Str) :
    decoded ('%' :: a :: b :: r) = Char.ofNat (16 * hexVal a + hexVal b) :: decoded r := by
  rw [decoded, if_pos ⟨ha, hb⟩]

theorem hexdig_unhex : ∀ c ∈ hexdig, unhex c = hexVal c := by decide

/-- A path that decodes, byte by byte. -/
theorem unescape_cases {c : Char} {r x : Str} (h : unescape .path (c :: r) = some x) :
    (c ≠ '%' ∧ ∃ y, unescape .path r = some y ∧ x = c :: y) ∨
    (c = '%' ∧ ∃ a b s y, r = a :: b :: s ∧ a ∈ hexdig ∧ b ∈ hexdig ∧ unescape .path s = some y ∧
      x = Char.ofNat (16 * hexVal a + hexVal b) :: y) := by
  by_cases hc : c = '%'
  · subst hc
    right
    match r, h with
    | [], h => simp [unescape] at h
    | [a], h => simp [unescape] at h
    | a :: b :: s, h =>
      by_cases hab : isHex a = true ∧ isHex b = true
      · rw [unescape_path_pct hab.1 hab.2] at h
        have h1 := isHex_hexdig hab.1
        have h2 := isHex_hexdig hab.2
        rw [hexdig_unhex a h1, hexdig_unhex b h2] at h
        obtain ⟨y, hy, rfl⟩ := Option.map_eq_some_iff.mp h
        exact ⟨rfl, a, b, s, y, rfl, h1, h2, hy, rfl⟩
      · rw [unescape.eq_def] at h
        have : (!(isHex a && isHex b)) = true := by
          cases ha : isHex a <;> cases hb : isHex b <;> simp_all
        simp [this] at h
  · left
    rw [unescape_path_cons hc] at h
    obtain ⟨y, hy, rfl⟩ := Option.map_eq_some_iff.mp h
    exact ⟨hc, y, hy, rfl⟩

theorem decoded_eq : ∀ {s x : Str}, unescape .path s = some x → decoded s = x
  | [], x, h => by
    simp only [unescape, Option.some.injEq] at h
    subst h
    rfl
  | c :: r, x, h => by
    rcases unescape_cases h with ⟨hc, y, hy, rfl⟩ | ⟨rfl, a, b, s, y, rfl, ha, hb, hy, rfl⟩
    · rw [decoded_cons hc, decoded_eq hy]
    · rw [decoded_pct ha hb, decoded_eq hy]

theorem noEncodedSlash_tail {c : Char} {r : Str} (h : NoEncodedSlash (c :: r)) : NoEncodedSlash r :=
  ⟨fun hi => h.1 (hi.trans (List.suffix_cons c r).isInfix), fun hi => h.2 (hi.trans (List.suffix_cons c r).isInfix)⟩

/-- The encoded byte is a slash in two spellings only. -/
theorem encoded_slash : ∀ a ∈ hexdig, ∀ b ∈ hexdig, Char.ofNat (16 * hexVal a + hexVal b) = '/' →
    a = '2' ∧ (b = 'F' ∨ b = 'f') := by decide +kernel

theorem split_cons_ne {c : Char} (h : c ≠ '/') (r : Str) :
    ∃ w ws, split '/' r = w :: ws ∧ split '/' (c :: r) = (c :: w) :: ws := by
  cases hs : split '/' r with
  | nil => exact absurd (hs ▸ split_span r) (by simp)
  | cons w ws => exact ⟨w, ws, rfl, by rw [split, if_neg h, hs]⟩

/-- Without an encoded slash it is the same to split first and to decode first. -/
theorem split_decoded : ∀ {p x : Str}, NoEncodedSlash p → unescape .path p = some x →
    (split '/' p).map decoded = split '/' x
  | [], x, _, h => by
    simp only [unescape, Option.some.injEq] at h
    subst h
    rfl
  | c :: r, x, hn, h => by
    rcases unescape_cases h with ⟨hc, y, hy, rfl⟩ | ⟨rfl, a, b, s, y, rfl, ha, hb, hy, rfl⟩
    · have ih := split_decoded (noEncodedSlash_tail hn) hy
      by_cases hs : c = '/'
      · subst hs
        rw [split_cons_sep, split_cons_sep, List.map_cons, ih]
        rfl
      · obtain ⟨w, ws, h1, h2⟩ := split_cons_ne hs r
        obtain ⟨w', ws', h3, h4⟩ := split_cons_ne hs y
        rw [h1, h3, List.map_cons] at ih
        obtain ⟨e1, e2⟩ := List.cons.inj ih
        rw [h2, h4, List.map_cons, decoded_cons hc, e1, e2]
    · have ih := split_decoded (noEncodedSlash_tail (noEncodedSlash_tail (noEncodedSlash_tail hn))) hy
      have hv : Char.ofNat (16 * hexVal a + hexVal b) ≠ '/' := by
        intro he
        obtain ⟨rfl, rfl | rfl⟩ := encoded_slash a ha b hb he
        · exact hn.1 ⟨[], s, rfl⟩
        · exact hn.2 ⟨[], s, rfl⟩
      have hns : ∀ c ∈ hexdig, c ≠ '/' := by decide
      obtain ⟨w, ws, h1, h2⟩ := split_cons_ne (hns b hb) s
      obtain ⟨w1, ws1, g1, g2⟩ := split_cons_ne (hns a ha) (b :: s)
      obtain ⟨w2, ws2, k1, k2⟩ := split_cons_ne (show '%' ≠ '/' by decide) (a :: b :: s)
      obtain ⟨w', ws', h3, h4⟩ := split_cons_ne hv y
      rw [h2] at g1
      obtain ⟨rfl, rfl⟩ := List.cons.inj g1
      rw [g2] at k1
      obtain ⟨rfl, rfl⟩ := List.cons.inj k1
      rw [h1, h3, List.map_cons] at ih
      obtain ⟨e1, e2⟩ := List.cons.inj ih
      rw [k2, h4, List.map_cons, decoded_pct ha hb, e1, e2]

/-! ## Escaping and segments -/

theorem escape_append (m : Enc) : ∀ a b : Str, escape m (a ++ b) = escape m a ++ escape m b
  | [], _ => rfl
  | c :: a, b => by
    rw [List.cons_append, escape, escape, escape_append m a b]
    split <;> simp

theorem escape_cons_slash (s : Str) : escape .path ('/' :: s) = '/' :: escape .path s := by
  rw [escape, shouldEscape_slash]; rfl

theorem escape_join : ∀ l : List Str, escape .path (join ['/'] l) = join ['/'] (l.map (escape .path))
  | [] => rfl
  | [w] => rfl
  | w :: v :: l => by
    have ih := escape_join (v :: l)
    simp only [join, List.map_cons] at ih ⊢
    rw [escape_append, escape_append, ih]
    congr 1

theorem escape_render (l : List Str) : escape .path (renderSegs l) = renderSegs (l.map (escape .path)) := by
  unfold renderSegs
  rw [escape_cons_slash, escape_join]

theorem ascii_of_not_escaped {c : Char} (h : shouldEscape .path c = false) : c.toNat < 128 := by
  apply Nat.lt_of_not_le
  intro hn
  have : shouldEscape .path c = true := by
    have hna : isAlnum c = false := by
      cases ha : isAlnum c with
      | false => rfl
      | true =>
        simp only [isAlnum, Bool.or_eq_true, Bool.and_eq_true, decide_eq_true_eq, Char.le_def, UInt32.le_iff_toNat_le] at ha
        have e : c.val.toNat = c.toNat := rfl
        rw [e] at ha
        have : ('z'.val.toNat) = 122 ∧ 'Z'.val.toNat = 90 ∧ '9'.val.toNat = 57 := by decide
        omega
    have hm : ∀ t : Str, (∀ d ∈ t, d.toNat < 128) → c ∉ t := fun t ht hc => absurd (ht c hc) (by omega)
    have h1 := hm "-_.~".toList (by decide)
    have h2 := hm "$&+,/:;=?@".toList (by decide)
    unfold shouldEscape
    rw [hna]
    simp only [Bool.false_eq_true, if_false]
    rw [if_neg (by simp), if_neg h1, if_neg (fun h => h2 h.1), if_neg (fun h => h2 h.1), if_neg (fun h => h2 h.1),
      if_neg (by simp)]
  rw [this] at h
  cases h

/-- What is escaped is ASCII, and has a slash only where there was one. -/
theorem escape_ascii : ∀ {s : Str}, (∀ c ∈ s, c.toNat < 256) → ∀ c ∈ escape .path s, c.toNat < 128 ∧ (c = '/' → '/' ∈ s)
  | [], _ => by simp [escape]
  | d :: s, hb => by
    have hs := escape_ascii (s := s) (fun c hc => hb c (by simp [hc]))
    have hx : ∀ n < 16, (upperHex n).toNat < 128 ∧ upperHex n ≠ '/' := by decide
    have hd := hb d (by simp)
    rw [escape]
    split
    · intro c hc
      simp only [List.mem_cons] at hc
      rcases hc with rfl | rfl | rfl | hc
      · exact ⟨by decide, fun h => absurd h (by decide)⟩
      · exact ⟨(hx _ (by omega)).1, fun h => absurd h (hx _ (by omega)).2⟩
      · exact ⟨(hx _ (by omega)).1, fun h => absurd h (hx _ (by omega)).2⟩
      · exact ⟨(hs c hc).1, fun h => by simp [(hs c hc).2 h]⟩
    · rename_i hn
      intro c hc
      rcases List.mem_cons.mp hc with rfl | hc
      · exact ⟨ascii_of_not_escaped (by simpa using hn), fun h => by simp [h]⟩
      · exact ⟨(hs c hc).1, fun h => by simp [(hs c hc).2 h]⟩

theorem escape_plainSeg {w : Str} (hb : ∀ c ∈ w, c.toNat < 256) (h : PlainSeg w) : PlainSeg (escape .path w) := by
  have hu := unescape_escape hb
  refine ⟨?_, ?_, ?_, fun hm => h.2.2.2 ((escape_ascii hb _ hm).2 rfl)⟩
  · intro he; rw [he] at hu; exact h.1 (Option.some.inj hu).symm
  · intro he; rw [he] at hu; exact h.2.1 (Option.some.inj hu).symm
  · intro he; rw [he] at hu; exact h.2.2.1 (Option.some.inj hu).symm

theorem mem_render {l : List Str} {w : Str} (hw : w ∈ l) {c : Char} (hc : c ∈ w) : c ∈ renderSegs l := by
  have key : ∀ l : List Str, w ∈ l → c ∈ join ['/'] l := by
    intro l
    induction l with
    | nil => simp
    | cons a l ih =>
      intro hw
      cases l with
      | nil =>
        rw [List.mem_singleton] at hw
        subst hw
        exact hc
      | cons b l =>
        rcases List.mem_cons.mp hw with rfl | hw
        · simp [join, hc]
        · have := ih hw
          simp only [join, List.mem_append]
          exact .inr this
  exact List.mem_cons_of_mem _ (key l hw)

/-- A canonical path: its segments, perhaps with a slash at the end. -/
theorem canonical_form {p : Str} (h : canonicalPath p = p) :
    p = renderSegs (segments p) ∨ (segments p ≠ [] ∧ p = renderSegs (segments p) ++ ['/']) := by
  unfold canonicalPath at h
  simp only at h
  split at h
  · rename_i hc; exact .inr ⟨hc.1, h.symm⟩
  · exact .inl h.symm

/-- `path.Clean` and the trailing slash leave what a canonical path is escaped to. -/
theorem cleanRelative_canonical {p q dir : Str} (hb : ∀ c ∈ p, c.toNat < 256) (h : canonicalPath p = p)
    (hq : q = [] ∨ q.head? = some '?') : cleanRelative dir (escape .path p ++ q) = escape .path p ++ q := by
  have hpl := segments_plain p
  have hhead : (escape .path p).head? = some '/' := by
    have := canonical_head p
    rw [h] at this
    match p, this with
    | d :: p, this =>
      simp only [List.head?_cons, Option.some.injEq] at this
      subst this
      rw [escape_cons_slash]; rfl
  have hhead' : (escape .path p ++ q).head? = some '/' := by
    cases he : escape .path p with
    | nil => rw [he] at hhead; cases hhead
    | cons d e => rw [he] at hhead; simpa using hhead
  have hnq : '?' ∉ escape .path p := fun hm => (escape_plain hb _ hm).1 rfl
  have htd : (escape .path p ++ q).takeWhile (· ≠ '?') = escape .path p ∧
      (escape .path p ++ q).dropWhile (· ≠ '?') = q := by
    match q, hq with
    | [], _ =>
      have hs : ∀ d ∈ escape .path p, decide (d ≠ '?') = true := fun d hd => by
        simp only [decide_eq_true_eq]; rintro rfl; exact hnq hd
      rw [List.append_nil, takeWhile_all hs, dropWhile_all hs]
      exact ⟨rfl, rfl⟩
    | c :: q, hq =>
      have : c = '?' := by simpa using hq
      subst this
      exact ⟨takeWhile_sep hnq q, dropWhile_sep hnq q⟩
  unfold cleanRelative
  rw [if_neg (fun hn => hn hhead')]
  simp only
  rw [htd.1, htd.2]
  congr 1
  have hsb : ∀ w ∈ segments p, ∀ c ∈ w, c.toNat < 256 := by
    intro w hw c hc
    apply hb
    have := mem_render hw hc
    rcases canonical_form h with e | ⟨-, e⟩
    · rw [e]; exact this
    · rw [e]; exact List.mem_append_left _ this
  have hpe : ∀ w ∈ (segments p).map (escape .path), PlainSeg w := by
    intro w hw
    obtain ⟨v, hv, rfl⟩ := List.mem_map.mp hw
    exact escape_plainSeg (hsb v hv) (hpl v hv)
  have hclean : ∀ s, renderSegs ((segments p).map (escape .path)) ++ s = escape .path p → s = [] ∨ s = ['/'] →
      pathClean (escape .path p) = renderSegs ((segments p).map (escape .path)) := by
    intro s hs hs'
    have hseg : segments (escape .path p) = (segments p).map (escape .path) := by
      rw [← hs]
      rcases hs' with rfl | rfl
      · rw [List.append_nil, segments_render hpe]
      · rw [segments_snoc, segments_render hpe]
    cases he : escape .path p with
    | nil => rw [he] at hhead; cases hhead
    | cons d e =>
      have : d = '/' := by rw [he] at hhead; simpa using hhead
      subst this
      rw [pathClean_eq, ← segments_slash, ← he, hseg]
  rcases canonical_form h with e | ⟨hne, e⟩
  · have e' : renderSegs ((segments p).map (escape .path)) ++ [] = escape .path p := by
      rw [List.append_nil, ← escape_render, ← e]
    rw [hclean [] e' (.inl rfl)]
    rw [List.append_nil] at e'
    rw [e', if_neg (fun hc => hc.2 hc.1)]
  · have e' : renderSegs ((segments p).map (escape .path)) ++ ['/'] = escape .path p := by
      rw [← escape_render]
      conv => rhs; rw [e]
      rw [escape_append]
      rfl
    rw [hclean ['/'] e' (.inr rfl)]
    have hl := render_last hpe (by simpa using hne)
    rw [if_pos ⟨by rw [← e']; simp, hl⟩, e']

/-! ## The URL of a target in origin form -/

/-- What the parser makes of a target that begins with a slash. -/
theorem origin_url {t : Str} {u : Url} (hs : t.head? = some '/') (h : parseRequestURI t = some u) :
    u.scheme = [] ∧ u.opaq = [] ∧ u.host = [] ∧ u.hasUser = false ∧ unescape .path (writtenPath t) = some u.path ∧
    (u.rawPath = [] ∨ u.rawPath = writtenPath t) ∧ u.rawQuery = (writtenQuery t).tail ∧
    (if u.forceQuery ∨ u.rawQuery ≠ [] then '?' :: u.rawQuery else []) = writtenQuery t := by
  have hctl := parseRequestURI_ctl h
  match t, hs with
  | d :: t, hs =>
    have : d = '/' := by simpa using hs
    subst this
    rw [parseRequestURI_slash hctl] at h
    unfold Url.setPath at h
    by_cases hq : '?' ∈ '/' :: t
    · obtain ⟨a, q, ha, e⟩ := exists_cut hq
      have hw : writtenPath ('/' :: t) = a := by unfold writtenPath; rw [e]; exact takeWhile_sep ha q
      have hw' : writtenQuery ('/' :: t) = '?' :: q := by unfold writtenQuery; rw [e]; exact dropWhile_sep ha q
      rw [hw, hw']
      rw [e, splitQuery_some ha] at h
      simp only at h
      cases hd : unescape .path a with
      | none => rw [hd] at h; cases h
      | some y =>
        rw [hd] at h
        obtain rfl := Option.some.inj h
        refine ⟨rfl, rfl, rfl, rfl, rfl, ?_, rfl, ?_⟩
        · simp only
          split
          · exact .inl rfl
          · exact .inr rfl
        simp only
        rw [if_pos]
        by_cases hq : q = []
        · simp [hq]
        · exact .inr hq
    · have hall : ∀ d ∈ '/' :: t, decide (d ≠ '?') = true := fun d hd => by
        simp only [decide_eq_true_eq]; rintro rfl; exact hq hd
      have hw : writtenPath ('/' :: t) = '/' :: t := by unfold writtenPath; exact takeWhile_all hall
      have hw' : writtenQuery ('/' :: t) = [] := by unfold writtenQuery; exact dropWhile_all hall
      rw [hw, hw']
      rw [splitQuery_none hq] at h
      simp only at h
      cases hd : unescape .path ('/' :: t) with
      | none => rw [hd] at h; cases h
      | some y =>
        rw [hd] at h
        obtain rfl := Option.some.inj h
        refine ⟨rfl, rfl, rfl, rfl, rfl, ?_, rfl, rfl⟩
        simp only
        split
        · exact .inl rfl
        · exact .inr rfl

theorem writtenQuery_head (t : Str) : writtenQuery t = [] ∨ (writtenQuery t).head? = some '?' := by
  unfold writtenQuery
  induction t with
  | nil => exact .inl rfl
  | cons c t ih =>
    rw [List.dropWhile_cons]
    split
    · exact ih
    · rename_i h; right; simpa using h

theorem written_append (t : Str) : writtenPath t ++ writtenQuery t = t := List.takeWhile_append_dropWhile

/-! ## Bytes that are not ASCII -/

theorem hexEscape_ascii : ∀ {s : Str}, (∀ c ∈ s, c.toNat < 128) → hexEscapeNonASCII s = s
  | [], _ => rfl
  | c :: s, h => by
    have ih := hexEscape_ascii (s := s) fun d hd => h d (by simp [hd])
    unfold hexEscapeNonASCII at ih ⊢
    rw [List.flatMap_cons, if_neg (by have := h c (by simp); omega), ih]
    rfl

theorem hexEscape_append (a b : Str) : hexEscapeNonASCII (a ++ b) = hexEscapeNonASCII a ++ hexEscapeNonASCII b := by
  unfold hexEscapeNonASCII; rw [List.flatMap_append]

theorem hexEscape_cons_low {c : Char} (h : c.toNat < 128) (s : Str) :
    hexEscapeNonASCII (c :: s) = c :: hexEscapeNonASCII s := by
  unfold hexEscapeNonASCII
  rw [List.flatMap_cons, if_neg (by omega)]; rfl

theorem hexEscape_cons_high {c : Char} (h : 128 ≤ c.toNat) (s : Str) :
    hexEscapeNonASCII (c :: s) = '%' :: hexDigit (c.toNat / 16) :: hexDigit (c.toNat % 16) :: hexEscapeNonASCII s := by
  unfold hexEscapeNonASCII
  rw [List.flatMap_cons, if_pos h]; rfl

theorem hexDigit_hexdig : ∀ n < 16, hexDigit n ∈ hexdig ∧ hexVal (hexDigit n) = n ∧ (hexDigit n).toNat < 0x7f ∧
    0x20 < (hexDigit n).toNat ∧ hexDigit n ≠ '#' ∧ hexDigit n ≠ '?' := by decide

theorem hexdig_low : ∀ c ∈ hexdig, c.toNat < 128 := by decide

/-- The bytes that are written are those of the text or of an encoded byte. -/
theorem hexEscape_mem : ∀ {s : Str}, (∀ c ∈ s, c.toNat < 256) → ∀ c ∈ hexEscapeNonASCII s,
    (c ∈ s ∧ c.toNat < 128) ∨ (c.toNat < 0x7f ∧ 0x20 < c.toNat ∧ c ≠ '#' ∧ c ≠ '?')
  | [], _ => by simp [hexEscapeNonASCII]
  | d :: s, hb => by
    have ih := hexEscape_mem (s := s) fun c hc => hb c (by simp [hc])
    have hd := hb d (by simp)
    intro c hc
    by_cases h : 128 ≤ d.toNat
    · rw [hexEscape_cons_high h] at hc
      simp only [List.mem_cons] at hc
      rcases hc with rfl | rfl | rfl | hc
      · exact .inr (by decide)
      · have := hexDigit_hexdig (d.toNat / 16) (by omega)
        exact .inr this.2.2
      · have := hexDigit_hexdig (d.toNat % 16) (by omega)
        exact .inr this.2.2
      · rcases ih c hc with ⟨h1, h2⟩ | h1
        · exact .inl ⟨by simp [h1], h2⟩
        · exact .inr h1
    · rw [hexEscape_cons_low (by omega)] at hc
      rcases List.mem_cons.mp hc with rfl | hc
      · exact .inl ⟨by simp, by omega⟩
      · rcases ih c hc with ⟨h1, h2⟩ | h1
        · exact .inl ⟨by simp [h1], h2⟩
        · exact .inr h1

/-- A percent sign that does not start an encoded byte stays. -/
theorem decoded_lone {r : Str} (h : ∀ a b s, r = a :: b :: s → ¬ (a ∈ hexdig ∧ b ∈ hexdig)) :
    decoded ('%' :: r) = '%' :: decoded r := by
  match r, h with
  | [], _ => rfl
  | [a], _ => rfl
  | a :: b :: s, h => rw [decoded, if_neg (h a b s rfl)]

theorem hexEscape_digit {s r : Str} {a : Char} (e : hexEscapeNonASCII s = a :: r) (ha : a ∈ hexdig) :
    ∃ s', s = a :: s' ∧ hexEscapeNonASCII s' = r := by
  cases s with
  | nil => cases e
  | cons d s =>
    by_cases hd : 128 ≤ d.toNat
    · rw [hexEscape_cons_high hd] at e
      rw [← (List.cons.inj e).1] at ha
      exact absurd ha (by decide)
    · rw [hexEscape_cons_low (by omega)] at e
      exact ⟨s, by rw [(List.cons.inj e).1], (List.cons.inj e).2⟩

theorem hexEscape_digits {s r : Str} {a b : Char} (e : hexEscapeNonASCII s = a :: b :: r) (ha : a ∈ hexdig)
    (hb : b ∈ hexdig) : ∃ r', s = a :: b :: r' := by
  obtain ⟨s', rfl, e'⟩ := hexEscape_digit e ha
  obtain ⟨r', rfl, -⟩ := hexEscape_digit e' hb
  exact ⟨r', rfl⟩

theorem decoded_hexEscape : ∀ (n : Nat) {s : Str}, s.length ≤ n → (∀ c ∈ s, c.toNat < 256) →
    decoded (hexEscapeNonASCII s) = decoded s
  | 0, s, hl, _ => by
    have : s = [] := by simpa using hl
    subst this
    rfl
  | n + 1, [], _, _ => rfl
  | n + 1, c :: s, hl, hb => by
    simp only [List.length_cons] at hl
    have hbs : ∀ c ∈ s, c.toNat < 256 := fun d hd => hb d (by simp [hd])
    have ih := decoded_hexEscape n (s := s) (by omega) hbs
    have hc := hb c (by simp)
    by_cases hp : c = '%'
    · subst hp
      rw [hexEscape_cons_low (by decide)]
      by_cases hx : ∃ a b r, s = a :: b :: r ∧ a ∈ hexdig ∧ b ∈ hexdig
      · obtain ⟨a, b, r, rfl, ha, hb'⟩ := hx
        simp only [List.length_cons] at hl
        rw [hexEscape_cons_low (hexdig_low a ha), hexEscape_cons_low (hexdig_low b hb'), decoded_pct ha hb',
          decoded_pct ha hb', decoded_hexEscape n (s := r) (by omega) fun d hd => hbs d (by simp [hd])]
      · have h1 : ∀ a b r, s = a :: b :: r → ¬ (a ∈ hexdig ∧ b ∈ hexdig) := fun a b r e h => hx ⟨a, b, r, e, h⟩
        rw [decoded_lone h1, decoded_lone, ih]
        intro a b r e hab
        obtain ⟨r, rfl⟩ := hexEscape_digits e hab.1 hab.2
        exact h1 _ _ _ rfl hab
    · rw [decoded_cons hp]
      by_cases hh : 128 ≤ c.toNat
      · have h1 := hexDigit_hexdig (c.toNat / 16) (by omega)
        have h2 := hexDigit_hexdig (c.toNat % 16) (by omega)
        rw [hexEscape_cons_high hh, decoded_pct h1.1 h2.1, h1.2.1, h2.2.1, Nat.div_add_mod, Char.ofNat_toNat, ih]
      · rw [hexEscape_cons_low (by omega), decoded_cons hp, ih]

/-! ## Where a redirection leads -/

/-- A canonical path has exactly one slash in front. -/
theorem canonical_second {p : Str} (h : canonicalPath p = p) : ∃ s, p = '/' :: s ∧ s.head? ≠ some '/' := by
  have hr : ∃ s, renderSegs (segments p) = '/' :: s ∧ s.head? ≠ some '/' ∧ (segments p ≠ [] → s ≠ []) := by
    refine ⟨join ['/'] (segments p), rfl, ?_, ?_⟩
    · have hp := segments_plain p
      match segments p, hp with
      | [], _ => simp [join]
      | [w], hp =>
        have := hp w (by simp)
        intro hh
        exact this.2.2.2 (List.mem_of_mem_head? hh)
      | w :: v :: l, hp =>
        have := hp w (by simp)
        match w, this with
        | [], this => exact absurd rfl this.1
        | c :: w, this =>
          simp only [join, List.cons_append, List.head?_cons, ne_eq, Option.some.injEq]
          rintro rfl
          exact this.2.2.2 (by simp)
    · intro hne he
      have hp := segments_plain p
      match hs : segments p with
      | [] => exact hne hs
      | [w] => rw [hs] at he hp; exact (hp w (by simp)).1 he
      | w :: v :: l => rw [hs] at he; simp [join] at he
  obtain ⟨s, hs, hh, hn⟩ := hr
  rcases canonical_form h with e | ⟨hne, e⟩
  · exact ⟨s, by rw [e, hs], hh⟩
  · refine ⟨s ++ ['/'], by rw [e, hs]; rfl, ?_⟩
    match s, hn hne with
    | c :: s, _ => simpa using hh

/-- The URL of a redirection, written down: a canonical path and a query. -/
theorem redirectLocation_origin {p q : Str} (hb : ∀ c ∈ p, c.toNat < 256) (h : canonicalPath p = p)
    (hq : q = [] ∨ q.head? = some '?') :
    redirectLocation [] (escape .path p ++ q) = escape .path p ++ hexEscapeNonASCII q := by
  have hc := cleanRelative_canonical (dir := []) hb h hq
  have : ∀ d : Option Url, hexEscapeNonASCII (match d with
      | some u => if u.scheme = [] ∧ u.host = [] then cleanRelative [] (escape .path p ++ q) else escape .path p ++ q
      | none => escape .path p ++ q) = escape .path p ++ hexEscapeNonASCII q := by
    have he : hexEscapeNonASCII (escape .path p ++ q) = escape .path p ++ hexEscapeNonASCII q := by
      rw [hexEscape_append, hexEscape_ascii fun c hc => (escape_ascii hb c hc).1]
    intro d
    rw [hc]
    cases d with
    | none => exact he
    | some u => simp only [ite_self]; exact he
  exact this _

theorem escapedPath_other {u : Url} {p : Str} (h1 : u.rawPath ≠ [] → unescape .path u.rawPath ≠ some p)
    (h2 : p ≠ ['*']) : ({ u with path := p } : Url).escapedPath = escape .path p := by
  unfold Url.escapedPath
  rw [if_neg (fun h => h1 h.1 h.2.2), if_neg h2]

/-- `URL.String` of a URL with a path and a query only. -/
theorem string_path {u : Url} {user s : Str} (h1 : u.scheme = []) (h2 : u.opaq = []) (h3 : u.host = [])
    (h4 : u.hasUser = false) (h5 : u.escapedPath = '/' :: s) :
    u.string user = '/' :: s ++ if u.forceQuery ∨ u.rawQuery ≠ [] then '?' :: u.rawQuery else [] := by
  unfold Url.string
  simp [h1, h2, h3, h4, h5]

/-! ## The bytes of a canonical path -/

theorem mem_of_split (s : Str) : ∀ w ∈ split '/' s, ∀ c ∈ w, c ∈ s := by
  induction s with
  | nil => intro w hw c hc; rw [split, List.mem_singleton] at hw; subst hw; exact hc
  | cons d s ih =>
    intro w hw c hc
    by_cases hd : d = '/'
    · subst hd
      rw [split_cons_sep] at hw
      rcases List.mem_cons.mp hw with rfl | hw
      · cases hc
      · exact List.mem_cons_of_mem _ (ih w hw c hc)
    · obtain ⟨v, vs, h1, h2⟩ := split_cons_ne hd s
      rw [h2] at hw
      rw [h1] at ih
      rcases List.mem_cons.mp hw with rfl | hw
      · rcases List.mem_cons.mp hc with rfl | hc
        · simp
        · exact List.mem_cons_of_mem _ (ih v (by simp) c hc)
      · exact List.mem_cons_of_mem _ (ih w (by simp [hw]) c hc)

theorem foldl_segStep_sub {ws : List Str} : ∀ {l : List Str}, ∀ w ∈ ws.foldl segStep l, w ∈ l ∨ w ∈ ws := by
  induction ws with
  | nil => intro l w hw; exact .inl hw
  | cons a ws ih =>
    intro l w hw
    rw [List.foldl_cons] at hw
    rcases ih w hw with h | h
    · unfold segStep at h
      split at h
      · exact .inl h
      · split at h
        · exact .inl (List.dropLast_subset l h)
        · rcases List.mem_append.mp h with h | h
          · exact .inl h
          · rw [List.mem_singleton] at h; subst h; exact .inr (by simp)
    · exact .inr (by simp [h])

theorem mem_of_join {c : Char} : ∀ {l : List Str}, c ∈ join ['/'] l → c = '/' ∨ ∃ w ∈ l, c ∈ w
  | [], h => by simp [join] at h
  | [w], h => .inr ⟨w, by simp, h⟩
  | w :: v :: l, h => by
    simp only [join, List.mem_append, List.mem_singleton] at h
    rcases h with (h | h) | h
    · exact .inr ⟨w, by simp, h⟩
    · exact .inl h
    · rcases mem_of_join (l := v :: l) h with h | ⟨y, hy, hc⟩
      · exact .inl h
      · exact .inr ⟨y, List.mem_cons_of_mem _ hy, hc⟩

theorem mem_canonical {c : Char} {p : Str} (h : c ∈ canonicalPath p) : c = '/' ∨ c ∈ p := by
  have key : c ∈ renderSegs (segments p) → c = '/' ∨ c ∈ p := by
    intro h
    rcases List.mem_cons.mp h with h | h
    · exact .inl h
    rcases mem_of_join h with h | ⟨w, hw, hc⟩
    · exact .inl h
    · rcases foldl_segStep_sub w hw with h | h
      · cases h
      · exact .inr (mem_of_split p w h c hc)
  unfold canonicalPath at h
  simp only at h
  split at h
  · rcases List.mem_append.mp h with h | h
    · exact key h
    · exact .inl (by simpa using h)
  · exact key h

end J8a

import Verif.Lemmas.ReqRead
import Verif.Spec.Incoming
import Verif.Lemmas.Url
/-!
# What is read of a well-formed request
-/
namespace J8a
open Go Uri

/-! ## Lines -/

theorem readLine_crlf {l : Str} (h : '\n' ∉ l) (r : Str) : readLine (l ++ (crlf ++ r)) = some (l, r) := by
  have e : l ++ (crlf ++ r) = (l ++ ['\r']) ++ '\n' :: r := by simp [crlf]
  have hn : '\n' ∉ l ++ ['\r'] := by simpa using h
  unfold readLine
  rw [e, cutAt_sep hn, if_pos (by simp)]
  simp

theorem FieldLine.no_lf {line : Str} {f : Str × Str} (h : FieldLine line f) : '\n' ∉ line := by
  obtain ⟨w1, w2, h1, h2, rfl⟩ := h.text
  intro hm
  simp only [List.mem_append, List.mem_cons] at hm
  rcases hm with hm | hm | hm | hm | hm
  · exact token_no h.name (by decide) hm
  · exact absurd hm (by decide)
  · rcases h1 _ hm with h | h <;> exact absurd h (by decide)
  · rcases h.value _ hm with h | h
    · exact absurd h (by decide)
    · exact absurd h (by decide)
  · rcases h2 _ hm with h | h <;> exact absurd h (by decide)

theorem headLines_fields (r : Str) : ∀ (lines : List (Str × (Str × Str))) (n : Nat), (∀ l ∈ lines, FieldLine l.1 l.2) →
    lines.length < n →
    headLines n (lines.flatMap (fun l => l.1 ++ crlf) ++ (crlf ++ r)) = some (lines.map Prod.fst, r) := by
  intro lines
  induction lines with
  | nil =>
    intro n _ hn
    obtain ⟨n, rfl⟩ : ∃ k, n = k + 1 := ⟨n - 1, by simp at hn; omega⟩
    rw [List.flatMap_nil, headLines]
    have := readLine_crlf (l := []) (by simp) r
    simp only [List.nil_append] at this ⊢
    rw [this]
    rfl
  | cons a lines ih =>
    intro n h hn
    obtain ⟨n, rfl⟩ : ∃ k, n = k + 1 := ⟨n - 1, by simp at hn; omega⟩
    have ha := h a (by simp)
    rw [List.flatMap_cons, List.append_assoc, List.append_assoc, headLines, readLine_crlf ha.no_lf]
    obtain ⟨c, t, ht⟩ := List.exists_cons_of_ne_nil ha.ne_nil
    rw [ht]
    simp only
    rw [ih n (fun l hl => h l (by simp [hl])) (by simp at hn; omega)]
    simp [ht]

theorem lines_length (lines : List (Str × (Str × Str))) (x : Str) :
    lines.length ≤ (lines.flatMap (fun l => l.1 ++ crlf) ++ x).length := by
  induction lines with
  | nil => simp
  | cons a l ih =>
    rw [List.flatMap_cons]
    simp only [List.length_append, List.length_cons, crlf] at ih ⊢
    omega

theorem token_head {f : Str} (h : Token f) : ∃ c t, f = c :: t ∧ c ∈ tchars := by
  obtain ⟨c, t, ht⟩ := List.exists_cons_of_ne_nil h.1
  exact ⟨c, t, ht, h.2 c (by simp [ht])⟩

theorem FieldLine.not_fold {line : Str} {f : Str × Str} (h : FieldLine line f) : isFold line = false := by
  obtain ⟨w1, w2, -, -, rfl⟩ := h.text
  obtain ⟨c, t, ht, hc⟩ := token_head h.name
  rw [ht]
  simp only [List.cons_append, isFold, isBlank, Bool.or_eq_false_iff, decide_eq_false_iff_not]
  constructor <;> rintro rfl <;> exact absurd hc (by decide)

theorem FieldLine.colon {line : Str} {f : Str × Str} (h : FieldLine line f) : line.contains ':' = true := by
  obtain ⟨w1, w2, -, -, rfl⟩ := h.text
  simp

theorem joinFolds_none : ∀ (ls : List Str) (kv : Str), (∀ l ∈ ls, isFold l = false) →
    joinFolds kv ls = kv :: ls.map trimBlank := by
  intro ls
  induction ls with
  | nil => intro kv _; rfl
  | cons l ls ih =>
    intro kv h
    rw [joinFolds, if_neg (by rw [h l (by simp)]; decide), ih _ (fun a ha => h a (by simp [ha]))]
    rfl

theorem unfoldLines_fields {lines : List (Str × (Str × Str))} (h : ∀ l ∈ lines, FieldLine l.1 l.2) :
    unfoldLines (lines.map Prod.fst) = some (lines.map fun l => trimBlank l.1) := by
  cases lines with
  | nil => rfl
  | cons a ls =>
    have ha := h a (by simp)
    rw [List.map_cons, unfoldLines, if_neg (by rw [ha.not_fold]; decide), if_pos, joinFolds_none]
    · simp
    · intro l hl
      obtain ⟨b, hb, rfl⟩ := List.mem_map.1 hl
      exact (h b (by simp [hb])).not_fold
    · rw [List.all_eq_true]
      intro l hl
      rw [← List.map_cons] at hl
      obtain ⟨b, hb, rfl⟩ := List.mem_map.1 hl
      rw [(h b hb).colon]
      simp

/-! ## Fields -/

theorem trimRight_cons {p : Char → Bool} {c : Char} (hc : p c = false) (a b : Str) :
    ((a ++ c :: b).reverse.dropWhile p).reverse = a ++ c :: (b.reverse.dropWhile p).reverse := by
  rw [List.reverse_append, List.reverse_cons, List.append_assoc, List.dropWhile_append]
  split
  · rename_i h
    have hb : b.reverse.dropWhile p = [] := by simpa using h
    rw [hb]
    simp [hc]
  · simp

theorem isBlank_eq : isBlank = isOws := rfl

theorem mimeField_line {line : Str} {f : Str × Str} (h : FieldLine line f) :
    mimeField (trimBlank line) = (canon f.1, f.2) := by
  obtain ⟨w1, w2, h1, h2, e⟩ := h.text
  have hf : line.dropWhile isBlank = line := by
    have := h.not_fold
    cases line with
    | nil => rfl
    | cons c t =>
      simp only [isFold] at this
      rw [List.dropWhile_cons, if_neg (by rw [this]; decide)]
  unfold trimBlank
  rw [hf, e, trimRight_cons (by decide)]
  unfold mimeField
  rw [cutAt_sep (token_no h.name (by decide))]
  have ht := trimOws_value h1 h2 h.first h.last
  have : (((w1 ++ (f.2 ++ w2)).reverse.dropWhile isBlank).reverse).dropWhile isBlank = f.2 := by
    have comm : ∀ x : Str, ((x.reverse.dropWhile isOws).reverse).dropWhile isOws =
        ((x.dropWhile isOws).reverse.dropWhile isOws).reverse := by
      intro x
      induction x with
      | nil => rfl
      | cons c x ih =>
        by_cases hc : isOws c = true
        · rw [List.dropWhile_cons, if_pos hc, ← ih, List.reverse_cons, List.dropWhile_append]
          split
          · rename_i hx
            have : x.reverse.dropWhile isOws = [] := by simpa using hx
            rw [this]
            simp [hc]
          · simp [hc]
        · rw [List.dropWhile_cons, if_neg hc]
          have hc' : isOws c = false := by simpa using hc
          have := trimRight_cons hc' [] x
          simp only [List.nil_append] at this
          rw [this, List.dropWhile_cons, if_neg hc]
    rw [isBlank_eq]
    exact (comm _).trans ht
  rw [this]

/-- Names are the same in any case. -/
theorem canon_eq_iff {f k : Str} (hf : f.all isTokenChar = true) (hk : k.all isTokenChar = true) :
    canon f = canon k ↔ toLower f = toLower k := by
  constructor
  · intro h
    rw [← lower_canon f, h, lower_canon]
  · intro h
    unfold canon
    rw [if_pos hf, if_pos hk, ← canonGo_lower true f, ← canonGo_lower true k, h]

theorem char_of_token {c : Char} (h : c ∈ tchars) : isTokenChar c = true :=
  List.all_eq_true.1 (show tchars.all isTokenChar = true by decide) c h

theorem all_of_token {s : Str} (h : Token s) : s.all isTokenChar = true :=
  List.all_eq_true.2 fun c hc => char_of_token (h.2 c hc)

/-- The header map of field lines. -/
theorem values_fields {lines : List (Str × (Str × Str))} (h : ∀ l ∈ lines, FieldLine l.1 l.2) {k : Str}
    (hk : k.all isTokenChar = true) (hne : k ≠ []) :
    (mimeHeader (lines.map fun l => trimBlank l.1)).values (canon k) = fieldValues (lines.map Prod.snd) (toLower k) := by
  have hcn : canon k ≠ [] := by
    intro e
    have := lower_canon k
    rw [e] at this
    cases k with
    | nil => exact hne rfl
    | cons c t => simp [toLower] at this
  rw [values_mimeHeader _ _ hcn, List.map_map]
  unfold fieldValues
  have e : lines.map (mimeField ∘ fun l => trimBlank l.1) = (lines.map Prod.snd).map fun f => (canon f.1, f.2) := by
    rw [List.map_map]
    apply List.map_congr_left
    intro l hl
    exact mimeField_line (h l hl)
  rw [e, List.filter_map, List.map_map]
  have : (lines.map Prod.snd).filter ((fun f : Str × Str => decide (f.1 = canon k)) ∘ fun f => (canon f.1, f.2)) =
      (lines.map Prod.snd).filter fun f => toLower f.1 = toLower k := by
    apply List.filter_congr
    intro f hf
    obtain ⟨l, hl, rfl⟩ := List.mem_map.1 hf
    simp only [Function.comp_apply]
    exact decide_eq_decide.2 (canon_eq_iff (all_of_token (h l hl).name) hk)
  rw [this]
  rfl

/-! ## Bodies -/

theorem parseHexUint_hex {s : Str} (h : ∀ c ∈ s, c ∈ hexDigits) (hl : s.length ≤ 16) :
    parseHexUint s = some (hexNumber s) := by
  have key : ∀ c ∈ hexDigits, ((c.isDigit || (c.toNat ≥ 97 && c.toNat ≤ 102) || (c.toNat ≥ 65 && c.toNat ≤ 70)) = true) ∧
      (if c.isDigit then c.toNat - 48 else if c.toNat ≥ 97 then c.toNat - 87 else c.toNat - 55) = hexDigitValue c := by
    decide
  unfold parseHexUint
  rw [if_pos ⟨hl, List.all_eq_true.2 fun c hc => (key c (h c hc)).1⟩]
  unfold hexNumber
  clear hl
  congr 1
  generalize 0 = n
  induction s generalizing n with
  | nil => rfl
  | cons c s ih =>
    rw [List.foldl_cons, List.foldl_cons, (key c (h c (by simp))).2]
    exact ih (fun d hd => h d (by simp [hd])) _

theorem hex_no {s : Str} (h : ∀ c ∈ s, c ∈ hexDigits) {c : Char} (hc : c ∉ hexDigits) : c ∉ s := fun hm => hc (h c hm)

theorem chunkSize_line {size ext : Str} (hs : size ≠ []) (hx : ∀ c ∈ size, c ∈ hexDigits) (hl : size.length ≤ 16)
    (he : ChunkExt ext) : chunkSize (size ++ (ext ++ ['\r'])) = some (hexNumber size) := by
  unfold chunkSize
  rcases he with rfl | ⟨t, rfl, -, -⟩
  · obtain ⟨a, c, hac⟩ : ∃ a c, size = a ++ [c] := ⟨_, _, (List.dropLast_concat_getLast hs).symm⟩
    have hc : isASCIISpace c = false := by
      have := hx c (by simp [hac])
      exact (show ∀ c ∈ hexDigits, isASCIISpace c = false by decide) c this
    have : ((size ++ ([] ++ ['\r'])).reverse.dropWhile isASCIISpace).reverse = size := by
      have := trimRight_cons hc a ['\r']
      rw [hac]
      simp only [List.append_assoc, List.nil_append, List.cons_append] at this ⊢
      rw [this]
      simp [isASCIISpace]
    rw [this, cutAt_none (hex_no hx (by decide))]
    exact parseHexUint_hex hx hl
  · rw [List.cons_append, trimRight_cons (by decide), cutAt_sep (hex_no hx (by decide))]
    exact parseHexUint_hex hx hl

theorem readTrailer_fields {lines : List (Str × (Str × Str))} (h : ∀ l ∈ lines, FieldLine l.1 l.2) (r : Str) :
    readTrailer (lines.flatMap (fun l => l.1 ++ crlf) ++ (crlf ++ r)) = some r := by
  unfold readTrailer
  split
  · rename_i ht
    cases lines with
    | nil => simp [crlf]
    | cons a ls =>
      exfalso
      have ha := h a (by simp)
      obtain ⟨c, t, e⟩ := List.exists_cons_of_ne_nil ha.ne_nil
      have := ha.no_cr
      rw [List.flatMap_cons, e] at ht
      simp only [List.cons_append, List.take_succ_cons, List.cons.injEq] at ht
      rw [e, ht.1] at this
      simp at this
  · rename_i ht
    have hc : contains (lines.flatMap (fun l => l.1 ++ crlf) ++ (crlf ++ r)) "\r\n\r\n".toList = true := by
      rw [contains_iff]
      cases hne : lines with
      | nil => rw [hne] at ht; simp [crlf] at ht
      | cons a ls =>
        have hn : lines ≠ [] := by rw [hne]; simp
        rw [← hne, ← List.dropLast_concat_getLast hn]
        refine ⟨lines.dropLast.flatMap (fun l => l.1 ++ crlf) ++ (lines.getLast hn).1, r, ?_⟩
        rw [List.flatMap_append]
        simp only [List.flatMap_cons, List.flatMap_nil, List.append_assoc, List.append_nil, crlf]
        rfl
    rw [hc, if_neg (by decide)]
    simp only [Option.bind_eq_bind, Option.bind_eq_some_iff, Prod.exists]
    exact ⟨_, _, headLines_fields r lines _ h (by have := lines_length lines (crlf ++ r); omega), _,
      unfoldLines_fields h, rfl⟩

theorem readChunks_chunks {s b r : Str} (h : Chunks s b r) : ∀ n, s.length < n → readChunks n s = (b, some r) := by
  induction h with
  | @last zeros ext rest lines hz h0 hl he hf =>
    intro n hn
    obtain ⟨n, rfl⟩ : ∃ k, n = k + 1 := ⟨n - 1, by omega⟩
    have hx : ∀ c ∈ zeros, c ∈ hexDigits := fun c hc => by rw [h0 c hc]; decide
    have hno : '\n' ∉ zeros ++ (ext ++ ['\r']) := by
      simp only [List.mem_append, not_or]
      refine ⟨hex_no hx (by decide), ?_, by decide⟩
      rcases he with rfl | ⟨t, rfl, -, h⟩
      · simp
      · simpa using h
    have e : zeros ++ (ext ++ (crlf ++ (lines.flatMap (fun l => l.1 ++ crlf) ++ (crlf ++ rest)))) =
        (zeros ++ (ext ++ ['\r'])) ++ '\n' :: (lines.flatMap (fun l => l.1 ++ crlf) ++ (crlf ++ rest)) := by simp [crlf]
    rw [e, readChunks, if_pos (by simp), cutAt_sep hno]
    simp only
    rw [chunkSize_line hz hx hl he, hexNumber_zeros h0]
    simp only
    rw [readTrailer_fields hf]
  | @chunk size ext data stream body rest hs hx hl he hd hsz _ ih =>
    intro n hn
    obtain ⟨n, rfl⟩ : ∃ k, n = k + 1 := ⟨n - 1, by omega⟩
    have hno : '\n' ∉ size ++ (ext ++ ['\r']) := by
      simp only [List.mem_append, not_or]
      refine ⟨hex_no hx (by decide), ?_, by decide⟩
      rcases he with rfl | ⟨t, rfl, -, h⟩
      · simp
      · simpa using h
    have e : size ++ (ext ++ (crlf ++ (data ++ (crlf ++ stream)))) =
        (size ++ (ext ++ ['\r'])) ++ '\n' :: (data ++ (crlf ++ stream)) := by simp [crlf]
    have hlen : stream.length < n := by
      rw [e] at hn
      simp only [List.length_append, List.length_cons] at hn
      omega
    rw [e, readChunks, if_pos (by simp), cutAt_sep hno]
    simp only
    obtain ⟨k, hk⟩ : ∃ k, data.length = k + 1 := ⟨data.length - 1, by
      have := List.length_pos_iff.2 hd; omega⟩
    rw [chunkSize_line hs hx hl he, hsz, hk]
    simp only
    have e1 : (data ++ (crlf ++ stream)).drop (k + 1) = crlf ++ stream := by rw [← hk]; simp
    have e2 : (data ++ (crlf ++ stream)).take (k + 1) = data := by rw [← hk]; simp
    have e3 : (data ++ (crlf ++ stream)).drop (k + 3) = stream := by
      rw [show k + 3 = (k + 1) + 2 from rfl, ← List.drop_drop, e1]; rfl
    rw [if_neg (by simp only [List.length_append]; omega), e1, if_pos (by rfl), e2, e3, ih n hlen]

end J8a

import Verif.Go.Rex
/-! # Facts about the regular expression matcher -/
namespace J8a.Rex

theorem repEnds_succ (f : Str → List Str) (min max : Nat) (s : Str) :
    repEnds f min (max + 1) s =
      (f s).flatMap (repEnds f (min - 1) max) ++ if min = 0 then [s] else [] := rfl

/-- What remains is a suffix. -/
theorem suffix_of_mem_ends : ∀ (r : Rex) (s t : Str), t ∈ r.ends s → t <:+ s := by
  intro r
  induction r with
  | cls cs =>
    intro s t h
    cases s with
    | nil => simp [ends] at h
    | cons c s =>
      simp only [ends] at h
      split at h
      · simp only [List.mem_singleton] at h; rw [h]; exact List.suffix_cons c s
      · cases h
  | seq a b iha ihb =>
    intro s t h
    simp only [ends, List.mem_flatMap] at h
    obtain ⟨u, hu, ht⟩ := h
    exact (ihb u t ht).trans (iha s u hu)
  | alt a b iha ihb =>
    intro s t h
    simp only [ends, List.mem_append] at h
    rcases h with h | h
    · exact iha s t h
    · exact ihb s t h
  | rep r min max ih =>
    intro s t h
    simp only [ends] at h
    induction max generalizing min s with
    | zero => simp only [repEnds, List.mem_singleton] at h; rw [h]; exact List.suffix_refl s
    | succ max ihm =>
      rw [repEnds_succ, List.mem_append, List.mem_flatMap] at h
      rcases h with ⟨u, hu, ht⟩ | h
      · exact (ihm _ _ ht).trans (ih s u hu)
      · split at h
        · simp only [List.mem_singleton] at h; rw [h]; exact List.suffix_refl s
        · cases h
  | star cs =>
    intro s t h
    simp only [ends] at h
    induction s with
    | nil => simp only [starEnds, List.mem_singleton] at h; rw [h]; exact List.suffix_refl _
    | cons c s ih =>
      simp only [starEnds, List.mem_append, List.mem_singleton] at h
      rcases h with h | h
      · split at h
        · exact (ih h).trans (List.suffix_cons c s)
        · cases h
      · rw [h]; exact List.suffix_refl _

/-- No class of the expression contains the character. -/
def rejects (x : Char) : Rex → Bool
  | cls cs => !cs.contains x
  | seq a b => rejects x a && rejects x b
  | alt a b => rejects x a && rejects x b
  | rep r _ _ => rejects x r
  | star cs => !cs.contains x

/-- A character that is rejected acts like the end of the string. -/
theorem ends_stop (x : Char) (t : Str) : ∀ (r : Rex), rejects x r = true → ∀ w : Str,
    r.ends (w ++ x :: t) = (r.ends w).map (· ++ x :: t) := by
  intro r
  induction r with
  | cls cs =>
    intro h w
    have hx : x ∉ cs := by simpa [rejects] using h
    cases w with
    | nil => simp [ends, hx]
    | cons c w =>
      simp only [List.cons_append, ends]
      split <;> simp
  | seq a b iha ihb =>
    intro h w
    simp only [rejects, Bool.and_eq_true] at h
    simp only [ends]
    rw [iha h.1 w, List.flatMap_map, List.map_flatMap]
    congr 1
    funext v
    exact ihb h.2 v
  | alt a b iha ihb =>
    intro h w
    simp only [rejects, Bool.and_eq_true] at h
    simp only [ends]
    rw [iha h.1 w, ihb h.2 w, List.map_append]
  | rep r min max ih =>
    intro h w
    simp only [rejects] at h
    simp only [ends]
    induction max generalizing min w with
    | zero => simp [repEnds]
    | succ max ihm =>
      rw [repEnds_succ, repEnds_succ, ih h w, List.flatMap_map, List.map_append, List.map_flatMap]
      congr 1
      · congr 1
        funext v
        exact ihm (min - 1) v
      · split <;> simp
  | star cs =>
    intro h w
    have hx : x ∉ cs := by simpa [rejects] using h
    simp only [ends]
    induction w with
    | nil => simp [starEnds, hx]
    | cons c w ih =>
      simp only [List.cons_append, starEnds]
      split
      · rw [ih]; simp
      · simp

/-- A string that starts with a rejected character. -/
theorem ends_stop_nil {r : Rex} {x : Char} (h : rejects x r = true) (h0 : r.ends [] = []) (t : Str) :
    r.ends (x :: t) = [] := by
  have := ends_stop x t r h []
  rw [h0] at this
  simpa using this

/-! ## Counting -/

/-- How many characters of a string satisfy `p`. -/
def cnt (p : Char → Bool) (s : Str) : Nat := (s.filter p).length

theorem cnt_append (p : Char → Bool) (s t : Str) : cnt p (s ++ t) = cnt p s + cnt p t := by
  simp [cnt]

theorem cnt_cons (p : Char → Bool) (c : Char) (s : Str) :
    cnt p (c :: s) = (if p c then 1 else 0) + cnt p s := by
  unfold cnt
  by_cases h : p c = true
  · simp [h]; omega
  · simp [h]

theorem cnt_suffix {p : Char → Bool} {s t : Str} (h : t <:+ s) : cnt p t ≤ cnt p s := by
  obtain ⟨u, rfl⟩ := h
  rw [cnt_append]; omega

theorem cnt_zero {p : Char → Bool} {s : Str} (h : ∀ c ∈ s, p c = false) : cnt p s = 0 := by
  unfold cnt
  rw [List.length_eq_zero_iff, List.filter_eq_nil_iff]
  intro c hc
  rw [h c hc]; simp

/-- How many such characters every match contains, at least. -/
def need (p : Char → Bool) : Rex → Nat
  | cls cs => if cs.all p then 1 else 0
  | seq a b => need p a + need p b
  | alt a b => min (need p a) (need p b)
  | rep r min _ => min * need p r
  | star _ => 0

/-- Repetition bounds are the right way around. -/
def wf : Rex → Bool
  | cls _ => true
  | seq a b => wf a && wf b
  | alt a b => wf a && wf b
  | rep r min max => wf r && decide (min ≤ max)
  | star _ => true

/-- A match uses up at least `need` of the characters. -/
theorem need_le_cnt (p : Char → Bool) : ∀ (r : Rex), wf r = true → ∀ (s t : Str), t ∈ r.ends s →
    need p r + cnt p t ≤ cnt p s := by
  intro r
  induction r with
  | cls cs =>
    intro _ s t h
    cases s with
    | nil => simp [ends] at h
    | cons c s =>
      simp only [ends] at h
      split at h
      · rename_i hc
        simp only [List.mem_singleton] at h
        subst h
        rw [cnt_cons]
        simp only [need]
        split
        · rename_i hall
          rw [List.all_eq_true] at hall
          rw [if_pos (hall c hc)]
          exact Nat.le_refl _
        · omega
      · cases h
  | seq a b iha ihb =>
    intro hw s t h
    simp only [wf, Bool.and_eq_true] at hw
    simp only [ends, List.mem_flatMap] at h
    obtain ⟨u, hu, ht⟩ := h
    have h1 := iha hw.1 s u hu
    have h2 := ihb hw.2 u t ht
    simp only [need]; omega
  | alt a b iha ihb =>
    intro hw s t h
    simp only [wf, Bool.and_eq_true] at hw
    simp only [ends, List.mem_append] at h
    simp only [need]
    rcases h with h | h
    · have := iha hw.1 s t h; omega
    · have := ihb hw.2 s t h; omega
  | rep r min max ih =>
    intro hw s t h
    simp only [wf, Bool.and_eq_true, decide_eq_true_eq] at hw
    obtain ⟨hw, hle⟩ := hw
    simp only [ends] at h
    simp only [need]
    induction max generalizing min s with
    | zero =>
      simp only [repEnds, List.mem_singleton] at h
      have : min = 0 := by omega
      subst this; subst h; omega
    | succ max ihm =>
      rw [repEnds_succ, List.mem_append, List.mem_flatMap] at h
      rcases h with ⟨u, hu, ht⟩ | h
      · have h1 := ih hw s u hu
        have h2 := ihm (min - 1) u ht (by omega)
        cases min with
        | zero => omega
        | succ m =>
          rw [Nat.succ_mul]
          simp only [Nat.add_sub_cancel] at h2
          omega
      · split at h
        · rename_i h0
          simp only [List.mem_singleton] at h
          subst h0; subst h; omega
        · cases h
  | star cs =>
    intro _ s t h
    simp only [need]
    have := cnt_suffix (p := p) (suffix_of_mem_ends (star cs) s t h)
    omega

/-- Too few of some characters: no match at all. -/
theorem ends_eq_nil_of_need {r : Rex} (hw : wf r = true) (p : Char → Bool) {s : Str}
    (h : cnt p s < need p r) : r.ends s = [] := by
  rw [List.eq_nil_iff_forall_not_mem]
  intro t ht
  have := need_le_cnt p r hw s t ht
  omega

/-! ## Searching -/

theorem find_none {r : Rex} {s : Str} (h : ∀ t, t <:+ s → r.ends t = []) : r.find s = none := by
  induction s with
  | nil => simp [find, h [] (List.suffix_refl _)]
  | cons c s ih =>
    simp only [find]
    rw [h (c :: s) (List.suffix_refl _)]
    exact ih fun t ht => h t (ht.trans (List.suffix_cons c s))

theorem find_none_of_need {r : Rex} (hw : wf r = true) (p : Char → Bool) {s : Str}
    (h : cnt p s < need p r) : r.find s = none :=
  find_none fun t ht => ends_eq_nil_of_need hw p (by have := cnt_suffix (p := p) ht; omega)

theorem find_here {r : Rex} {w t : Str} (h : (r.ends (w ++ t)).head? = some t) :
    r.find (w ++ t) = some w := by
  cases hs : w ++ t with
  | nil =>
    rw [hs] at h
    have : w = [] := (List.append_eq_nil_iff.mp hs).1
    subst this
    simp only [find]
    cases he : r.ends [] with
    | nil => rw [he] at h; cases h
    | cons _ _ => rfl
  | cons c s =>
    rw [hs] at h
    simp only [find]
    cases he : r.ends (c :: s) with
    | nil => rw [he] at h; cases h
    | cons x xs =>
      rw [he] at h
      simp only [List.head?_cons, Option.some.injEq] at h
      subst h
      simp only
      rw [← hs, List.length_append, Nat.add_sub_cancel, List.take_left]

theorem find_skip {r : Rex} {c : Char} {s : Str} (h : r.ends (c :: s) = []) :
    r.find (c :: s) = r.find s := by
  simp only [find, h]

/-- A match somewhere is a match of the search. -/
theorem find_isSome {r : Rex} {s t : Str} (ht : t <:+ s) (h : r.ends t ≠ []) : (r.find s).isSome := by
  induction s with
  | nil =>
    have : t = [] := List.suffix_nil.mp ht
    subst this
    simp only [find]
    split
    · contradiction
    · rfl
  | cons c s ih =>
    simp only [find]
    split
    · rfl
    · rename_i he
      rcases List.suffix_cons_iff.mp ht with rfl | ht
      · exact absurd he h
      · exact ih ht

/-- What a search finds, and where. -/
theorem find_some {r : Rex} {s w : Str} (h : r.find s = some w) :
    ∃ u t, s = u ++ w ++ t ∧ t ∈ r.ends (w ++ t) := by
  induction s with
  | nil =>
    simp only [find] at h
    split at h
    · cases h
    · rename_i x xs he
      cases h
      have hx : x ∈ r.ends [] := by rw [he]; simp
      have := List.suffix_nil.mp (suffix_of_mem_ends r [] x hx)
      subst this
      exact ⟨[], [], rfl, hx⟩
  | cons c s ih =>
    simp only [find] at h
    split at h
    · rename_i x xs he
      have hx : x ∈ r.ends (c :: s) := by rw [he]; simp
      obtain ⟨v, hv⟩ := suffix_of_mem_ends r _ x hx
      have : w = v := by
        have h := Option.some.inj h
        rw [← h, ← hv, List.length_append, Nat.add_sub_cancel, List.take_left]
      subst this
      exact ⟨[], x, by simpa using hv.symm, by rw [hv]; exact hx⟩
    · obtain ⟨u, t, h1, h2⟩ := ih h
      exact ⟨c :: u, t, by rw [h1]; simp, h2⟩

/-- The head of a sequence of attempts, if the first attempt succeeds. -/
theorem head?_flatMap {α β : Type} {l : List α} {f : α → List β} {a : α} {b : β}
    (h1 : l.head? = some a) (h2 : (f a).head? = some b) : (l.flatMap f).head? = some b := by
  cases l with
  | nil => cases h1
  | cons x xs =>
    simp only [List.head?_cons, Option.some.injEq] at h1
    subst h1
    rw [List.flatMap_cons, List.head?_append, h2]; rfl

end J8a.Rex

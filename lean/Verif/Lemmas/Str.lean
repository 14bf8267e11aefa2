import Verif.Go.Str
/-! Lemmas about the Go string functions. -/
namespace J8a.Go

theorem hasPrefix_iff {s p : Str} : hasPrefix s p = true ↔ ∃ r, s = p ++ r := by
  unfold hasPrefix
  rw [List.isPrefixOf_iff_prefix]
  constructor
  · rintro ⟨r, h⟩; exact ⟨r, h.symm⟩
  · rintro ⟨r, h⟩; exact ⟨r, h.symm⟩

theorem index_prefix (p r : Str) : index (p ++ r) p = some 0 := by
  cases hs : p ++ r with
  | nil =>
    have : p = [] := by
      cases p with
      | nil => rfl
      | cons _ _ => simp at hs
    simp [index, this]
  | cons c cs =>
    unfold index
    rw [if_pos]
    rw [← hs, List.isPrefixOf_iff_prefix]
    exact List.prefix_append p r

/-- `index` finds an occurrence. -/
theorem index_some {s sub : Str} {i : Nat} (h : index s sub = some i) :
    ∃ a b, s = a ++ sub ++ b ∧ a.length = i := by
  induction s generalizing i with
  | nil =>
    unfold index at h
    split at h
    · rename_i hs
      simp at h
      exact ⟨[], [], by simp [hs], by simpa using h⟩
    · simp at h
  | cons c cs ih =>
    unfold index at h
    split at h
    · rename_i hp
      rw [List.isPrefixOf_iff_prefix] at hp
      obtain ⟨r, hr⟩ := hp
      simp at h
      exact ⟨[], r, by simp [hr], by simpa using h⟩
    · rw [Option.map_eq_some_iff] at h
      obtain ⟨j, hj, hij⟩ := h
      obtain ⟨a, b, hs, ha⟩ := ih hj
      exact ⟨c :: a, b, by simp [hs], by simp [ha, hij]⟩

/-- `index` returns the first occurrence. -/
theorem index_le {s sub a b : Str} (h : s = a ++ sub ++ b) :
    ∃ i, index s sub = some i ∧ i ≤ a.length := by
  induction a generalizing s with
  | nil =>
    refine ⟨0, ?_, Nat.le_refl _⟩
    rw [h, List.nil_append]; exact index_prefix sub b
  | cons c a ih =>
    obtain ⟨i, hi, hle⟩ := ih (s := a ++ sub ++ b) rfl
    rw [h, List.cons_append, List.cons_append]
    unfold index
    split
    · exact ⟨0, rfl, Nat.zero_le _⟩
    · exact ⟨i + 1, by rw [hi]; rfl, by simp; omega⟩

theorem contains_iff {s sub : Str} : contains s sub = true ↔ ∃ a b, s = a ++ sub ++ b := by
  unfold contains
  constructor
  · intro h
    rw [Option.isSome_iff_exists] at h
    obtain ⟨i, hi⟩ := h
    obtain ⟨a, b, hs, _⟩ := index_some hi
    exact ⟨a, b, hs⟩
  · rintro ⟨a, b, h⟩
    obtain ⟨i, hi, _⟩ := index_le h
    simp [hi]

theorem replace1_prefix (p r t : Str) : replace1 (p ++ r) p t = t ++ r := by
  unfold replace1
  rw [index_prefix]
  simp

theorem replace1_absent {s p t : Str} (h : contains s p = false) : replace1 s p t = s := by
  unfold contains at h
  unfold replace1
  cases hi : index s p with
  | none => rfl
  | some i => simp [hi] at h

theorem split_ne_nil (sep : Char) (s : Str) : split sep s ≠ [] := by
  cases s with
  | nil => simp [split]
  | cons c cs =>
    unfold split
    split
    · simp
    · split <;> simp

/-- `strings.Join(strings.Split(s, sep), sep) = s`. -/
theorem join_split (sep : Char) (s : Str) : join [sep] (split sep s) = s := by
  induction s with
  | nil => rfl
  | cons c cs ih =>
    unfold split
    split
    · rename_i hc
      cases hs : split sep cs with
      | nil => exact absurd hs (split_ne_nil sep cs)
      | cons w ws => rw [hs] at ih; simp [join, ih, hc]
    · cases hs : split sep cs with
      | nil => exact absurd hs (split_ne_nil sep cs)
      | cons w ws =>
        rw [hs] at ih
        cases ws with
        | nil => simpa [join] using ih
        | cons w' ws' => simp only [join] at ih ⊢; simp [← ih]

theorem split_no_sep (sep : Char) (s : Str) : ∀ w ∈ split sep s, sep ∉ w := by
  induction s with
  | nil => simp [split]
  | cons c cs ih =>
    unfold split
    split
    · intro w hw
      rcases List.mem_cons.mp hw with rfl | hw
      · simp
      · exact ih w hw
    · rename_i hne
      cases hs : split sep cs with
      | nil => exact absurd hs (split_ne_nil sep cs)
      | cons v vs =>
        rw [hs] at ih
        intro w hw
        rcases List.mem_cons.mp hw with rfl | hw
        · have hv := ih v (List.mem_cons_self ..)
          simp only [List.mem_cons, not_or]
          exact ⟨fun h => hne h.symm, hv⟩
        · exact ih w (List.mem_cons_of_mem _ hw)

/-- A string without the separator followed by the separator splits there. -/
theorem split_append (sep : Char) (a b : Str) (h : sep ∉ a) :
    split sep (a ++ sep :: b) = a :: split sep b := by
  induction a with
  | nil => simp [split]
  | cons c a ih =>
    have hc : c ≠ sep := fun e => h (by simp [e])
    have ha : sep ∉ a := fun e => h (List.mem_cons_of_mem _ e)
    rw [List.cons_append]
    simp only [split, if_neg hc, ih ha]

theorem split_no_occ (sep : Char) (a : Str) (h : sep ∉ a) : split sep a = [a] := by
  induction a with
  | nil => rfl
  | cons c a ih =>
    have hc : c ≠ sep := fun e => h (by simp [e])
    have ha : sep ∉ a := fun e => h (List.mem_cons_of_mem _ e)
    unfold split
    rw [if_neg hc, ih ha]

end J8a.Go

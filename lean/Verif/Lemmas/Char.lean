/-! # ASCII case conversion on characters -/
namespace J8a

theorem toUpper_toUpper (c : Char) : c.toUpper.toUpper = c.toUpper := by
  by_cases h : 'a'.val ≤ c.val ∧ c.val ≤ 'z'.val
  · have hu : ∀ n : Fin 26, (Char.ofNat (n.val + 97)).toUpper.toUpper
        = (Char.ofNat (n.val + 97)).toUpper := by decide
    have h1 : 97 ≤ c.toNat := h.1
    have h2 : c.toNat ≤ 122 := h.2
    have := hu ⟨c.toNat - 97, by omega⟩
    simp only at this
    rw [Nat.sub_add_cancel h1] at this
    simpa using this
  · have : c.toUpper = c := by unfold Char.toUpper; exact dif_neg h
    rw [this, this]

theorem toLower_toLower (c : Char) : c.toLower.toLower = c.toLower := by
  by_cases h : c.val ≥ 'A'.val ∧ c.val ≤ 'Z'.val
  · have hu : ∀ n : Fin 26, (Char.ofNat (n.val + 65)).toLower.toLower
        = (Char.ofNat (n.val + 65)).toLower := by decide
    have h1 : 65 ≤ c.toNat := h.1
    have h2 : c.toNat ≤ 90 := h.2
    have := hu ⟨c.toNat - 65, by omega⟩
    simp only at this
    rw [Nat.sub_add_cancel h1] at this
    simpa using this
  · have : c.toLower = c := by unfold Char.toLower; exact dif_neg h
    rw [this, this]

theorem toLower_toUpper (c : Char) : c.toUpper.toLower = c.toLower := by
  by_cases h : 'a'.val ≤ c.val ∧ c.val ≤ 'z'.val
  · have hu : ∀ n : Fin 26, (Char.ofNat (n.val + 97)).toUpper.toLower
        = (Char.ofNat (n.val + 97)).toLower := by decide
    have h1 : 97 ≤ c.toNat := h.1
    have h2 : c.toNat ≤ 122 := h.2
    have := hu ⟨c.toNat - 97, by omega⟩
    simp only at this
    rw [Nat.sub_add_cancel h1] at this
    simpa using this
  · have : c.toUpper = c := by unfold Char.toUpper; exact dif_neg h
    rw [this]

end J8a

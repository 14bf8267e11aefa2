import Verif.Model.Policy
import Verif.Lemmas.F64
/-! # Lemmas about cumulative weights -/
namespace J8a
namespace Policy

theorem sumWith_take_succ (add : Int → Int → Int) (p : Policy) (i : Nat) (h : i < p.length) :
    sumWith add (p.take (i + 1)) = add (sumWith add (p.take i)) p[i].weight := by
  unfold sumWith
  rw [List.take_succ_eq_append_getElem h, List.foldl_append]
  rfl

theorem cumulative_length (add : Int → Int → Int) (p : Policy) :
    (cumulative add p).length = p.length := by simp [cumulative]

theorem cumulative_getElem (add : Int → Int → Int) (p : Policy) (i : Nat)
    (h : i < (cumulative add p).length) :
    (cumulative add p)[i] = sumWith add (p.take (i + 1)) := by
  simp [cumulative]

/-- Monotonicity of the running sum for additions that do not decrease it. -/
theorem sum_mono_step {add : Int → Int → Int} {p : Policy}
    (hstep : ∀ i (h : i < p.length), sumWith add (p.take i) ≤ sumWith add (p.take (i + 1))) :
    ∀ i j, i ≤ j → j ≤ p.length → sumWith add (p.take i) ≤ sumWith add (p.take j) := by
  intro i j hij hj
  induction j with
  | zero => have : i = 0 := by omega
            subst this; exact Int.le_refl _
  | succ j ih =>
    rcases Nat.lt_or_eq_of_le hij with h | h
    · exact Int.le_trans (ih (by omega) (by omega)) (hstep j (by omega))
    · subst h; exact Int.le_refl _

theorem pickIndex_some_iff {add : Int → Int → Int} {p : Policy}
    (hmono : ∀ i j, i ≤ j → j ≤ p.length → sumWith add (p.take i) ≤ sumWith add (p.take j))
    (h0 : sumWith add (p.take 0) = 0) (dice : Int) (hd : 0 ≤ dice) (i : Nat) :
    pickIndex add p dice = some i ↔
      i < p.length ∧ sumWith add (p.take i) ≤ dice ∧ dice < sumWith add (p.take (i + 1)) := by
  unfold pickIndex
  rw [List.findIdx?_eq_some_iff_getElem]
  constructor
  · rintro ⟨hi, hlt, hbefore⟩
    rw [cumulative_getElem] at hlt
    rw [cumulative_length] at hi
    refine ⟨hi, ?_, by simpa using hlt⟩
    cases i with
    | zero => rw [h0]; exact hd
    | succ i =>
      have := hbefore i (by omega)
      rw [cumulative_getElem] at this
      simpa using this
  · rintro ⟨hi, hlo, hhi⟩
    refine ⟨by rw [cumulative_length]; exact hi, by rw [cumulative_getElem]; simpa using hhi, ?_⟩
    intro j hj
    rw [cumulative_getElem]
    have := hmono (j + 1) i (by omega) (by omega)
    have : ¬ dice < sumWith add (p.take (j + 1)) := by omega
    simpa using this

theorem pickIndex_none_iff {add : Int → Int → Int} {p : Policy}
    (hmono : ∀ i j, i ≤ j → j ≤ p.length → sumWith add (p.take i) ≤ sumWith add (p.take j))
    (h0 : sumWith add (p.take 0) = 0) (dice : Int) (hd : 0 ≤ dice) :
    pickIndex add p dice = none ↔ sumWith add p ≤ dice := by
  unfold pickIndex
  rw [List.findIdx?_eq_none_iff]
  constructor
  · intro h
    cases hp : p with
    | nil => simpa [sumWith] using hd
    | cons a l =>
      have hlen : p.length - 1 < (cumulative add p).length := by
        rw [cumulative_length, hp]; simp
      have := h _ (List.getElem_mem hlen)
      rw [cumulative_getElem] at this
      have e : p.take (p.length - 1 + 1) = p := by
        apply List.take_of_length_le; omega
      rw [e] at this
      rw [← hp]
      simpa using this
  · intro h x hx
    obtain ⟨i, hi, rfl⟩ := List.getElem_of_mem hx
    rw [cumulative_getElem]
    rw [cumulative_length] at hi
    have := hmono (i + 1) p.length (by omega) (Nat.le_refl _)
    rw [List.take_length] at this
    have : ¬ dice < sumWith add (p.take (i + 1)) := by omega
    simpa using this

theorem sum_zero (add : Int → Int → Int) (p : Policy) : sumWith add (p.take 0) = 0 := rfl

/-- IEEE running sums of non-negative weights are non-negative floats and do not decrease. -/
theorem ieee_sum {p : Policy} (hw : ∀ lw ∈ p, 0 ≤ lw.weight) (i : Nat) (hi : i ≤ p.length) :
    0 ≤ sumWith F64.add (p.take i) ∧ F64.IsF64 (sumWith F64.add (p.take i)) := by
  induction i with
  | zero => exact ⟨Int.le_refl _, F64.isF64_zero⟩
  | succ i ih =>
    obtain ⟨h1, h2⟩ := ih (by omega)
    have hwi := hw p[i] (List.getElem_mem (by omega))
    rw [sumWith_take_succ _ _ _ (by omega)]
    have : 0 ≤ sumWith F64.add (p.take i) + p[i].weight := by omega
    exact ⟨F64.round_nonneg this, F64.isF64_round this⟩

theorem ieee_mono {p : Policy} (hw : ∀ lw ∈ p, 0 ≤ lw.weight) :
    ∀ i j, i ≤ j → j ≤ p.length →
      sumWith F64.add (p.take i) ≤ sumWith F64.add (p.take j) := by
  apply sum_mono_step
  intro i h
  obtain ⟨h1, h2⟩ := ieee_sum hw i (by omega)
  rw [sumWith_take_succ _ _ _ h]
  exact F64.add_ge h1 h2 (hw p[i] (List.getElem_mem h))

end Policy
end J8a

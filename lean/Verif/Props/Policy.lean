import Verif.Lemmas.Policy
import Verif.Spec.Policy
/-!
# C04, C05: weighted label selection

All statements hold for every outcome `p'` of the unstable sort.
-/
namespace J8a
open Policy

/-! ## C04 -/

/-- C04: for non-negative weights and IEEE addition as executed, the dice values that select entry
`i` of the sorted policy form exactly the half-open interval between two consecutive running sums;
so the intervals of different entries are disjoint and adjacent. The label returned is that
entry's label. -/
theorem C04_interval {p p' : Policy} {dice : Int} {label : Str} (hw : NonNeg p) (hd : IsDice dice)
    (h : ResolveLabel p dice p' label) :
    ∃ cut : Nat → Int, cut 0 = 0 ∧
      (∀ i (hi : i < p'.length), cut i ≤ cut (i + 1) ∧
        -- the cut moves by the weight, up to one rounding (relative error 2^-53)
        2 ^ 53 * (cut (i + 1) - (cut i + p'[i].weight)) ≤ cut i + p'[i].weight ∧
        2 ^ 53 * ((cut i + p'[i].weight) - cut (i + 1)) ≤ cut i + p'[i].weight ∧
        (p'[i].weight = 0 → cut (i + 1) = cut i)) ∧
      ((∃ i, ∃ hi : i < p'.length, cut i ≤ dice ∧ dice < cut (i + 1) ∧ label = p'[i].label ∧
          ∀ j, j < p'.length → cut j ≤ dice → dice < cut (j + 1) → j = i) ∨
       (cut p'.length ≤ dice ∧ label = "default".toList)) := by
  have hw' : NonNeg p' := fun lw hl => hw lw (h.sorted.perm.mem_iff.mp hl)
  have hmono := ieee_mono hw'
  refine ⟨fun i => sumWith F64.add (p'.take i), rfl, ?_, ?_⟩
  · intro i hi
    obtain ⟨h1, h2⟩ := ieee_sum hw' i (by omega)
    have hwi := hw' p'[i] (List.getElem_mem hi)
    refine ⟨hmono i (i + 1) (by omega) (by omega), ?_, ?_, ?_⟩
    · simp only [sumWith_take_succ _ _ _ hi]
      have := (F64.add_error h1 hwi).1
      omega
    · simp only [sumWith_take_succ _ _ _ hi]
      have := (F64.add_error h1 hwi).2
      omega
    · intro h0
      simp only [sumWith_take_succ _ _ _ hi, h0]
      exact F64.add_zero h2
  · have hr := h.result
    unfold pickLabel at hr
    cases hp : pickIndex F64.add p' dice with
    | some i =>
      rw [hp] at hr
      obtain ⟨hi, hlo, hhi⟩ := (pickIndex_some_iff hmono rfl dice hd.1 i).mp hp
      refine Or.inl ⟨i, hi, hlo, hhi, by simpa [hi] using hr, ?_⟩
      intro j hj hlo' hhi'
      have := (pickIndex_some_iff hmono rfl dice hd.1 j).mpr ⟨hj, hlo', hhi'⟩
      rw [hp] at this
      injection this with this
      exact this.symm
    | none =>
      rw [hp] at hr
      refine Or.inr ⟨?_, hr⟩
      have := (pickIndex_none_iff hmono rfl dice hd.1).mp hp
      simpa using this

theorem exactSum_take_succ (p : Policy) (i : Nat) (h : i < p.length) :
    exactSum (p.take (i + 1)) = exactSum (p.take i) + p[i].weight := by
  induction p generalizing i with
  | nil => simp at h
  | cons a l ih =>
    cases i with
    | zero => simp [exactSum]
    | succ i =>
      simp only [List.take_succ_cons, exactSum, List.getElem_cons_succ]
      rw [ih i (by simpa using h)]
      omega

/-- Without rounding the running sums are the exact sums. -/
theorem ieee_eq_exact {p : Policy} (he : ExactlySummable p) (i : Nat) (hi : i ≤ p.length) :
    sumWith F64.add (p.take i) = exactSum (p.take i) := by
  induction i with
  | zero => rfl
  | succ i ih =>
    rw [sumWith_take_succ _ _ _ (by omega), ih (by omega), exactSum_take_succ _ _ (by omega)]
    have := he (i + 1) hi
    rw [exactSum_take_succ _ _ (by omega)] at this
    exact this

/-- C04, exact form: when the partial sums need no rounding, entry `i` is selected exactly by the
dice in `[w₀+…+wᵢ₋₁, w₀+…+wᵢ)`, an interval of length exactly its weight; in particular an entry of
weight 0 is never selected, and `default` is returned exactly for dice at or above the total. -/
theorem C04_exact_share {p p' : Policy} {dice : Int} {label : Str} (hw : NonNeg p)
    (hd : IsDice dice) (h : ResolveLabel p dice p' label) (he : ExactlySummable p') :
    (∃ i, ∃ hi : i < p'.length, label = p'[i].label ∧ p'[i].weight ≠ 0 ∧
        exactSum (p'.take i) ≤ dice ∧ dice < exactSum (p'.take i) + p'[i].weight) ∨
      (exactSum p ≤ dice ∧ label = "default".toList) := by
  have hw' : NonNeg p' := fun lw hl => hw lw (h.sorted.perm.mem_iff.mp hl)
  have hmono := ieee_mono hw'
  have hsum : ∀ {a b : Policy}, a.Perm b → exactSum a = exactSum b := by
    intro a b hab
    induction hab with
    | nil => rfl
    | cons x _ ih => simp [exactSum, ih]
    | swap x y l => simp [exactSum]; omega
    | trans _ _ ih1 ih2 => rw [ih1, ih2]
  have hr := h.result
  unfold pickLabel at hr
  cases hp : pickIndex F64.add p' dice with
  | some i =>
    rw [hp] at hr
    obtain ⟨hi, hlo, hhi⟩ := (pickIndex_some_iff hmono rfl dice hd.1 i).mp hp
    rw [ieee_eq_exact he _ (by omega)] at hlo
    rw [ieee_eq_exact he _ (by omega), exactSum_take_succ _ _ hi] at hhi
    exact Or.inl ⟨i, hi, by simpa [hi] using hr, by omega, hlo, hhi⟩
  | none =>
    rw [hp] at hr
    refine Or.inr ⟨?_, hr⟩
    have := (pickIndex_none_iff hmono rfl dice hd.1).mp hp
    have e := ieee_eq_exact he p'.length (Nat.le_refl _)
    simp only [List.take_length] at e
    rw [← hsum h.sorted.perm, ← e]; exact this

/-- C04: an entry of weight 0 is never the selected one, rounding or not: the label returned is that
of an entry of positive weight or `default`. -/
theorem C04_zero_weight_never {p p' : Policy} {dice : Int} {label : Str} (hw : NonNeg p)
    (hd : IsDice dice) (h : ResolveLabel p dice p' label) :
    (∃ lw ∈ p, lw.label = label ∧ 0 < lw.weight) ∨ label = "default".toList := by
  obtain ⟨cut, -, hcut, hsel⟩ := C04_interval hw hd h
  rcases hsel with ⟨i, hi, hlo, hhi, hl, -⟩ | ⟨-, hl⟩
  · left
    have hmem : p'[i] ∈ p := h.sorted.perm.mem_iff.mp (List.getElem_mem hi)
    refine ⟨p'[i], hmem, hl.symm, ?_⟩
    have h0 := hw _ hmem
    have := (hcut i hi).2.2.2
    rcases Int.lt_or_eq_of_le h0 with h | h
    · exact h
    · have := this h.symm; omega
  · exact Or.inr hl

/-- The hypotheses are met by a 0.25 / 0.75 policy (exactly summable) and a dice of 0.5. -/
example : ∃ (p p' : Policy) (dice : Int) (label : Str), NonNeg p ∧ IsDice dice ∧
    ResolveLabel p dice p' label ∧ ExactlySummable p' ∧ p.length = 2 ∧ label = "blue".toList := by
  refine ⟨[⟨"blue".toList, 3 * 2 ^ 1072⟩, ⟨"green".toList, 2 ^ 1072⟩],
    [⟨"green".toList, 2 ^ 1072⟩, ⟨"blue".toList, 3 * 2 ^ 1072⟩], 2 ^ 1073, "blue".toList,
    ?_, ?_, ⟨⟨List.Perm.swap _ _ _, ?_⟩, ?_⟩, ?_, rfl, rfl⟩
  · unfold NonNeg; decide +kernel
  · unfold IsDice; decide +kernel
  · decide +kernel
  · decide +kernel
  · intro i hi
    have : i = 0 ∨ i = 1 ∨ i = 2 := by simp at hi; omega
    rcases this with rfl | rfl | rfl <;> decide +kernel

/-! ## C05 -/

/-- The float64 nearest to 0.1. -/
def tenth : Int := 3602879701896397 * 2 ^ 1019

/-- C05 fails through rounding: ten weights of 0.1 (each the float64 nearest to 0.1, whose exact sum
even exceeds 1) add up to 1 - 2^-53 in float64, and the dice 1 - 2^-53 selects `default`. -/
theorem C05_violated : ∃ (p p' : Policy) (dice : Int) (label : Str),
    NonNeg p ∧ F64.one ≤ exactSum p ∧ IsDice dice ∧ ResolveLabel p dice p' label ∧
    label ∉ p.map LabelWeight.label ∧ label = "default".toList := by
  refine ⟨List.replicate 10 ⟨"a".toList, tenth⟩, List.replicate 10 ⟨"a".toList, tenth⟩,
    F64.one - 2 ^ 1021, "default".toList, ?_, ?_, ?_, ⟨⟨List.Perm.refl _, ?_⟩, ?_⟩, ?_, rfl⟩
  · intro lw h
    rw [List.mem_replicate] at h
    rw [h.2]; decide +kernel
  · decide +kernel
  · unfold IsDice; decide +kernel
  · decide +kernel
  · decide +kernel
  · decide +kernel

/-- C05 for the sum as computed: if the float64 sum (in the sorted order) is at least 1, the label is
always a configured one. Full statement: the same for the exact sum of the weights; missing:
policies whose float64 sum rounds below 1 (`C05_violated`). Holds for negative weights too. -/
theorem C05_partial {p p' : Policy} {dice : Int} {label : Str} (hd : IsDice dice)
    (h : ResolveLabel p dice p' label) (hsum : F64.one ≤ sumWith F64.add p') :
    label ∈ p.map LabelWeight.label := by
  have hr := h.result
  unfold pickLabel at hr
  cases hp : pickIndex F64.add p' dice with
  | some i =>
    rw [hp] at hr
    unfold pickIndex at hp
    rw [List.findIdx?_eq_some_iff_getElem] at hp
    obtain ⟨hi, -, -⟩ := hp
    rw [cumulative_length] at hi
    simp [hi] at hr
    rw [List.mem_map]
    exact ⟨p'[i], h.sorted.perm.mem_iff.mp (List.getElem_mem hi), hr.symm⟩
  | none =>
    exfalso
    unfold pickIndex at hp
    rw [List.findIdx?_eq_none_iff] at hp
    cases hpp : p' with
    | nil =>
      rw [hpp] at hsum
      revert hsum; decide +kernel
    | cons a l =>
      have hlen : p'.length - 1 < (cumulative F64.add p').length := by
        rw [cumulative_length, hpp]; simp
      have := hp _ (List.getElem_mem hlen)
      rw [cumulative_getElem, List.take_of_length_le (by omega)] at this
      have : ¬ dice < sumWith F64.add p' := by simpa using this
      have := hd.2.1
      omega

/-- C05 in exact arithmetic: when the partial sums need no rounding, a total of at least one never
gives the fall-through label, and a smaller total gives it exactly for dice at or above the total
(unless a label is itself called `default`). -/
theorem C05_exact_partial {p p' : Policy} {dice : Int} {label : Str} (hw : NonNeg p)
    (hd : IsDice dice) (h : ResolveLabel p dice p' label) (he : ExactlySummable p')
    (hnd : "default".toList ∉ p.map LabelWeight.label) :
    (label = "default".toList ↔ exactSum p ≤ dice) ∧
    (F64.one ≤ exactSum p → label ∈ p.map LabelWeight.label) := by
  have key := C04_exact_share hw hd h he
  have hsum : ∀ {a b : Policy}, a.Perm b → exactSum a = exactSum b := by
    intro a b hab
    induction hab with
    | nil => rfl
    | cons x _ ih => simp [exactSum, ih]
    | swap x y l => simp [exactSum]; omega
    | trans _ _ ih1 ih2 => rw [ih1, ih2]
  have hmem : ∀ i (hi : i < p'.length), p'[i].label ∈ p.map LabelWeight.label := fun i hi =>
    List.mem_map.mpr ⟨p'[i], h.sorted.perm.mem_iff.mp (List.getElem_mem hi), rfl⟩
  constructor
  · constructor
    · intro hl
      rcases key with ⟨i, hi, hl', -⟩ | ⟨h, -⟩
      · exact absurd (by rw [← hl, hl']; exact hmem i hi) hnd
      · exact h
    · intro hle
      rcases key with ⟨i, hi, -, -, -, hlt⟩ | ⟨-, h⟩
      · exfalso
        rw [← exactSum_take_succ _ _ hi, ← ieee_eq_exact he _ (by omega)] at hlt
        have hw' : NonNeg p' := fun lw hl => hw lw (h.sorted.perm.mem_iff.mp hl)
        have := ieee_mono hw' (i + 1) p'.length (by omega) (Nat.le_refl _)
        rw [ieee_eq_exact he p'.length (Nat.le_refl _), List.take_length, hsum h.sorted.perm] at this
        omega
      · exact h
  · intro h1
    rcases key with ⟨i, hi, hl', -⟩ | ⟨h, -⟩
    · rw [hl']; exact hmem i hi
    · have := hd.2.1; omega

/-- Sum exactly 1 met: 0.25 + 0.75. -/
example : F64.one ≤ exactSum [⟨"green".toList, 2 ^ 1072⟩, ⟨"blue".toList, 3 * 2 ^ 1072⟩] ∧
    F64.one ≤ sumWith F64.add [⟨"green".toList, 2 ^ 1072⟩, ⟨"blue".toList, 3 * 2 ^ 1072⟩] ∧
    "default".toList ∉ ["green".toList, "blue".toList] := by decide +kernel

end J8a

import Verif.Go.F64
/-! # Facts about rounding to 53 bits -/
namespace J8a.F64

theorem roundShift_eq (n k : Nat) :
    (roundShift n k = n / 2 ^ k * 2 ^ k ∧ 2 * (n % 2 ^ k) ≤ 2 ^ k) ∨
    (roundShift n k = (n / 2 ^ k + 1) * 2 ^ k ∧ 2 ^ k ≤ 2 * (n % 2 ^ k)) := by
  unfold roundShift
  simp only
  split
  · left; exact ⟨rfl, by omega⟩
  · split
    · right; exact ⟨rfl, by omega⟩
    · split
      · left; exact ⟨rfl, by omega⟩
      · right; exact ⟨rfl, by omega⟩

theorem roundShift_mono {n m : Nat} (k : Nat) (h : n ≤ m) : roundShift n k ≤ roundShift m k := by
  have hq : n / 2 ^ k ≤ m / 2 ^ k := Nat.div_le_div_right h
  have hpos : 0 < 2 ^ k := Nat.two_pow_pos k
  rcases Nat.lt_or_eq_of_le hq with hlt | heq
  · have h1 : roundShift n k ≤ (n / 2 ^ k + 1) * 2 ^ k := by
      rcases roundShift_eq n k with ⟨e, _⟩ | ⟨e, _⟩ <;> rw [e]
      · exact Nat.mul_le_mul_right _ (by omega)
      · exact Nat.le_refl _
    have h2 : m / 2 ^ k * 2 ^ k ≤ roundShift m k := by
      rcases roundShift_eq m k with ⟨e, _⟩ | ⟨e, _⟩ <;> rw [e]
      · exact Nat.le_refl _
      · exact Nat.mul_le_mul_right _ (by omega)
    exact Nat.le_trans h1 (Nat.le_trans (Nat.mul_le_mul_right _ hlt) h2)
  · have hn := Nat.div_add_mod n (2 ^ k)
    have hm := Nat.div_add_mod m (2 ^ k)
    rw [← heq] at hm
    have hr : n % 2 ^ k ≤ m % 2 ^ k := by omega
    have step : n / 2 ^ k * 2 ^ k ≤ (n / 2 ^ k + 1) * 2 ^ k := Nat.mul_le_mul_right _ (by omega)
    unfold roundShift
    simp only [← heq]
    (repeat' split) <;> first | omega | exact step | exact Nat.le_refl _

/-- A multiple of `2^k` is not changed. -/
theorem roundShift_exact (a k : Nat) : roundShift (a * 2 ^ k) k = a * 2 ^ k := by
  have hpos : 0 < 2 ^ k := Nat.two_pow_pos k
  unfold roundShift
  simp only [Nat.mul_mod_left, Nat.mul_div_cancel _ hpos]
  rw [if_pos (by omega)]

theorem log2_bounds {n : Nat} (h : n ≠ 0) : 2 ^ n.log2 ≤ n ∧ n < 2 ^ (n.log2 + 1) :=
  ⟨Nat.log2_self_le h, Nat.lt_log2_self⟩

/-- Bounds of a big number in terms of its shift. -/
theorem shift_bounds {n : Nat} (h : ¬ n < 2 ^ 53) :
    1 ≤ n.log2 - 52 ∧ 2 ^ 52 * 2 ^ (n.log2 - 52) ≤ n ∧ n < 2 ^ 53 * 2 ^ (n.log2 - 52) := by
  have h0 : n ≠ 0 := by omega
  have hl : 53 ≤ n.log2 := (Nat.le_log2 h0).mpr (by omega)
  obtain ⟨h1, h2⟩ := log2_bounds h0
  refine ⟨by omega, ?_, ?_⟩
  · rw [← Nat.pow_add, show 52 + (n.log2 - 52) = n.log2 by omega]; exact h1
  · rw [← Nat.pow_add, show 53 + (n.log2 - 52) = n.log2 + 1 by omega]; exact h2

theorem roundNat_range {n : Nat} (h : ¬ n < 2 ^ 53) :
    2 ^ 52 * 2 ^ (n.log2 - 52) ≤ roundNat n ∧ roundNat n ≤ 2 ^ 53 * 2 ^ (n.log2 - 52) := by
  obtain ⟨-, h2, h3⟩ := shift_bounds h
  unfold roundNat
  rw [if_neg h]
  constructor
  · have := roundShift_mono (n.log2 - 52) h2
    rwa [roundShift_exact] at this
  · have := roundShift_mono (n.log2 - 52) (Nat.le_of_lt h3)
    rwa [roundShift_exact] at this

theorem roundNat_mono {n m : Nat} (h : n ≤ m) : roundNat n ≤ roundNat m := by
  by_cases hm : m < 2 ^ 53
  · unfold roundNat; rw [if_pos (by omega), if_pos hm]; exact h
  · obtain ⟨hk, -, -⟩ := shift_bounds hm
    obtain ⟨h1, -⟩ := roundNat_range hm
    by_cases hn : n < 2 ^ 53
    · have e : roundNat n = n := by unfold roundNat; rw [if_pos hn]
      have : 2 ^ 1 ≤ 2 ^ (m.log2 - 52) := Nat.pow_le_pow_right (by omega) hk
      rw [e]; omega
    · obtain ⟨-, h2⟩ := roundNat_range hn
      have hlog : n.log2 ≤ m.log2 := by
        have h0 : m ≠ 0 := by omega
        have h0' : n ≠ 0 := by omega
        rw [Nat.le_log2 h0]
        exact Nat.le_trans (Nat.log2_self_le h0') h
      rcases Nat.lt_or_eq_of_le hlog with hlt | heq
      · have : n.log2 - 52 + 1 ≤ m.log2 - 52 := by
          obtain ⟨hk', -, -⟩ := shift_bounds hn
          omega
        have h3 : 2 ^ (n.log2 - 52 + 1) ≤ 2 ^ (m.log2 - 52) := Nat.pow_le_pow_right (by omega) this
        rw [Nat.pow_succ] at h3
        omega
      · unfold roundNat
        rw [if_neg hn, if_neg hm, heq]
        exact roundShift_mono _ h

theorem roundNat_idem (n : Nat) : roundNat (roundNat n) = roundNat n := by
  by_cases hn : n < 2 ^ 53
  · have e : roundNat n = n := by unfold roundNat; rw [if_pos hn]
    rw [e, e]
  · obtain ⟨hk, -, -⟩ := shift_bounds hn
    obtain ⟨h1, h2⟩ := roundNat_range hn
    have hmul : ∃ a, roundNat n = a * 2 ^ (n.log2 - 52) := by
      unfold roundNat; rw [if_neg hn]
      rcases roundShift_eq n (n.log2 - 52) with ⟨e, _⟩ | ⟨e, _⟩ <;> exact ⟨_, e⟩
    obtain ⟨a, ha⟩ := hmul
    generalize hR : roundNat n = R at *
    generalize hK : n.log2 - 52 = k at *
    have h2k : 2 ^ 1 ≤ 2 ^ k := Nat.pow_le_pow_right (by omega) hk
    have hR' : ¬ R < 2 ^ 53 := by omega
    have h0 : R ≠ 0 := by omega
    rcases Nat.lt_or_eq_of_le h2 with hlt | heq
    · have hlog : R.log2 = 52 + k := by
        rw [Nat.log2_eq_iff h0, Nat.pow_add, show 52 + k + 1 = 53 + k by omega, Nat.pow_add]
        exact ⟨h1, hlt⟩
      unfold roundNat
      rw [if_neg hR', hlog, show 52 + k - 52 = k by omega, ha, roundShift_exact]
    · have hlog : R.log2 = 53 + k := by
        rw [heq, ← Nat.pow_add, Nat.log2_two_pow]
      unfold roundNat
      rw [if_neg hR', hlog, show 53 + k - 52 = k + 1 by omega]
      have : R = 2 ^ 52 * 2 ^ (k + 1) := by
        rw [heq, Nat.pow_succ]; omega
      rw [this, roundShift_exact]

/-- Rounding moves a magnitude by at most half a unit in the last place. -/
theorem roundNat_error (n : Nat) :
    2 ^ 53 * roundNat n ≤ 2 ^ 53 * n + n ∧ 2 ^ 53 * n ≤ 2 ^ 53 * roundNat n + n := by
  by_cases hn : n < 2 ^ 53
  · have e : roundNat n = n := by unfold roundNat; rw [if_pos hn]
    rw [e]; omega
  · obtain ⟨-, h2, -⟩ := shift_bounds hn
    have e : roundNat n = roundShift n (n.log2 - 52) := by unfold roundNat; rw [if_neg hn]
    rw [e]
    generalize n.log2 - 52 = k at *
    have hd := Nat.div_add_mod n (2 ^ k)
    rw [Nat.mul_comm] at hd
    have hs : (n / 2 ^ k + 1) * 2 ^ k = n / 2 ^ k * 2 ^ k + 2 ^ k := by
      rw [Nat.add_mul, Nat.one_mul]
    have hlt := Nat.mod_lt n (Nat.two_pow_pos k)
    rcases roundShift_eq n k with ⟨e, h⟩ | ⟨e, h⟩ <;> rw [e] <;> omega

theorem round_ofNat (n : Nat) : round (n : Int) = (roundNat n : Int) := rfl

theorem round_nonneg {a : Int} (h : 0 ≤ a) : 0 ≤ round a := by
  obtain ⟨n, rfl⟩ := Int.eq_ofNat_of_zero_le h
  rw [round_ofNat]; omega

theorem round_mono {a b : Int} (h0 : 0 ≤ a) (h : a ≤ b) : round a ≤ round b := by
  obtain ⟨n, rfl⟩ := Int.eq_ofNat_of_zero_le h0
  obtain ⟨m, rfl⟩ := Int.eq_ofNat_of_zero_le (Int.le_trans h0 h)
  rw [round_ofNat, round_ofNat]
  have := roundNat_mono (n := n) (m := m) (by omega)
  omega

theorem isF64_round {a : Int} (h : 0 ≤ a) : IsF64 (round a) := by
  obtain ⟨n, rfl⟩ := Int.eq_ofNat_of_zero_le h
  unfold IsF64
  rw [round_ofNat, round_ofNat, roundNat_idem]

/-- Adding something non-negative to a float does not decrease it. -/
theorem add_ge {a b : Int} (ha : 0 ≤ a) (hf : IsF64 a) (hb : 0 ≤ b) : a ≤ add a b := by
  have := round_mono ha (show a ≤ a + b by omega)
  unfold IsF64 at hf
  rw [hf] at this
  exact this

theorem add_zero {a : Int} (hf : IsF64 a) : add a 0 = a := by
  unfold add
  rw [Int.add_zero]; exact hf

theorem add_error {a b : Int} (ha : 0 ≤ a) (hb : 0 ≤ b) :
    2 ^ 53 * add a b ≤ 2 ^ 53 * (a + b) + (a + b) ∧
    2 ^ 53 * (a + b) ≤ 2 ^ 53 * add a b + (a + b) := by
  obtain ⟨n, hn⟩ := Int.eq_ofNat_of_zero_le (show 0 ≤ a + b by omega)
  unfold add
  rw [hn, round_ofNat]
  have := roundNat_error n
  omega

theorem isF64_zero : IsF64 0 := by decide +kernel

end J8a.F64

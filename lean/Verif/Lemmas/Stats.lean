import Verif.Lemmas.F64
import Verif.Spec.Stats
/-! # Facts about the memory history -/
namespace J8a
open Go

namespace Go.Slice
variable {α : Type}

theorem view_length (s : Slice α) : s.view.length = s.len := by
  have := s.fits
  simp only [view, List.length_take, List.length_drop]; omega

theorem view_make (n : Nat) (z : α) : (make n z).view = List.replicate n z := by
  simp [make, view]

theorem view_set {s t : Slice α} {i : Nat} {x : α} (h : s.set i x = some t) :
    t.view = s.view.set i x ∧ t.len = s.len := by
  unfold set at h
  split at h
  · cases h
    refine ⟨?_, rfl⟩
    simp only [view]
    apply List.ext_getElem?
    intro j
    simp only [List.getElem?_take, List.getElem?_drop, List.getElem?_set, List.length_take, List.length_drop]
    have := s.fits
    by_cases hj : j < s.len <;> by_cases hi : i = j <;> grind
  · cases h

theorem view_tail {s t : Slice α} (h : s.tail = some t) : t.view = s.view.tail := by
  unfold tail at h
  split at h
  · cases h
    simp only [view]
    apply List.ext_getElem?
    intro j
    simp only [List.getElem?_take, List.getElem?_drop, List.getElem?_tail]
    grind
  · cases h

theorem view_append (z : α) (g : Nat) (s : Slice α) (x : α) :
    (s.append z g x).view = s.view ++ [x] := by
  have hl := s.view_length
  unfold append
  split
  · simp only [view] at hl ⊢
    apply List.ext_getElem?
    intro j
    simp only [List.getElem?_take, List.getElem?_drop, List.getElem?_set, List.getElem?_append, hl]
    grind
  · simp only [view, List.drop_zero] at hl ⊢
    generalize List.take s.len (List.drop s.off s.arr) = v at *
    rw [← hl, List.take_length_add_append]
    rfl

end Go.Slice

theorem samplesAppend_view (g : Nat) (s : Slice Sample) (x : Sample) :
    ∃ t, samplesAppend g s x = some t ∧
      t.view = (if 24 ≤ s.len then s.view.tail else s.view) ++ [x] := by
  unfold samplesAppend historyMaxSamples
  by_cases h : 24 ≤ s.len
  · rw [if_pos h, if_pos h]
    obtain ⟨t, ht⟩ : ∃ t, s.set 0 .zero = some t := by
      unfold Slice.set; rw [if_pos (by omega)]; exact ⟨_, rfl⟩
    obtain ⟨hv, hl⟩ := Slice.view_set ht
    obtain ⟨u, hu⟩ : ∃ u, t.tail = some u := by
      unfold Slice.tail; rw [dif_pos (by omega)]; exact ⟨_, rfl⟩
    refine ⟨u.append .zero g x, by simp [ht, hu], ?_⟩
    rw [Slice.view_append, Slice.view_tail hu, hv]
    cases s.view <;> simp
  · rw [if_neg h, if_neg h]
    exact ⟨_, rfl, Slice.view_append ..⟩

theorem lastN_append_one {α : Type} {n : Nat} (l : List α) (x : α) (hn : 0 < n) :
    lastN n (l ++ [x]) = (if n ≤ (lastN n l).length then (lastN n l).tail else lastN n l) ++ [x] := by
  unfold lastN
  simp only [List.length_append, List.length_drop, List.length_cons, List.length_nil]
  by_cases h : n ≤ l.length
  · rw [if_pos (by omega), List.tail_drop, List.drop_append_of_le_length (by omega)]
    congr 2; omega
  · rw [if_neg (by omega), List.drop_append_of_le_length (by omega)]
    congr 2; omega

theorem appendAll_view (xs : List (Nat × Sample)) : ∀ (s : Slice Sample) (l : List Sample),
    s.view = lastN 24 l →
    ∃ t, appendAll xs s = some t ∧ t.view = lastN 24 (l ++ xs.map Prod.snd) := by
  induction xs with
  | nil => intro s l h; exact ⟨s, rfl, by simpa using h⟩
  | cons p xs ih =>
    intro s l h
    obtain ⟨g, x⟩ := p
    obtain ⟨t, ht, hv⟩ := samplesAppend_view g s x
    have : t.view = lastN 24 (l ++ [x]) := by
      rw [hv, lastN_append_one _ _ (by decide), ← h, ← s.view_length]
    obtain ⟨u, hu, hv'⟩ := ih t (l ++ [x]) this
    refine ⟨u, ?_, ?_⟩
    · simp [appendAll, ht, hu]
    · simpa using hv'

theorem fillHistory_view (z : Sample) : ∀ (k : Nat) (s : Slice Sample), s.len = 24 → k ≤ 24 →
    s.view.take (24 - k) = List.replicate (24 - k) z →
    ∃ t, fillHistory z k s = some t ∧ t.view = List.replicate 24 z := by
  intro k
  induction k with
  | zero =>
    intro s hl _ h
    refine ⟨s, rfl, ?_⟩
    rw [← h, List.take_of_length_le (by rw [s.view_length, hl]; exact Nat.le_refl _)]
  | succ k ih =>
    intro s hl hk h
    have hlt : historyMaxSamples - (k + 1) < s.len := by unfold historyMaxSamples; omega
    obtain ⟨t, ht⟩ : ∃ t, s.set (historyMaxSamples - (k + 1)) z = some t := by
      unfold Slice.set; rw [if_pos hlt]; exact ⟨_, rfl⟩
    obtain ⟨hv, hl'⟩ := Slice.view_set ht
    have : t.view.take (24 - k) = List.replicate (24 - k) z := by
      have hlen := s.view_length
      rw [hv]
      unfold historyMaxSamples
      apply List.ext_getElem?
      intro j
      have hj := congrArg (fun l : List Sample => l[j]?) h
      simp only [List.getElem?_take, List.getElem?_replicate, List.getElem?_set] at hj ⊢
      grind
    obtain ⟨u, hu, hv'⟩ := ih t (by omega) (by omega) this
    exact ⟨u, by simp [fillHistory, ht, hu], hv'⟩

/-! ## Division -/

namespace F64

/-- A float from 2^53 on is a multiple of its last place. -/
theorem exists_mul {a : Nat} (hf : roundNat a = a) (h : ¬ a < 2 ^ 53) :
    ∃ m, a = m * 2 ^ (a.log2 - 52) := by
  have : roundNat a = roundShift a (a.log2 - 52) := by unfold roundNat; rw [if_neg h]
  rw [hf] at this
  rcases roundShift_eq a (a.log2 - 52) with ⟨e, _⟩ | ⟨e, _⟩ <;> exact ⟨_, this.trans e⟩

theorem roundNat_small {a : Nat} (h : a < 2 ^ 53) : roundNat a = a := by
  unfold roundNat; rw [if_pos h]

/-- Two floats whose quotient is below two keep a whole place of distance. -/
theorem quotient_gap {a b : Nat} (ha : roundNat a = a) (hb : roundNat b = b) (h : a < 2 * b) :
    a * 2 ^ 52 ≤ (2 ^ 53 - 1) * b := by
  by_cases hb1 : b ≤ 2 ^ 52
  · omega
  · -- `e` is the last place of `b`
    obtain ⟨e, mb, hbe, hlo, hhi⟩ : ∃ e mb, b = mb * 2 ^ e ∧ 2 ^ 52 ≤ mb ∧ mb < 2 ^ 53 := by
      by_cases h53 : b < 2 ^ 53
      · exact ⟨0, b, by omega, by omega, h53⟩
      · obtain ⟨m, hm⟩ := exists_mul hb h53
        obtain ⟨-, h1, h2⟩ := shift_bounds h53
        generalize b.log2 - 52 = k at *
        refine ⟨k, m, hm, ?_, ?_⟩
        · rw [hm] at h1; exact Nat.le_of_mul_le_mul_right h1 (Nat.two_pow_pos k)
        · rw [hm] at h2; exact Nat.lt_of_mul_lt_mul_right h2
    by_cases hae : a < 2 ^ 53 * 2 ^ e
    · -- `a` lies below the binade of `2b`
      have : a ≤ (2 ^ 53 - 1) * 2 ^ e := by
        by_cases h53 : a < 2 ^ 53
        · by_cases he : e = 0
          · subst he; omega
          · have : 2 ^ 1 ≤ 2 ^ e := Nat.pow_le_pow_right (by omega) (by omega)
            omega
        · obtain ⟨m, hm⟩ := exists_mul ha h53
          obtain ⟨hk, h1, h2⟩ := shift_bounds h53
          generalize a.log2 - 52 = k at *
          have hm2 : m < 2 ^ 53 := by rw [hm] at h2; exact Nat.lt_of_mul_lt_mul_right h2
          have hke : k ≤ e := by
            apply Classical.byContradiction
            intro hc
            have : 2 ^ (e + 1) ≤ 2 ^ k := Nat.pow_le_pow_right (by omega) (by omega)
            rw [Nat.pow_succ] at this
            omega
          have : 2 ^ k ≤ 2 ^ e := Nat.pow_le_pow_right (by omega) hke
          calc a = m * 2 ^ k := hm
            _ ≤ (2 ^ 53 - 1) * 2 ^ k := Nat.mul_le_mul_right _ (by omega)
            _ ≤ (2 ^ 53 - 1) * 2 ^ e := Nat.mul_le_mul_left _ this
      have hb2 : 2 ^ 52 * 2 ^ e ≤ b := by rw [hbe]; exact Nat.mul_le_mul_right _ hlo
      generalize 2 ^ e = E at *
      omega
    · -- same binade: both are multiples of the last place
      have h53 : ¬ a < 2 ^ 53 := by
        have : 1 ≤ 2 ^ e := Nat.one_le_two_pow
        omega
      obtain ⟨m, hm⟩ := exists_mul ha h53
      obtain ⟨hk, h1, h2⟩ := shift_bounds h53
      generalize a.log2 - 52 = k at *
      have hke : e + 1 ≤ k := by
        apply Classical.byContradiction
        intro hc
        have : 2 ^ k ≤ 2 ^ e := Nat.pow_le_pow_right (by omega) (by omega)
        omega
      obtain ⟨j, rfl⟩ : ∃ j, k = e + 1 + j := ⟨k - (e + 1), by omega⟩
      have hma : a = (m * 2 ^ j) * 2 ^ (e + 1) := by
        rw [hm, Nat.pow_add, Nat.mul_comm (2 ^ (e + 1)), Nat.mul_assoc]
      rw [Nat.pow_succ] at hma
      generalize m * 2 ^ j = q at hma
      have hE : 0 < 2 ^ e := Nat.two_pow_pos e
      have hq : q < mb := by
        have : q * (2 ^ e * 2) < mb * (2 ^ e * 2) := by
          rw [← hma]
          have : mb * (2 ^ e * 2) = 2 * b := by rw [hbe, ← Nat.mul_assoc, Nat.mul_comm]
          omega
        exact Nat.lt_of_mul_lt_mul_right this
      have : q * 2 * 2 ^ 52 ≤ (2 ^ 53 - 1) * mb := by omega
      calc a * 2 ^ 52 = (q * 2 * 2 ^ 52) * 2 ^ e := by rw [hma]; ac_rfl
        _ ≤ ((2 ^ 53 - 1) * mb) * 2 ^ e := Nat.mul_le_mul_right _ this
        _ = (2 ^ 53 - 1) * b := by rw [hbe, Nat.mul_assoc]

end F64

namespace GoFloat

/-- The rounded quotient of two floats reaches two exactly if the quotient does. -/
theorem divNat_ge_two {a b : Nat} (ha : F64.roundNat a = a) (hb : F64.roundNat b = b) (h0 : 0 < b) :
    2 * 2 ^ 1074 ≤ divNat a b ↔ 2 * b ≤ a := by
  unfold divNat
  simp only
  have hexact : ∀ m k, m < 2 ^ 53 → F64.roundNat (m * 2 ^ k) = m * 2 ^ k := by
    intro m k hm
    by_cases h53 : m * 2 ^ k < 2 ^ 53
    · exact F64.roundNat_small h53
    · have hr : F64.roundNat (m * 2 ^ k) = F64.roundShift (m * 2 ^ k) ((m * 2 ^ k).log2 - 52) := by
        unfold F64.roundNat; rw [if_neg h53]
      obtain ⟨-, h1, h2⟩ := F64.shift_bounds h53
      generalize (m * 2 ^ k).log2 - 52 = l at *
      have hlk : l ≤ k := by
        apply Classical.byContradiction
        intro hc
        have h3 : 2 ^ (k + 1) ≤ 2 ^ l := Nat.pow_le_pow_right (by omega) (by omega)
        rw [Nat.pow_succ] at h3
        have h4 : m * 2 ^ k < 2 ^ 53 * 2 ^ k := Nat.mul_lt_mul_of_pos_right hm (Nat.two_pow_pos k)
        omega
      obtain ⟨j, rfl⟩ : ∃ j, k = j + l := ⟨k - l, by omega⟩
      rw [hr, Nat.pow_add, ← Nat.mul_assoc, F64.roundShift_exact]
  have e1 : (2 : Nat) ^ 1074 = 2 ^ 52 * 2 ^ 1022 := by rw [← Nat.pow_add]
  have hx1 : F64.roundNat ((2 ^ 53 - 1) * (2 * 2 ^ 1022)) = (2 ^ 53 - 1) * (2 * 2 ^ 1022) := by
    have := hexact (2 ^ 53 - 1) 1023 (by omega)
    rwa [show (2 : Nat) ^ 1023 = 2 * 2 ^ 1022 by rw [Nat.pow_succ, Nat.mul_comm]] at this
  have hx2 : F64.roundNat (2 ^ 54 * 2 ^ 1022) = 2 ^ 54 * 2 ^ 1022 := by
    have := hexact 1 1076 (by omega)
    rwa [show 1 * (2 : Nat) ^ 1076 = 2 ^ 54 * 2 ^ 1022 by rw [← Nat.pow_add, Nat.one_mul]] at this
  have hP : 0 < (2 : Nat) ^ 1022 := Nat.two_pow_pos _
  rw [e1]
  clear e1 hexact
  generalize (2 : Nat) ^ 1022 = P at *
  constructor
  · intro h
    apply Classical.byContradiction
    intro hc
    have hgap := F64.quotient_gap ha hb (by omega)
    have hle : a * (2 ^ 52 * P) ≤ ((2 ^ 53 - 1) * P) * b := by
      rw [← Nat.mul_assoc, Nat.mul_right_comm (2 ^ 53 - 1) P b]
      exact Nat.mul_le_mul_right _ hgap
    have hs : 2 * (a * (2 ^ 52 * P) / b) + (if a * (2 ^ 52 * P) % b = 0 then 0 else 1)
        ≤ (2 ^ 53 - 1) * (2 * P) := by
      generalize a * (2 ^ 52 * P) = X at *
      have hdm := Nat.div_add_mod X b
      have hq : X / b ≤ (2 ^ 53 - 1) * P := by
        apply Nat.div_le_of_le_mul; rw [Nat.mul_comm]; exact hle
      split
      · omega
      · have : X / b ≠ (2 ^ 53 - 1) * P := by
          intro he
          rw [he, Nat.mul_comm b] at hdm
          omega
        omega
    have := F64.roundNat_mono hs
    rw [hx1] at this
    omega
  · intro h
    have h1 : 2 * (2 ^ 52 * P) ≤ a * (2 ^ 52 * P) / b := by
      rw [Nat.le_div_iff_mul_le h0, Nat.mul_right_comm]
      exact Nat.mul_le_mul_right _ h
    have h2 := F64.roundNat_mono (show 2 ^ 54 * P ≤
      2 * (a * (2 ^ 52 * P) / b) + (if a * (2 ^ 52 * P) % b = 0 then 0 else 1) by omega)
    rw [hx2] at h2
    omega

theorem divNat_scale (a b : Nat) {c : Nat} (hc : 0 < c) : divNat (a * c) (b * c) = divNat a b := by
  unfold divNat
  simp only
  rw [Nat.mul_right_comm, Nat.mul_div_mul_right _ _ hc, Nat.mul_mod_mul_right]
  have : (a * 2 ^ 1074 % b * c = 0) ↔ (a * 2 ^ 1074 % b = 0) := by
    rw [Nat.mul_eq_zero]; constructor
    · rintro (h | h)
      · exact h
      · omega
    · exact .inl
  simp only [this]

/-- A sample is flagged exactly if its rounded size reaches twice the rounded oldest size. -/
theorem growthOf_high (o s : Sample) :
    (growthOf o s).high = true ↔
      0 < F64.roundNat o.rssBytes + F64.roundNat s.rssBytes ∧
      2 * F64.roundNat o.rssBytes ≤ F64.roundNat s.rssBytes := by
  unfold growthOf GoFloat.ofNat
  simp only
  obtain ⟨one, hone, h1⟩ : ∃ one : Nat, F64.one = (one : Int) ∧ one = 2 ^ 1074 :=
    ⟨2 ^ 1074, by unfold F64.one; exact (Int.natCast_pow 2 1074).symm, rfl⟩
  have hpos : 0 < one := by rw [h1]; exact Nat.two_pow_pos _
  have ha := F64.roundNat_idem s.rssBytes
  have hb := F64.roundNat_idem o.rssBytes
  generalize F64.roundNat s.rssBytes = a at *
  generalize F64.roundNat o.rssBytes = b at *
  unfold growthRateThreshold
  rw [hone]
  simp only [div]
  by_cases hb0 : b = 0
  · subst hb0
    by_cases ha0 : a = 0
    · subst ha0
      simp [ge]
    · have : ((a : Int) * one) ≠ 0 := by
        intro h
        rcases Int.mul_eq_zero.mp h with h | h <;> omega
      simp [ge, this]
      omega
  · have : ((b : Int) * one) ≠ 0 := by
      intro h
      rcases Int.mul_eq_zero.mp h with h | h <;> omega
    rw [if_neg this]
    simp only [ge, decide_eq_true_eq]
    rw [← Int.natCast_mul, ← Int.natCast_mul, Int.toNat_natCast, Int.toNat_natCast,
      divNat_scale _ _ hpos]
    have hiff := divNat_ge_two ha hb (by omega)
    rw [← h1] at hiff
    constructor
    · intro h; exact ⟨by omega, hiff.mp (by omega)⟩
    · intro h
      have := hiff.mpr h.2
      omega

end GoFloat

end J8a

import Verif.Lemmas.SortSeq
/-!
# `doPivot` of package sort partitions
-/
namespace J8a.SortRace

theorem swapped_len (arr : Policy) (x y : Nat) (hx : x < arr.length) (hy : y < arr.length) :
    (swapped arr x y hx hy).length = arr.length := by simp [swapped]

theorem medianOfThree_eval (lo hi m1 m0 m2 : Nat) (k : Prog) (arr : Policy) (hb : hi ≤ arr.length)
    (h1 : lo ≤ m1) (h1' : m1 < hi) (h0 : lo ≤ m0) (h0' : m0 < hi) (h2 : lo ≤ m2) (h2' : m2 < hi)
    (d1 : m1 ≠ m0) (d2 : m2 ≠ m1) (d3 : m2 ≠ m0) :
    ∃ arr', (medianOfThree m1 m0 m2 k).eval arr = k.eval arr' ∧ Rearr lo hi arr arr' ∧
      W arr' m1 ≤ W arr' m2 := by
  have key : ∀ arr : Policy, hi ≤ arr.length → W arr m0 ≤ W arr m1 →
      ∃ arr', (Prog.less m2 m1 fun r =>
        if r then .swap m2 m1 (.less m1 m0 fun r => if r then .swap m1 m0 k else k) else k).eval arr
          = k.eval arr' ∧ Rearr lo hi arr arr' ∧ W arr' m1 ≤ W arr' m2 := by
    intro arr hb h
    rw [eval_less _ (by omega) (by omega)]
    by_cases hl : W arr m2 < W arr m1
    · rw [decide_eq_true hl]
      simp only [if_true]
      rw [eval_swap _ (by omega) (by omega), eval_less _ (by rw [swapped_len]; omega) (by rw [swapped_len]; omega)]
      split
      · rw [eval_swap _ (by rw [swapped_len]; omega) (by rw [swapped_len]; omega)]
        refine ⟨_, rfl, (Rearr.swap _ _ h2 h2' h1 h1').trans (Rearr.swap _ _ h1 h1' h0 h0'), ?_⟩
        simp only [W_swapped]
        simp only [d1, d2, d3, Ne.symm d1, Ne.symm d2, Ne.symm d3, if_true, if_false]
        omega
      · refine ⟨_, rfl, Rearr.swap _ _ h2 h2' h1 h1', ?_⟩
        simp only [W_swapped]
        simp only [d2, Ne.symm d2, if_true, if_false]
        omega
    · rw [decide_eq_false hl]
      exact ⟨arr, rfl, .refl _ _ _, by omega⟩
  unfold medianOfThree
  simp only
  rw [eval_less _ (by omega) (by omega)]
  by_cases hl : W arr m1 < W arr m0
  · rw [decide_eq_true hl]
    simp only [if_true]
    rw [eval_swap _ (by omega) (by omega)]
    obtain ⟨x, e1, e2, e3⟩ := key (swapped arr m1 m0 (by omega) (by omega)) (by rw [swapped_len]; exact hb) (by
      simp only [W_swapped, d1, if_true, if_false]; omega)
    exact ⟨x, e1, (Rearr.swap _ _ h1 h1' h0 h0').trans e2, e3⟩
  · rw [decide_eq_false hl]
    exact key arr hb (by omega)

theorem partitionLoop_eval (lo : Nat) (k : Nat → Nat → Prog) (f : Nat) : ∀ (arr : Policy) (b c : Nat),
    lo < b → b ≤ c → c ≤ arr.length → c - b ≤ f →
    ∃ arr' b', (partitionLoop lo k f b c).eval arr = (k b' b').eval arr' ∧ Rearr b c arr arr' ∧
      b ≤ b' ∧ b' ≤ c ∧ (∀ i, b ≤ i → i < b' → W arr' i ≤ W arr lo) ∧
      (∀ i, b' ≤ i → i < c → W arr lo ≤ W arr' i) := by
  induction f with
  | zero =>
    intro arr b c h1 h2 h3 h4
    have : c = b := by omega
    subst this
    exact ⟨arr, c, rfl, .refl _ _ _, Nat.le_refl _, Nat.le_refl _, fun i _ _ => by omega, fun i _ _ => by omega⟩
  | succ f ih =>
    intro arr b c h1 h2 h3 h4
    unfold partitionLoop
    obtain ⟨b1, u1, u2, u3, u4, u5⟩ := upMore_eval lo false (fun b =>
      downMore lo true (fun c =>
        if b ≥ c then k b c else .swap b (c - 1) (partitionLoop lo k f (b + 1) (c - 1)))
        (c - b) c) arr (by omega) (c - b) b (by omega)
    rw [u3]
    obtain ⟨c1, v1, v2, v3, v4, v5⟩ := downMore_eval lo true (fun c =>
        if b1 ≥ c then k b1 c else .swap b1 (c - 1) (partitionLoop lo k f (b1 + 1) (c - 1))) arr (by omega)
        (c - b1) c (by omega) (by omega)
    rw [v3]
    simp only [decide_eq_false_iff_not, decide_eq_true_eq, ne_eq, Classical.not_not] at u4 u5 v4 v5
    by_cases hbc : b1 ≥ c1
    · rw [if_pos hbc]
      have : c1 = b1 := by omega
      subst this
      exact ⟨arr, c1, rfl, .refl _ _ _, by omega, by omega, fun i i1 i2 => by have := u4 i i1 i2; omega,
        fun i i1 i2 => by have := v4 i i1 i2; omega⟩
    · rw [if_neg hbc]
      have w1 := u5 (by omega)
      have w2 := v5 (by omega)
      have hne : b1 ≠ c1 - 1 := fun e => by rw [e] at w1; exact w2 w1
      rw [eval_swap _ (by omega) (by omega)]
      have hlo : W (swapped arr b1 (c1 - 1) (by omega) (by omega)) lo = W arr lo := by
        rw [W_swapped, if_neg (by omega), if_neg (by omega)]
      obtain ⟨arr', b', e1, e2, e3, e4, e5, e6⟩ := ih (swapped arr b1 (c1 - 1) (by omega) (by omega)) (b1 + 1)
        (c1 - 1) (by omega) (by omega) (by rw [swapped_len]; omega) (by omega)
      rw [hlo] at e5 e6
      refine ⟨arr', b', e1, (Rearr.swap _ _ (by omega) (by omega) (by omega) (by omega)).trans
        (e2.mono (by omega) (by omega)), by omega, by omega, fun i i1 i2 => ?_, fun i i1 i2 => ?_⟩
      · by_cases hi : i < b1 + 1
        · rw [e2.W_out (Or.inl hi), W_swapped, if_neg (show ¬ i = c1 - 1 by omega)]
          by_cases hi' : i = b1
          · rw [if_pos hi']; omega
          · rw [if_neg hi']; have := u4 i i1 (by omega); omega
        · exact e5 i (by omega) i2
      · by_cases hi : i < c1 - 1
        · exact e6 i i1 hi
        · rw [e2.W_out (Or.inr (by omega)), W_swapped]
          by_cases hi' : i = c1 - 1
          · rw [if_pos hi']; omega
          · rw [if_neg hi', if_neg (by omega)]; have := v4 i (by omega) i2; omega

theorem protectLoop_eval (lo : Nat) (k : Nat → Prog) (f : Nat) : ∀ (arr : Policy) (a b : Nat),
    lo < a → lo < b → b ≤ arr.length → b - a ≤ f → (∀ i, a ≤ i → i < b → W arr i ≤ W arr lo) →
    ∃ arr' b', (protectLoop lo k f a b).eval arr = (k b').eval arr' ∧ Rearr a b arr arr' ∧
      (a ≤ b' ∨ b ≤ b') ∧ b' ≤ b ∧ (∀ i, b' ≤ i → i < b → W arr' i = W arr lo) := by
  induction f with
  | zero =>
    intro arr a b _ _ _ h4 _
    exact ⟨arr, b, rfl, .refl _ _ _, Or.inr (Nat.le_refl _), Nat.le_refl _, fun i _ _ => by omega⟩
  | succ f ih =>
    intro arr a b h1 h2 h3 h4 h5
    unfold protectLoop
    by_cases hba : b ≤ a
    · rw [show b - a = 0 by omega]
      unfold downLess
      rw [show b - a = 0 by omega]
      unfold upLess
      rw [if_pos hba]
      exact ⟨arr, b, rfl, .refl _ _ _, Or.inr (Nat.le_refl _), Nat.le_refl _, fun i _ _ => by omega⟩
    obtain ⟨b1, u1, u2, u3, u4, u5⟩ := downLess_eval lo false (fun b =>
      upLess lo true (fun a =>
        if a ≥ b then k b else .swap a (b - 1) (protectLoop lo k f (a + 1) (b - 1)))
        (b - a) a) arr (by omega) (b - a) b (by omega) (by omega)
    rw [u3]
    obtain ⟨a1, v1, v2, v3, v4, v5⟩ := upLess_eval lo true (fun a =>
        if a ≥ b1 then k b1 else .swap a (b1 - 1) (protectLoop lo k f (a + 1) (b1 - 1))) arr (by omega)
        (b1 - a) a (by omega)
    rw [v3]
    simp only [decide_eq_false_iff_not, decide_eq_true_eq, ne_eq, Classical.not_not] at u4 u5 v4 v5
    by_cases hbc : a1 ≥ b1
    · rw [if_pos hbc]
      exact ⟨arr, b1, rfl, .refl _ _ _, by omega, by omega,
        fun i i1 i2 => by have := u4 i i1 i2; have := h5 i (by omega) i2; omega⟩
    · rw [if_neg hbc]
      have w1 := u5 (by omega)
      have w2 := v5 (by omega)
      have hne : a1 ≠ b1 - 1 := fun e => by rw [e] at w2; exact w2 w1
      have w3 := h5 a1 (by omega) (by omega)
      rw [eval_swap _ (by omega) (by omega)]
      have hlo : W (swapped arr a1 (b1 - 1) (by omega) (by omega)) lo = W arr lo := by
        rw [W_swapped, if_neg (by omega), if_neg (by omega)]
      obtain ⟨arr', b', e1, e2, e3, e4, e5⟩ := ih (swapped arr a1 (b1 - 1) (by omega) (by omega)) (a1 + 1)
        (b1 - 1) (by omega) (by omega) (by rw [swapped_len]; omega) (by omega) (fun i i1 i2 => by
          rw [hlo, W_swapped, if_neg (by omega), if_neg (by omega)]
          exact h5 i (by omega) (by omega))
      rw [hlo] at e5
      refine ⟨arr', b', e1, (Rearr.swap _ _ (by omega) (by omega) (by omega) (by omega)).trans
        (e2.mono (by omega) (by omega)), by omega, by omega, fun i i1 i2 => ?_⟩
      by_cases hi : i < b1 - 1
      · exact e5 i i1 hi
      · rw [e2.W_out (Or.inr (by omega)), W_swapped]
        by_cases hi' : i = b1 - 1
        · rw [if_pos hi']; omega
        · rw [if_neg hi', if_neg (by omega)]
          have := u4 i (by omega) i2; have := h5 i (by omega) i2; omega

/-- The array during `doPivot`, after the main loop: the pivot is at `lo`, up to `b` nothing is greater, up
to `c` everything equals it, from `c` on nothing is less. -/
structure Parted (lo hi b c : Nat) (arr : Policy) : Prop where
  lob : lo < b
  bc : b ≤ c
  chi : c ≤ hi
  len : hi ≤ arr.length
  low : ∀ i, lo < i → i < b → W arr i ≤ W arr lo
  mid : ∀ i, b ≤ i → i < c → W arr i = W arr lo
  high : ∀ i, c ≤ i → i < hi → W arr lo ≤ W arr i

/-- What `doPivot` achieves. -/
def Pivoted (lo hi : Nat) (k : Nat → Nat → Prog) (p : Prog) (arr : Policy) : Prop :=
  ∃ arr' mlo mhi P, p.eval arr = (k mlo mhi).eval arr' ∧ Rearr lo hi arr arr' ∧
    lo ≤ mlo ∧ mlo < mhi ∧ mhi ≤ hi ∧ (∀ i, lo ≤ i → i < mlo → W arr' i ≤ P) ∧
    (∀ i, mlo ≤ i → i < mhi → W arr' i = P) ∧ (∀ i, mhi ≤ i → i < hi → P ≤ W arr' i)

theorem Pivoted.after {lo hi : Nat} {k : Nat → Nat → Prog} {p q : Prog} {arr arr1 : Policy}
    (h : Pivoted lo hi k q arr1) (he : p.eval arr = q.eval arr1) (hr : Rearr lo hi arr arr1) :
    Pivoted lo hi k p arr := by
  obtain ⟨x, mlo, mhi, P, h1, h2, h3⟩ := h
  exact ⟨x, mlo, mhi, P, he.trans h1, hr.trans h2, h3⟩

theorem pivotEnd_eval {lo hi b c : Nat} {k : Nat → Nat → Prog} {arr : Policy} (h : Parted lo hi b c arr) :
    Pivoted lo hi k (pivotEnd lo k b c) arr := by
  obtain ⟨h1, h2, h3, h4, h5, h6, h7⟩ := h
  have hx : lo < arr.length := by omega
  have hy : b - 1 < arr.length := by omega
  refine ⟨swapped arr lo (b - 1) hx hy, b - 1, c, W arr lo, eval_swap _ hx hy,
    Rearr.swap _ _ (by omega) (by omega) (by omega) (by omega), by omega, by omega, h3, fun i i1 i2 => ?_,
    fun i i1 i2 => ?_, fun i i1 i2 => ?_⟩
  · rw [W_swapped, if_neg (by omega)]
    split
    · exact h5 (b - 1) (by omega) (by omega)
    · exact h5 i (by omega) (by omega)
  · rw [W_swapped]
    split
    · rfl
    · rw [if_neg (by omega)]; exact h6 i (by omega) i2
  · rw [W_swapped, if_neg (by omega), if_neg (by omega)]
    exact h7 i i1 i2

theorem pivotProtect_eval {lo hi a b c : Nat} {k : Nat → Nat → Prog} {arr : Policy} (protect : Bool)
    (ha : lo < a) (h : Parted lo hi b c arr) : Pivoted lo hi k (pivotProtect lo k protect a b c) arr := by
  unfold pivotProtect
  split
  · obtain ⟨arr', b', e1, e2, e3, e4, e5⟩ := protectLoop_eval lo (fun b => pivotEnd lo k b c) (b - a) arr a b ha
      h.lob (by have := h.bc; have := h.chi; have := h.len; omega) (Nat.le_refl _)
      (fun i i1 i2 => h.low i (by omega) i2)
    have h2 := h.bc
    have h3 := h.chi
    have h4 := h.lob
    have hlo : W arr' lo = W arr lo := e2.W_out (Or.inl ha)
    refine (pivotEnd_eval (b := b') (c := c) (k := k) (arr := arr') ?_).after e1 ?_
    · refine ⟨by omega, by omega, h3, by rw [e2.len]; exact h.len, fun i i1 i2 => ?_, fun i i1 i2 => ?_, fun i i1 i2 => ?_⟩
      · rw [hlo]
        by_cases hi : i < a
        · rw [e2.W_out (Or.inl hi)]; exact h.low i i1 (by omega)
        · exact e2.all (P := fun w => w ≤ W arr lo) (fun j j1 j2 => h.low j (by omega) j2) i (by omega) (by omega)
      · rw [hlo]
        by_cases hi : i < b
        · exact e5 i i1 hi
        · rw [e2.W_out (Or.inr (by omega))]; exact h.mid i (by omega) i2
      · rw [hlo, e2.W_out (Or.inr (by omega))]; exact h.high i i1 i2
    · exact e2.mono (by omega) (by omega)
  · exact pivotEnd_eval h

theorem dupMid_eval {lo hi m a b c dups : Nat} {k : Nat → Nat → Prog} {arr : Policy}
    (ha : lo < a) (hm : lo < m) (hm' : m < b) (h : Parted lo hi b c arr) :
    Pivoted lo hi k (dupMid lo m k a b c dups) arr := by
  have h2 := h.bc
  have h3 := h.chi
  have h4 := h.len
  have hx : m < arr.length := by omega
  have hy : b - 1 < arr.length := by omega
  by_cases hl : W arr m < W arr lo
  · refine (pivotProtect_eval (1 < dups) ha h).after ?_ (.refl _ _ _)
    unfold dupMid
    rw [eval_less _ hx (by omega), decide_eq_true hl]; rfl
  · refine (pivotProtect_eval (b := b - 1) (c := c) (arr := swapped arr m (b - 1) hx hy) (1 < dups + 1) ha ?_).after
      ?_ (Rearr.swap hx hy (by omega) (by omega) (by omega) (by omega))
    · have e := h.low m hm hm'
      have hlo : W (swapped arr m (b - 1) hx hy) lo = W arr lo := by
        rw [W_swapped, if_neg (by omega), if_neg (by omega)]
      refine ⟨by omega, by omega, h3, by rw [swapped_len]; exact h4, fun i i1 i2 => ?_, fun i i1 i2 => ?_,
        fun i i1 i2 => ?_⟩
      · rw [hlo, W_swapped, if_neg (by omega)]
        split
        · exact h.low _ (by omega) (by omega)
        · exact h.low _ i1 (by omega)
      · rw [hlo, W_swapped]
        split
        · omega
        · rw [if_neg (by omega)]; exact h.mid i (by omega) i2
      · rw [hlo, W_swapped, if_neg (by omega), if_neg (by omega)]
        exact h.high i i1 i2
    · unfold dupMid
      rw [eval_less _ hx (by omega), decide_eq_false hl]
      exact eval_swap _ hx hy

theorem dupLow_eval {lo hi m a b c dups : Nat} {k : Nat → Nat → Prog} {arr : Policy}
    (ha : lo < a) (hm : lo < m) (hm' : m + 1 < b) (h : Parted lo hi b c arr) :
    Pivoted lo hi k (dupLow lo m k a b c dups) arr := by
  have h2 := h.bc
  have h3 := h.chi
  have h4 := h.len
  by_cases hl : W arr (b - 1) < W arr lo
  · refine (dupMid_eval (dups := dups) ha hm (show m < b by omega) h).after ?_ (.refl _ _ _)
    unfold dupLow
    rw [eval_less _ (by omega) (by omega), decide_eq_true hl]; rfl
  · refine (dupMid_eval (b := b - 1) (c := c) (dups := dups + 1) ha hm (by omega) ?_).after ?_ (.refl _ _ _)
    · refine ⟨by omega, by omega, h3, h4, fun i i1 i2 => h.low i i1 (by omega), fun i i1 i2 => ?_, h.high⟩
      by_cases hi : i = b - 1
      · have := h.low i (by omega) (by omega)
        rw [hi] at this ⊢; omega
      · exact h.mid i (by omega) i2
    · unfold dupLow
      rw [eval_less _ (by omega) (by omega), decide_eq_false hl]; rfl

theorem dupHigh_eval {lo hi m a b c : Nat} {k : Nat → Nat → Prog} {arr : Policy}
    (ha : lo < a) (hm : lo < m) (hm' : m + 1 < b) (hc : c < hi) (h : Parted lo hi b c arr) :
    Pivoted lo hi k (dupHigh lo m hi k a b c) arr := by
  have h1 := h.lob
  have h2 := h.bc
  have h4 := h.len
  have hx : c < arr.length := by omega
  have hy : hi - 1 < arr.length := by omega
  by_cases hl : W arr lo < W arr (hi - 1)
  · refine (dupLow_eval (dups := 0) ha hm hm' h).after ?_ (.refl _ _ _)
    unfold dupHigh
    rw [eval_less _ (by omega) (by omega), decide_eq_true hl]; rfl
  · refine (dupLow_eval (b := b) (c := c + 1) (arr := swapped arr c (hi - 1) hx hy) (dups := 1) ha hm hm' ?_).after
      ?_ (Rearr.swap hx hy (by omega) (by omega) (by omega) (by omega))
    · have e := h.high (hi - 1) (by omega) (by omega)
      have hlo : W (swapped arr c (hi - 1) hx hy) lo = W arr lo := by
        rw [W_swapped, if_neg (by omega), if_neg (by omega)]
      refine ⟨h1, by omega, by omega, by rw [swapped_len]; exact h4, fun i i1 i2 => ?_, fun i i1 i2 => ?_,
        fun i i1 i2 => ?_⟩
      · rw [hlo, W_swapped, if_neg (by omega), if_neg (by omega)]
        exact h.low i i1 i2
      · rw [hlo, W_swapped]
        split
        · have := h.high c (by omega) hc
          have : c = hi - 1 := by omega
          rw [← this] at hl; omega
        · split
          · omega
          · exact h.mid i i1 (by omega)
      · rw [hlo, W_swapped]
        split
        · exact h.high c (by omega) hc
        · rw [if_neg (by omega)]; exact h.high i (by omega) i2
    · unfold dupHigh
      rw [eval_less _ (by omega) (by omega), decide_eq_false hl]
      exact eval_swap _ hx hy

theorem pivotDups_eval {lo hi a b : Nat} {k : Nat → Nat → Prog} {arr : Policy}
    (ha : lo < a) (hhl : 12 < hi - lo) (hb : b < hi) (h : Parted lo hi b b arr) :
    Pivoted lo hi k (pivotDups lo hi k a b b) arr := by
  unfold pivotDups
  split
  · exact pivotProtect_eval true ha h
  · split
    · exact dupHigh_eval ha (by omega) (by omega) hb h
    · exact pivotProtect_eval false ha h

theorem pivotMain_eval {lo hi : Nat} {k : Nat → Nat → Prog} {arr : Policy} (hhl : 12 < hi - lo)
    (hb : hi ≤ arr.length) (h : W arr lo ≤ W arr (hi - 1)) : Pivoted lo hi k (pivotMain lo hi k) arr := by
  unfold pivotMain
  obtain ⟨a, u1, u2, u3, u4, u5⟩ := upLess_eval lo true
    (fun a => partitionLoop lo (fun b c => pivotDups lo hi k a b c) (hi - 1 - a) a (hi - 1)) arr (by omega)
    (hi - 1 - (lo + 1)) (lo + 1) (by omega)
  obtain ⟨arr', b', e1, e2, e3, e4, e5, e6⟩ := partitionLoop_eval lo (fun b c => pivotDups lo hi k a b c)
    (hi - 1 - a) arr a (hi - 1) (by omega) (by omega) (by omega) (Nat.le_refl _)
  have hlo : W arr' lo = W arr lo := e2.W_out (Or.inl (by omega))
  refine (pivotDups_eval (a := a) (b := b') (arr := arr') (by omega) hhl (by omega) ?_).after (u3.trans e1)
    (e2.mono (by omega) (by omega))
  refine ⟨by omega, Nat.le_refl _, by omega, by rw [e2.len]; exact hb, fun i i1 i2 => ?_, fun i i1 i2 => by omega,
    fun i i1 i2 => ?_⟩
  · rw [hlo]
    by_cases hi : i < a
    · rw [e2.W_out (Or.inl hi)]
      have := of_decide_eq_true (u4 i (by omega) hi); omega
    · exact e5 i (by omega) i2
  · rw [hlo]
    by_cases hh : i < hi - 1
    · exact e6 i i1 hh
    · have : i = hi - 1 := by omega
      rw [this, e2.W_out (Or.inr (Nat.le_refl _))]; exact h

theorem doPivot_eval {lo hi : Nat} {k : Nat → Nat → Prog} {arr : Policy} (hhl : 12 < hi - lo)
    (hb : hi ≤ arr.length) : Pivoted lo hi k (doPivot lo hi k) arr := by
  have key : ∀ arr : Policy, hi ≤ arr.length →
      Pivoted lo hi k (medianOfThree lo ((lo + hi) / 2) (hi - 1) (pivotMain lo hi k)) arr := by
    intro arr hb
    obtain ⟨x, e1, e2, e3⟩ := medianOfThree_eval lo hi lo ((lo + hi) / 2) (hi - 1) (pivotMain lo hi k) arr hb
      (by omega) (by omega) (by omega) (by omega) (by omega) (by omega) (by omega) (by omega) (by omega)
    exact (pivotMain_eval hhl (by rw [e2.len]; exact hb) e3).after e1 e2
  unfold doPivot
  simp only
  split
  · obtain ⟨x, e1, e2, -⟩ := medianOfThree_eval lo hi lo (lo + (hi - lo) / 8) (lo + 2 * ((hi - lo) / 8))
      (medianOfThree ((lo + hi) / 2) ((lo + hi) / 2 - (hi - lo) / 8) ((lo + hi) / 2 + (hi - lo) / 8)
        (medianOfThree (hi - 1) (hi - 1 - (hi - lo) / 8) (hi - 1 - 2 * ((hi - lo) / 8))
          (medianOfThree lo ((lo + hi) / 2) (hi - 1) (pivotMain lo hi k)))) arr hb
      (by omega) (by omega) (by omega) (by omega) (by omega) (by omega) (by omega) (by omega) (by omega)
    obtain ⟨y, f1, f2, -⟩ := medianOfThree_eval lo hi ((lo + hi) / 2) ((lo + hi) / 2 - (hi - lo) / 8)
      ((lo + hi) / 2 + (hi - lo) / 8)
        (medianOfThree (hi - 1) (hi - 1 - (hi - lo) / 8) (hi - 1 - 2 * ((hi - lo) / 8))
          (medianOfThree lo ((lo + hi) / 2) (hi - 1) (pivotMain lo hi k))) x (by rw [e2.len]; exact hb)
      (by omega) (by omega) (by omega) (by omega) (by omega) (by omega) (by omega) (by omega) (by omega)
    obtain ⟨z, g1, g2, -⟩ := medianOfThree_eval lo hi (hi - 1) (hi - 1 - (hi - lo) / 8)
      (hi - 1 - 2 * ((hi - lo) / 8))
          (medianOfThree lo ((lo + hi) / 2) (hi - 1) (pivotMain lo hi k)) y (by rw [f2.len, e2.len]; exact hb)
      (by omega) (by omega) (by omega) (by omega) (by omega) (by omega) (by omega) (by omega) (by omega)
    exact (key z (by rw [g2.len, f2.len, e2.len]; exact hb)).after (e1.trans (f1.trans g1)) (e2.trans (f2.trans g2))
  · exact key arr hb

end J8a.SortRace

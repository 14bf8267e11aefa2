import Verif.Model.SortRace
/-!
# The indices of package sort stay in range whatever `Less` returns

Together with the bounds on the remaining iterations: these are never what ends a loop.
-/
namespace J8a.SortRace

/-- Every index that may be used is below `n`. -/
def Prog.Within (n : Nat) : Prog → Prop
  | .done => True
  | .less x y k => x < n ∧ y < n ∧ ∀ r, (k r).Within n
  | .swap x y k => x < n ∧ y < n ∧ k.Within n

theorem within_ite {n : Nat} {p q : Prog} {c : Prop} [Decidable c] (h1 : c → p.Within n)
    (h2 : ¬ c → q.Within n) : (if c then p else q).Within n := by
  split
  · exact h1 ‹_›
  · exact h2 ‹_›

theorem insertInner_within {n a : Nat} {k : Prog} (hk : k.Within n) (m : Nat) (h : a + m < n) :
    (insertInner a k m).Within n := by
  induction m with
  | zero => exact hk
  | succ m ih =>
    refine ⟨by omega, by omega, fun r => within_ite (fun _ => ⟨by omega, by omega, ih (by omega)⟩) fun _ => hk⟩

theorem insertOuter_within {n a b : Nat} {k : Prog} (hk : k.Within n) (hb : b ≤ n) (m : Nat)
    (hm : m + (a + 1) ≤ b) : (insertOuter a b k m).Within n := by
  induction m with
  | zero => exact hk
  | succ m ih => exact insertInner_within (ih (by omega)) _ (by omega)

theorem shellPass_within {n b : Nat} {k : Prog} (hk : k.Within n) (hb : b ≤ n) (m : Nat) (hm : m ≤ b) :
    (shellPass b k m).Within n := by
  induction m with
  | zero => exact hk
  | succ m ih =>
    exact ⟨by omega, by omega, fun r => within_ite (fun _ => ⟨by omega, by omega, ih (by omega)⟩)
      fun _ => ih (by omega)⟩

theorem smallSort_within {n a b : Nat} {k : Prog} (hk : k.Within n) (hb : b ≤ n) : (smallSort a b k).Within n :=
  within_ite (fun _ => shellPass_within (insertOuter_within hk hb _ (by omega)) hb _ (by omega)) fun _ => hk

theorem siftDown_within {n hi first : Nat} {k : Prog} (hk : k.Within n) (hb : first + hi ≤ n) (f : Nat) :
    ∀ root, (siftDown hi first k f root).Within n := by
  induction f with
  | zero => intro root; unfold siftDown; exact hk
  | succ f ih =>
    intro root
    unfold siftDown
    have go : ∀ child, root < child → child < hi → (Prog.less (first + root) (first + child) fun r =>
        if r then .swap (first + root) (first + child) (siftDown hi first k f child) else k).Within n :=
      fun child h1 h2 => ⟨by omega, by omega, fun r =>
        within_ite (fun _ => ⟨by omega, by omega, ih child⟩) fun _ => hk⟩
    refine within_ite (fun _ => hk) fun hc => within_ite (fun h => ⟨by omega, by omega, fun r =>
      within_ite (fun _ => go _ (by omega) h) fun _ => go _ (by omega) (by omega)⟩) fun _ => go _ (by omega) (by omega)

theorem heapify_within {n hi first : Nat} {k : Prog} (hk : k.Within n) (hb : first + hi ≤ n) (m : Nat) :
    (heapify hi first k m).Within n := by
  induction m with
  | zero => exact hk
  | succ m ih => exact siftDown_within ih hb _ _

theorem popAll_within {n first : Nat} {k : Prog} (hk : k.Within n) (m : Nat) (hb : first + m ≤ n) :
    (popAll first k m).Within n := by
  induction m with
  | zero => exact hk
  | succ m ih => exact ⟨by omega, by omega, siftDown_within (ih (by omega)) (by omega) _ _⟩

theorem heapSort_within {n a b : Nat} {k : Prog} (hk : k.Within n) (hab : a ≤ b) (hb : b ≤ n) :
    (heapSort a b k).Within n :=
  heapify_within (popAll_within hk _ (by omega)) (by omega) _

theorem medianOfThree_within {n m1 m0 m2 : Nat} {k : Prog} (hk : k.Within n) (h1 : m1 < n) (h0 : m0 < n)
    (h2 : m2 < n) : (medianOfThree m1 m0 m2 k).Within n := by
  have rest : (Prog.less m2 m1 fun r =>
    if r then .swap m2 m1 (.less m1 m0 fun r => if r then .swap m1 m0 k else k) else k).Within n :=
    ⟨h2, h1, fun r => within_ite (fun _ => ⟨h2, h1, h1, h0, fun r => within_ite (fun _ => ⟨h1, h0, hk⟩)
      fun _ => hk⟩) fun _ => hk⟩
  exact ⟨h1, h0, fun r => within_ite (fun _ => ⟨h1, h0, rest⟩) fun _ => rest⟩

theorem upLess_within {n pivot : Nat} {want : Bool} {k : Nat → Prog} (hp : pivot < n) (m : Nat) : ∀ x, x + m ≤ n →
    (∀ x', x ≤ x' → x' ≤ x + m → (k x').Within n) → (upLess pivot want k m x).Within n := by
  induction m with
  | zero => intro x _ hk; exact hk x (Nat.le_refl _) (Nat.le_refl _)
  | succ m ih =>
    intro x hx hk
    exact ⟨by omega, hp, fun r => within_ite (fun _ => ih (x + 1) (by omega) fun x' h1 h2 =>
      hk x' (by omega) (by omega)) fun _ => hk x (by omega) (by omega)⟩

theorem upMore_within {n pivot : Nat} {want : Bool} {k : Nat → Prog} (hp : pivot < n) (m : Nat) : ∀ x,
    x + m ≤ n ∨ m = 0 →
    (∀ x', x ≤ x' → x' ≤ x + m → (k x').Within n) → (upMore pivot want k m x).Within n := by
  induction m with
  | zero => intro x _ hk; exact hk x (Nat.le_refl _) (Nat.le_refl _)
  | succ m ih =>
    intro x hx hk
    exact ⟨hp, by omega, fun r => within_ite (fun _ => ih (x + 1) (by omega) fun x' h1 h2 =>
      hk x' (by omega) (by omega)) fun _ => hk x (by omega) (by omega)⟩

theorem downLess_within {n pivot : Nat} {want : Bool} {k : Nat → Prog} (hp : pivot < n) (m : Nat) : ∀ y, m ≤ y →
    y ≤ n → (∀ y', y ≤ y' + m → y' ≤ y → (k y').Within n) → (downLess pivot want k m y).Within n := by
  induction m with
  | zero => intro y _ _ hk; exact hk y (Nat.le_refl _) (Nat.le_refl _)
  | succ m ih =>
    intro y hy hn hk
    exact ⟨by omega, hp, fun r => within_ite (fun _ => ih (y - 1) (by omega) (by omega) fun y' h1 h2 =>
      hk y' (by omega) (by omega)) fun _ => hk y (by omega) (by omega)⟩

theorem downMore_within {n pivot : Nat} {want : Bool} {k : Nat → Prog} (hp : pivot < n) (m : Nat) : ∀ y, m ≤ y →
    y ≤ n → (∀ y', y ≤ y' + m → y' ≤ y → (k y').Within n) → (downMore pivot want k m y).Within n := by
  induction m with
  | zero => intro y _ _ hk; exact hk y (Nat.le_refl _) (Nat.le_refl _)
  | succ m ih =>
    intro y hy hn hk
    exact ⟨hp, by omega, fun r => within_ite (fun _ => ih (y - 1) (by omega) (by omega) fun y' h1 h2 =>
      hk y' (by omega) (by omega)) fun _ => hk y (by omega) (by omega)⟩

theorem partitionLoop_within {n pivot : Nat} {k : Nat → Nat → Prog} (hp : pivot < n) (f : Nat) : ∀ b c,
    b ≤ c + 1 → c ≤ n → c - b ≤ f →
    (∀ b' c', b ≤ b' → c' ≤ b' → b' ≤ c' + 1 → c' ≤ c → (k b' c').Within n) →
    (partitionLoop pivot k f b c).Within n := by
  induction f with
  | zero => intro b c h1 h2 h3 hk; exact hk b c (Nat.le_refl _) (by omega) h1 (Nat.le_refl _)
  | succ f ih =>
    intro b c h1 h2 h3 hk
    refine upMore_within hp _ _ (by omega) fun b1 u1 u2 => downMore_within hp _ _ (by omega) h2 fun c1 v1 v2 =>
      within_ite (fun h => hk b1 c1 u1 h (by omega) (by omega)) fun h => ⟨by omega, by omega, ?_⟩
    exact ih _ _ (by omega) (by omega) (by omega) fun b' c' w1 w2 w3 w4 => hk b' c' (by omega) w2 w3 (by omega)

theorem protectLoop_within {n pivot : Nat} {k : Nat → Prog} (hp : pivot < n) (f : Nat) : ∀ a b,
    pivot < a → pivot < b → a ≤ n → b ≤ n → (∀ b', pivot < b' → b' ≤ b → (k b').Within n) →
    (protectLoop pivot k f a b).Within n := by
  induction f with
  | zero => intro a b _ h2 _ _ hk; exact hk b h2 (Nat.le_refl _)
  | succ f ih =>
    intro a b h1 h2 h3 h4 hk
    refine downLess_within hp _ _ (by omega) h4 fun b1 u1 u2 => upLess_within hp _ _ (by omega) fun a1 v1 v2 =>
      within_ite (fun h => hk b1 (by omega) u2) fun h => ⟨by omega, by omega, ?_⟩
    exact ih _ _ (by omega) (by omega) (by omega) (by omega) fun b' w1 w2 => hk b' w1 (by omega)

/-- Within the range for all continuations at the results that `doPivot` may have. -/
def After (n lo hi : Nat) (k : Nat → Nat → Prog) : Prop :=
  ∀ mlo mhi, lo ≤ mlo → mlo < hi → mhi ≤ hi → (k mlo mhi).Within n

theorem pivotProtect_within {n lo hi a b c : Nat} {k : Nat → Nat → Prog} {protect : Bool} (hn : hi ≤ n)
    (hk : After n lo hi k) (ha : lo < a) (ha' : a ≤ hi) (hb : lo < b) (hb' : b ≤ hi) (hc : c ≤ hi) :
    (pivotProtect lo k protect a b c).Within n := by
  have hend : ∀ b', lo < b' → b' ≤ b → (pivotEnd lo k b' c).Within n := fun b' h1 h2 =>
    ⟨by omega, by omega, hk _ _ (by omega) (by omega) hc⟩
  exact within_ite (fun _ => protectLoop_within (by omega) _ _ _ ha hb (by omega) (by omega) hend)
    fun _ => hend b hb (Nat.le_refl _)

theorem dupMid_within {n lo hi m a b c dups : Nat} {k : Nat → Nat → Prog} (hn : hi ≤ n)
    (hk : After n lo hi k) (ha : lo < a) (ha' : a ≤ hi) (hb : lo + 1 < b) (hb' : b ≤ hi) (hc : c ≤ hi) (hm : m < hi) :
    (dupMid lo m k a b c dups).Within n :=
  ⟨by omega, by omega, fun r => within_ite
    (fun _ => pivotProtect_within hn hk ha ha' (by omega) hb' hc)
    fun _ => ⟨by omega, by omega, pivotProtect_within hn hk ha ha' (by omega) (by omega) hc⟩⟩

theorem dupLow_within {n lo hi m a b c dups : Nat} {k : Nat → Nat → Prog} (hn : hi ≤ n)
    (hk : After n lo hi k) (ha : lo < a) (ha' : a ≤ hi) (hb : lo + 2 < b) (hb' : b ≤ hi) (hc : c ≤ hi) (hm : m < hi) :
    (dupLow lo m k a b c dups).Within n :=
  ⟨by omega, by omega, fun r => within_ite
    (fun _ => dupMid_within hn hk ha ha' (by omega) hb' hc hm)
    fun _ => dupMid_within hn hk ha ha' (by omega) (by omega) hc hm⟩

theorem dupHigh_within {n lo hi m a b c : Nat} {k : Nat → Nat → Prog} (hn : hi ≤ n)
    (hk : After n lo hi k) (ha : lo < a) (ha' : a ≤ hi) (hb : lo + 2 < b) (hb' : b ≤ hi) (hc : c < hi) (hm : m < hi) :
    (dupHigh lo m hi k a b c).Within n :=
  ⟨by omega, by omega, fun r => within_ite
    (fun _ => dupLow_within hn hk ha ha' hb hb' (by omega) hm)
    fun _ => ⟨by omega, by omega, dupLow_within hn hk ha ha' hb hb' (by omega) hm⟩⟩

theorem doPivot_within {n lo hi : Nat} {k : Nat → Nat → Prog} (hhl : 12 < hi - lo) (hn : hi ≤ n)
    (hk : After n lo hi k) : (doPivot lo hi k).Within n := by
  have main : (pivotMain lo hi k).Within n := by
    refine upLess_within (by omega) _ _ (by omega) fun a a1 a2 => partitionLoop_within (by omega) _ _ _ (by omega)
      (by omega) (by omega) fun b c w1 w2 w3 w4 => ?_
    exact within_ite (fun _ => pivotProtect_within hn hk (by omega) (by omega) (by omega) (by omega) (by omega))
      fun _ => within_ite
        (fun _ => dupHigh_within hn hk (by omega) (by omega) (by omega) (by omega) (by omega) (by omega))
        fun _ => pivotProtect_within hn hk (by omega) (by omega) (by omega) (by omega) (by omega)
  have rest := medianOfThree_within (n := n) (m1 := lo) (m0 := (lo + hi) / 2) (m2 := hi - 1) main (by omega)
    (by omega) (by omega)
  exact within_ite (fun _ => medianOfThree_within (medianOfThree_within (medianOfThree_within rest (by omega)
    (by omega) (by omega)) (by omega) (by omega) (by omega)) (by omega) (by omega) (by omega)) fun _ => rest

theorem quickSort_within {n : Nat} (d : Nat) : ∀ a b k, b ≤ n → k.Within n → (quickSort d a b k).Within n := by
  induction d with
  | zero =>
    intro a b k hb hk
    exact within_ite (fun _ => heapSort_within hk (by omega) hb) fun _ => smallSort_within hk hb
  | succ d ih =>
    intro a b k hb hk
    exact within_ite (fun _ => doPivot_within (by omega) hb fun mlo mhi h1 h2 h3 =>
      within_ite (fun _ => ih _ _ _ (by omega) (ih _ _ _ hb hk)) fun _ => ih _ _ _ hb (ih _ _ _ (by omega) hk))
      fun _ => smallSort_within hk hb

theorem sort_within (n : Nat) : (sort n).Within n := quickSort_within _ _ _ _ (Nat.le_refl _) trivial

/-! ## The bounds on the number of iterations do not matter -/

theorem siftDown_bound (hi first : Nat) (k : Prog) (f : Nat) : ∀ f' root, hi ≤ root + f → hi ≤ root + f' →
    siftDown hi first k f root = siftDown hi first k f' root := by
  induction f with
  | zero =>
    intro f' root h1 h2
    cases f' with
    | zero => rfl
    | succ f' =>
      show k = siftDown hi first k (f' + 1) root
      unfold siftDown
      simp only
      rw [if_pos (by omega)]
  | succ f ih =>
    intro f' root h1 h2
    cases f' with
    | zero =>
      show siftDown hi first k (f + 1) root = k
      unfold siftDown
      simp only
      rw [if_pos (by omega)]
    | succ f' =>
      unfold siftDown
      simp only
      rw [ih f' (2 * root + 1) (by omega) (by omega), ih f' (2 * root + 1 + 1) (by omega) (by omega)]

theorem upMore_congr {pivot : Nat} {want : Bool} {k k' : Nat → Prog} (m : Nat) : ∀ x,
    (∀ x', x ≤ x' → x' ≤ x + m → k x' = k' x') → upMore pivot want k m x = upMore pivot want k' m x := by
  induction m with
  | zero => intro x h; exact h x (Nat.le_refl _) (Nat.le_refl _)
  | succ m ih =>
    intro x h
    unfold upMore
    rw [ih (x + 1) fun x' h1 h2 => h x' (by omega) (by omega), h x (by omega) (by omega)]

theorem upLess_congr {pivot : Nat} {want : Bool} {k k' : Nat → Prog} (m : Nat) : ∀ x,
    (∀ x', x ≤ x' → x' ≤ x + m → k x' = k' x') → upLess pivot want k m x = upLess pivot want k' m x := by
  induction m with
  | zero => intro x h; exact h x (Nat.le_refl _) (Nat.le_refl _)
  | succ m ih =>
    intro x h
    unfold upLess
    rw [ih (x + 1) fun x' h1 h2 => h x' (by omega) (by omega), h x (by omega) (by omega)]

theorem downMore_congr {pivot : Nat} {want : Bool} {k k' : Nat → Prog} (m : Nat) : ∀ y,
    (∀ y', y ≤ y' + m → y' ≤ y → k y' = k' y') → downMore pivot want k m y = downMore pivot want k' m y := by
  induction m with
  | zero => intro y h; exact h y (Nat.le_refl _) (Nat.le_refl _)
  | succ m ih =>
    intro y h
    unfold downMore
    rw [ih (y - 1) fun y' h1 h2 => h y' (by omega) (by omega), h y (by omega) (by omega)]

theorem downLess_congr {pivot : Nat} {want : Bool} {k k' : Nat → Prog} (m : Nat) : ∀ y,
    (∀ y', y ≤ y' + m → y' ≤ y → k y' = k' y') → downLess pivot want k m y = downLess pivot want k' m y := by
  induction m with
  | zero => intro y h; exact h y (Nat.le_refl _) (Nat.le_refl _)
  | succ m ih =>
    intro y h
    unfold downLess
    rw [ih (y - 1) fun y' h1 h2 => h y' (by omega) (by omega), h y (by omega) (by omega)]

/-- When the bound is reached the loop would have ended anyway. -/
theorem partitionLoop_bound (pivot : Nat) (k : Nat → Nat → Prog) (f : Nat) : ∀ f' b c, c - b ≤ f → c - b ≤ f' →
    partitionLoop pivot k f b c = partitionLoop pivot k f' b c := by
  have zero : ∀ f b c, c - b = 0 → partitionLoop pivot k f b c = k b c := by
    intro f b c h
    cases f with
    | zero => rfl
    | succ f => simp only [partitionLoop, h, upMore, downMore, if_pos (show b ≥ c by omega)]
  induction f with
  | zero => intro f' b c h1 h2; rw [zero _ _ _ (by omega), zero _ _ _ (by omega)]
  | succ f ih =>
    intro f' b c h1 h2
    cases f' with
    | zero => rw [zero _ _ _ (by omega), zero _ _ _ (by omega)]
    | succ f' =>
      unfold partitionLoop
      refine upMore_congr _ _ fun b1 u1 u2 => downMore_congr _ _ fun c1 v1 v2 => ?_
      split
      · rfl
      · rw [ih f' (b1 + 1) (c1 - 1) (by omega) (by omega)]

theorem protectLoop_bound (pivot : Nat) (k : Nat → Prog) (f : Nat) : ∀ f' a b, b - a ≤ f → b - a ≤ f' →
    protectLoop pivot k f a b = protectLoop pivot k f' a b := by
  have zero : ∀ f a b, b - a = 0 → protectLoop pivot k f a b = k b := by
    intro f a b h
    cases f with
    | zero => rfl
    | succ f => simp only [protectLoop, h, upLess, downLess, if_pos (show a ≥ b by omega)]
  induction f with
  | zero => intro f' a b h1 h2; rw [zero _ _ _ (by omega), zero _ _ _ (by omega)]
  | succ f ih =>
    intro f' a b h1 h2
    cases f' with
    | zero => rw [zero _ _ _ (by omega), zero _ _ _ (by omega)]
    | succ f' =>
      unfold protectLoop
      refine downLess_congr _ _ fun b1 u1 u2 => upLess_congr _ _ fun a1 v1 v2 => ?_
      split
      · rfl
      · rw [ih f' (a1 + 1) (b1 - 1) (by omega) (by omega)]

end J8a.SortRace

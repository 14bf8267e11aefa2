import Verif.Model.SortRace
/-!
# The sort of package sort, run undisturbed, sorts
-/
namespace J8a.SortRace

/-- Weight at a position. -/
def W (arr : Policy) (a : Nat) : Int := (arr[a]?.map LabelWeight.weight).getD 0

theorem lessAt_eq {arr : Policy} {x y : Nat} (hx : x < arr.length) (hy : y < arr.length) :
    lessAt arr x y = some (decide (W arr x < W arr y)) := by
  simp [lessAt, W, hx, hy, Policy.less]

def swapped (arr : Policy) (x y : Nat) (hx : x < arr.length) (hy : y < arr.length) : Policy :=
  (arr.set x arr[y]).set y arr[x]

/-- Running the rest of a call without interference; `none` if an index is out of range. -/
def Prog.eval : Prog → Policy → Option Policy
  | .done, arr => some arr
  | .less x y k, arr => match lessAt arr x y with
    | some r => (k r).eval arr
    | none => none
  | .swap x y k, arr =>
    if h : x < arr.length ∧ y < arr.length then k.eval (swapped arr x y h.1 h.2) else none

theorem eval_less {arr : Policy} {x y : Nat} (k : Bool → Prog) (hx : x < arr.length)
    (hy : y < arr.length) : (Prog.less x y k).eval arr = (k (decide (W arr x < W arr y))).eval arr := by
  simp only [Prog.eval, lessAt_eq hx hy]

theorem eval_swap {arr : Policy} {x y : Nat} (k : Prog) (hx : x < arr.length) (hy : y < arr.length) :
    (Prog.swap x y k).eval arr = k.eval (swapped arr x y hx hy) := by
  simp only [Prog.eval, dif_pos (And.intro hx hy)]

theorem swapped_get (arr : Policy) (x y : Nat) (hx : x < arr.length) (hy : y < arr.length) (a : Nat) :
    (swapped arr x y hx hy)[a]? = if a = y then arr[x]? else if a = x then arr[y]? else arr[a]? := by
  unfold swapped
  simp only [List.getElem?_set, List.length_set]
  by_cases h1 : a = y
  · subst h1; simp [hy, hx]
  · simp only [h1, if_false, if_neg (Ne.symm h1)]
    by_cases h2 : a = x
    · subst h2; simp [hx, hy]
    · simp [h2, Ne.symm h2]

theorem W_swapped (arr : Policy) (x y : Nat) (hx : x < arr.length) (hy : y < arr.length) (a : Nat) :
    W (swapped arr x y hx hy) a = if a = y then W arr x else if a = x then W arr y else W arr a := by
  unfold W
  rw [swapped_get]
  repeat' split
  all_goals rfl

/-- `arr'` differs from `arr` by a rearrangement of the positions from `a` up to `b`. -/
structure Rearr (a b : Nat) (arr arr' : Policy) : Prop where
  perm : arr'.Perm arr
  out : ∀ i, i < a ∨ b ≤ i → arr'[i]? = arr[i]?
  inn : ∀ i, a ≤ i → i < b → ∃ j, a ≤ j ∧ j < b ∧ arr'[i]? = arr[j]?

theorem Rearr.refl (a b : Nat) (arr : Policy) : Rearr a b arr arr :=
  ⟨.refl _, fun _ _ => rfl, fun i h1 h2 => ⟨i, h1, h2, rfl⟩⟩

theorem Rearr.len {a b : Nat} {arr arr' : Policy} (h : Rearr a b arr arr') : arr'.length = arr.length :=
  h.perm.length_eq

theorem Rearr.trans {a b : Nat} {x y z : Policy} (h : Rearr a b x y) (h' : Rearr a b y z) : Rearr a b x z := by
  refine ⟨h'.perm.trans h.perm, fun i hi => (h'.out i hi).trans (h.out i hi), fun i h1 h2 => ?_⟩
  obtain ⟨j, j1, j2, j3⟩ := h'.inn i h1 h2
  obtain ⟨l, l1, l2, l3⟩ := h.inn j j1 j2
  exact ⟨l, l1, l2, j3.trans l3⟩

theorem Rearr.mono {a b a' b' : Nat} {x y : Policy} (h : Rearr a b x y) (ha : a' ≤ a) (hb : b ≤ b') :
    Rearr a' b' x y := by
  refine ⟨h.perm, fun i hi => h.out i (by omega), fun i h1 h2 => ?_⟩
  by_cases hi : i < a ∨ b ≤ i
  · exact ⟨i, h1, h2, h.out i hi⟩
  · obtain ⟨j, j1, j2, j3⟩ := h.inn i (by omega) (by omega)
    exact ⟨j, by omega, by omega, j3⟩

theorem Rearr.swap {a b x y : Nat} {arr : Policy} (hx : x < arr.length) (hy : y < arr.length)
    (h1 : a ≤ x) (h2 : x < b) (h3 : a ≤ y) (h4 : y < b) : Rearr a b arr (swapped arr x y hx hy) := by
  refine ⟨List.set_set_perm hx hy, fun i hi => ?_, fun i i1 i2 => ?_⟩
  · rw [swapped_get, if_neg (by omega), if_neg (by omega)]
  · rw [swapped_get]
    split
    · exact ⟨x, h1, h2, rfl⟩
    · split
      · exact ⟨y, h3, h4, rfl⟩
      · exact ⟨i, i1, i2, rfl⟩

theorem Rearr.W_out {a b : Nat} {arr arr' : Policy} (h : Rearr a b arr arr') {i : Nat}
    (hi : i < a ∨ b ≤ i) : W arr' i = W arr i := by
  unfold W; rw [h.out i hi]

/-- What holds of all weights in the range still does. -/
theorem Rearr.all {a b : Nat} {arr arr' : Policy} (h : Rearr a b arr arr') {P : Int → Prop}
    (hp : ∀ i, a ≤ i → i < b → P (W arr i)) (i : Nat) (h1 : a ≤ i) (h2 : i < b) : P (W arr' i) := by
  obtain ⟨j, j1, j2, j3⟩ := h.inn i h1 h2
  have := hp j j1 j2
  unfold W at *
  rwa [j3]

/-- Ascending between two positions. -/
def SortedOn (a b : Nat) (arr : Policy) : Prop := ∀ i j, a ≤ i → i < j → j < b → W arr i ≤ W arr j

/-! ## At most twelve elements -/

theorem insertInner_eval (a : Nat) (k : Prog) (m : Nat) : ∀ (arr : Policy) (i : Nat), i < arr.length →
    a + m ≤ i → (∀ x y, a ≤ x → x < y → y ≤ i → y ≠ a + m → W arr x ≤ W arr y) →
    ∃ arr', (insertInner a k m).eval arr = k.eval arr' ∧ Rearr a (i + 1) arr arr' ∧
      SortedOn a (i + 1) arr' := by
  induction m with
  | zero =>
    intro arr i hi hm h
    refine ⟨arr, rfl, .refl _ _ _, fun x y h1 h2 h3 => h x y h1 h2 (by omega) (by omega)⟩
  | succ m ih =>
    intro arr i hi hm h
    unfold insertInner
    rw [eval_less _ (by omega) (by omega)]
    by_cases hl : W arr (a + m + 1) < W arr (a + m)
    · rw [decide_eq_true hl]
      simp only [if_true]
      rw [eval_swap _ (by omega) (by omega)]
      obtain ⟨arr', e1, e2, e3⟩ := ih (swapped arr (a + m + 1) (a + m) (by omega) (by omega)) i
        (by simpa [swapped] using hi) (by omega) (by
          intro x y h1 h2 h3 h4
          rw [W_swapped, W_swapped]
          by_cases hy : y = a + m + 1
          · subst hy
            rw [if_neg (show ¬ (a + m + 1 = a + m) by omega), if_pos (rfl : a + m + 1 = a + m + 1)]
            by_cases hx : x = a + m
            · rw [if_pos hx]; omega
            · rw [if_neg hx, if_neg (show ¬ (x = a + m + 1) by omega)]
              exact h x (a + m) h1 (by omega) (by omega) (by omega)
          · rw [if_neg h4, if_neg hy]
            have hxy := h x y h1 h2 h3 (by omega)
            by_cases hx : x = a + m
            · rw [if_pos hx]
              exact h (a + m + 1) y (by omega) (by omega) h3 (by omega)
            · rw [if_neg hx]
              by_cases hx' : x = a + m + 1
              · rw [if_pos hx']
                exact h (a + m) y (by omega) (by omega) h3 (by omega)
              · rw [if_neg hx']; exact hxy)
      exact ⟨arr', e1, (Rearr.swap _ _ (by omega) (by omega) (by omega) (by omega)).trans e2, e3⟩
    · rw [decide_eq_false hl]
      refine ⟨arr, rfl, .refl _ _ _, fun x y h1 h2 h3 => ?_⟩
      by_cases hy : y = a + (m + 1)
      · subst hy
        by_cases hx : x = a + m
        · subst hx
          have : a + (m + 1) = a + m + 1 := by omega
          rw [this]; omega
        · have := h x (a + m) h1 (by omega) (by omega) (by omega)
          have e : a + (m + 1) = a + m + 1 := by omega
          rw [e]; omega
      · exact h x y h1 h2 (by omega) hy

theorem insertOuter_eval (a b : Nat) (k : Prog) (m : Nat) : ∀ (arr : Policy), b ≤ arr.length →
    m + (a + 1) ≤ b → SortedOn a (b - m) arr →
    ∃ arr', (insertOuter a b k m).eval arr = k.eval arr' ∧ Rearr a b arr arr' ∧ SortedOn a b arr' := by
  induction m with
  | zero => intro arr _ _ h; exact ⟨arr, rfl, .refl _ _ _, h⟩
  | succ m ih =>
    intro arr hb hm h
    unfold insertOuter
    obtain ⟨x, e1, e2, e3⟩ := insertInner_eval a (insertOuter a b k m) (b - (m + 1) - a) arr (b - (m + 1))
      (by omega) (by omega) (fun x y h1 h2 h3 h4 => h x y h1 h2 (by omega))
    obtain ⟨y, f1, f2, f3⟩ := ih x (by rw [e2.len]; exact hb) (by omega)
      (by rw [show b - m = b - (m + 1) + 1 by omega]; exact e3)
    exact ⟨y, e1.trans f1, (e2.mono (Nat.le_refl _) (by omega)).trans f2, f3⟩

theorem insertionSort_eval (a b : Nat) (k : Prog) (arr : Policy) (hb : b ≤ arr.length) (hab : a < b) :
    ∃ arr', (insertionSort a b k).eval arr = k.eval arr' ∧ Rearr a b arr arr' ∧ SortedOn a b arr' :=
  insertOuter_eval a b k _ arr hb (by omega) (fun i j h1 h2 h3 => by omega)

theorem shellPass_eval (a b : Nat) (k : Prog) (m : Nat) : ∀ (arr : Policy), b ≤ arr.length →
    a + 6 + m ≤ b ∨ m = 0 → ∃ arr', (shellPass b k m).eval arr = k.eval arr' ∧ Rearr a b arr arr' := by
  induction m with
  | zero => intro arr _ _; exact ⟨arr, rfl, .refl _ _ _⟩
  | succ m ih =>
    intro arr hb hm
    unfold shellPass
    rw [eval_less _ (by omega) (by omega)]
    split
    · rw [eval_swap _ (by omega) (by omega)]
      obtain ⟨y, f1, f2⟩ := ih (swapped arr (b - (m + 1)) (b - (m + 1) - 6) (by omega) (by omega))
        (by simpa [swapped] using hb) (by omega)
      exact ⟨y, f1, (Rearr.swap _ _ (by omega) (by omega) (by omega) (by omega)).trans f2⟩
    · exact ih arr hb (by omega)

theorem smallSort_eval (a b : Nat) (k : Prog) (arr : Policy) (hb : b ≤ arr.length) :
    ∃ arr', (smallSort a b k).eval arr = k.eval arr' ∧ Rearr a b arr arr' ∧ SortedOn a b arr' := by
  unfold smallSort
  split
  · obtain ⟨x, e1, e2⟩ := shellPass_eval a b (insertionSort a b k) (b - (a + 6)) arr hb (by omega)
    obtain ⟨y, f1, f2, f3⟩ := insertionSort_eval a b k x (by rw [e2.len]; exact hb) (by omega)
    exact ⟨y, e1.trans f1, e2.trans f2, f3⟩
  · exact ⟨arr, rfl, .refl _ _ _, fun i j h1 h2 h3 => by omega⟩

/-! ## doPivot -/

theorem upLess_eval (pivot : Nat) (want : Bool) (k : Nat → Prog) (arr : Policy) (hp : pivot < arr.length)
    (m : Nat) : ∀ x, x + m ≤ arr.length →
    ∃ x', x ≤ x' ∧ x' ≤ x + m ∧ (upLess pivot want k m x).eval arr = (k x').eval arr ∧
      (∀ i, x ≤ i → i < x' → decide (W arr i < W arr pivot) = want) ∧
      (x' < x + m → decide (W arr x' < W arr pivot) ≠ want) := by
  induction m with
  | zero => intro x _; exact ⟨x, Nat.le_refl _, Nat.le_refl _, rfl, fun i h1 h2 => by omega, fun h => by omega⟩
  | succ m ih =>
    intro x hx
    unfold upLess
    rw [eval_less _ (by omega) hp]
    by_cases h : decide (W arr x < W arr pivot) = want
    · rw [if_pos h]
      obtain ⟨x', h1, h2, h3, h4, h5⟩ := ih (x + 1) (by omega)
      refine ⟨x', by omega, by omega, h3, fun i i1 i2 => ?_, fun h => h5 (by omega)⟩
      by_cases hi : i = x
      · rw [hi]; exact h
      · exact h4 i (by omega) i2
    · rw [if_neg h]
      exact ⟨x, Nat.le_refl _, by omega, rfl, fun i h1 h2 => by omega, fun _ => h⟩

theorem upMore_eval (pivot : Nat) (want : Bool) (k : Nat → Prog) (arr : Policy) (hp : pivot < arr.length)
    (m : Nat) : ∀ x, x + m ≤ arr.length →
    ∃ x', x ≤ x' ∧ x' ≤ x + m ∧ (upMore pivot want k m x).eval arr = (k x').eval arr ∧
      (∀ i, x ≤ i → i < x' → decide (W arr pivot < W arr i) = want) ∧
      (x' < x + m → decide (W arr pivot < W arr x') ≠ want) := by
  induction m with
  | zero => intro x _; exact ⟨x, Nat.le_refl _, Nat.le_refl _, rfl, fun i h1 h2 => by omega, fun h => by omega⟩
  | succ m ih =>
    intro x hx
    unfold upMore
    rw [eval_less _ hp (by omega)]
    by_cases h : decide (W arr pivot < W arr x) = want
    · rw [if_pos h]
      obtain ⟨x', h1, h2, h3, h4, h5⟩ := ih (x + 1) (by omega)
      refine ⟨x', by omega, by omega, h3, fun i i1 i2 => ?_, fun h => h5 (by omega)⟩
      by_cases hi : i = x
      · rw [hi]; exact h
      · exact h4 i (by omega) i2
    · rw [if_neg h]
      exact ⟨x, Nat.le_refl _, by omega, rfl, fun i h1 h2 => by omega, fun _ => h⟩

theorem downLess_eval (pivot : Nat) (want : Bool) (k : Nat → Prog) (arr : Policy) (hp : pivot < arr.length)
    (m : Nat) : ∀ y, m ≤ y → y ≤ arr.length →
    ∃ y', y' ≤ y ∧ y ≤ y' + m ∧ (downLess pivot want k m y).eval arr = (k y').eval arr ∧
      (∀ i, y' ≤ i → i < y → decide (W arr i < W arr pivot) = want) ∧
      (y < y' + m → decide (W arr (y' - 1) < W arr pivot) ≠ want) := by
  induction m with
  | zero => intro y _ _; exact ⟨y, Nat.le_refl _, Nat.le_refl _, rfl, fun i h1 h2 => by omega, fun h => by omega⟩
  | succ m ih =>
    intro y hm hy
    unfold downLess
    rw [eval_less _ (by omega) hp]
    by_cases h : decide (W arr (y - 1) < W arr pivot) = want
    · rw [if_pos h]
      obtain ⟨y', h1, h2, h3, h4, h5⟩ := ih (y - 1) (by omega) (by omega)
      refine ⟨y', by omega, by omega, h3, fun i i1 i2 => ?_, fun h => h5 (by omega)⟩
      by_cases hi : i = y - 1
      · rw [hi]; exact h
      · exact h4 i i1 (by omega)
    · rw [if_neg h]
      exact ⟨y, Nat.le_refl _, by omega, rfl, fun i h1 h2 => by omega, fun _ => h⟩

theorem downMore_eval (pivot : Nat) (want : Bool) (k : Nat → Prog) (arr : Policy) (hp : pivot < arr.length)
    (m : Nat) : ∀ y, m ≤ y → y ≤ arr.length →
    ∃ y', y' ≤ y ∧ y ≤ y' + m ∧ (downMore pivot want k m y).eval arr = (k y').eval arr ∧
      (∀ i, y' ≤ i → i < y → decide (W arr pivot < W arr i) = want) ∧
      (y < y' + m → decide (W arr pivot < W arr (y' - 1)) ≠ want) := by
  induction m with
  | zero => intro y _ _; exact ⟨y, Nat.le_refl _, Nat.le_refl _, rfl, fun i h1 h2 => by omega, fun h => by omega⟩
  | succ m ih =>
    intro y hm hy
    unfold downMore
    rw [eval_less _ hp (by omega)]
    by_cases h : decide (W arr pivot < W arr (y - 1)) = want
    · rw [if_pos h]
      obtain ⟨y', h1, h2, h3, h4, h5⟩ := ih (y - 1) (by omega) (by omega)
      refine ⟨y', by omega, by omega, h3, fun i i1 i2 => ?_, fun h => h5 (by omega)⟩
      by_cases hi : i = y - 1
      · rw [hi]; exact h
      · exact h4 i i1 (by omega)
    · rw [if_neg h]
      exact ⟨y, Nat.le_refl _, by omega, rfl, fun i h1 h2 => by omega, fun _ => h⟩

end J8a.SortRace

import Verif.Lemmas.SortPivot
/-!
# `heapSort` and `quickSort` of package sort sort
-/
namespace J8a.SortRace

/-- From position `r` on no child is greater than its parent. -/
def Heap (hi first r : Nat) (arr : Policy) : Prop :=
  ∀ i c, r ≤ i → c = 2 * i + 1 ∨ c = 2 * i + 2 → c < hi → W arr (first + c) ≤ W arr (first + i)

theorem siftDown_eval (hi first r : Nat) (k : Prog) (f : Nat) : ∀ (arr : Policy) (root : Nat),
    first + hi ≤ arr.length → r ≤ root → hi ≤ root + f →
    (∀ i c, r ≤ i → i ≠ root → c = 2 * i + 1 ∨ c = 2 * i + 2 → c < hi → W arr (first + c) ≤ W arr (first + i)) →
    (∀ p, r ≤ p → root = 2 * p + 1 ∨ root = 2 * p + 2 → ∀ c, c = 2 * root + 1 ∨ c = 2 * root + 2 → c < hi →
      W arr (first + c) ≤ W arr (first + p)) →
    ∃ arr', (siftDown hi first k f root).eval arr = k.eval arr' ∧ Rearr first (first + hi) arr arr' ∧
      Heap hi first r arr' := by
  induction f with
  | zero =>
    intro arr root h1 h2 h3 h4 h5
    refine ⟨arr, by simp only [siftDown], .refl _ _ _, fun i c i1 i2 i3 => h4 i c i1 (by omega) i2 i3⟩
  | succ f ih =>
    intro arr root h1 h2 h3 h4 h5
    unfold siftDown
    simp only
    by_cases hc : 2 * root + 1 ≥ hi
    · rw [if_pos hc]
      exact ⟨arr, rfl, .refl _ _ _, fun i c i1 i2 i3 => h4 i c i1 (by omega) i2 i3⟩
    · rw [if_neg hc]
      have go : ∀ child, child = 2 * root + 1 ∨ child = 2 * root + 2 → child < hi →
          (∀ c, c = 2 * root + 1 ∨ c = 2 * root + 2 → c < hi → W arr (first + c) ≤ W arr (first + child)) →
          ∃ arr', (Prog.less (first + root) (first + child) fun r =>
            if r then .swap (first + root) (first + child) (siftDown hi first k f child) else k).eval arr
              = k.eval arr' ∧ Rearr first (first + hi) arr arr' ∧ Heap hi first r arr' := by
        intro child g1 g2 g3
        rw [eval_less _ (by omega) (by omega)]
        by_cases hl : W arr (first + root) < W arr (first + child)
        · rw [decide_eq_true hl]
          simp only [if_true]
          have hx : first + root < arr.length := by omega
          have hy : first + child < arr.length := by omega
          rw [eval_swap _ hx hy]
          have hW : ∀ i, W (swapped arr (first + root) (first + child) hx hy) (first + i)
              = if i = child then W arr (first + root) else if i = root then W arr (first + child)
                else W arr (first + i) := by
            intro i
            rw [W_swapped]
            simp only [Nat.add_left_cancel_iff]
          obtain ⟨arr', e1, e2, e3⟩ := ih (swapped arr (first + root) (first + child) hx hy) child
            (by rw [swapped_len]; exact h1) (by omega) (by omega) (by
              intro i c i1 i2 i3 i4
              rw [hW, hW, if_neg i2]
              by_cases hi : i = root
              · rw [if_pos hi]
                by_cases hcc : c = child
                · rw [if_pos hcc]; omega
                · rw [if_neg hcc, if_neg (by omega)]
                  exact g3 c (by omega) i4
              · rw [if_neg hi, if_neg (show ¬ c = child by omega)]
                by_cases hcr : c = root
                · rw [if_pos hcr]
                  exact h5 i i1 (by omega) child g1 g2
                · rw [if_neg hcr]; exact h4 i c i1 hi i3 i4) (by
              intro p p1 p2 c c1 c2
              have : p = root := by omega
              subst this
              rw [hW, hW, if_neg (by omega), if_neg (by omega), if_neg (by omega), if_pos rfl]
              exact h4 child c (by omega) (by omega) c1 c2)
          exact ⟨arr', e1, (Rearr.swap hx hy (by omega) (by omega) (by omega) (by omega)).trans e2, e3⟩
        · rw [decide_eq_false hl]
          refine ⟨arr, rfl, .refl _ _ _, fun i c i1 i2 i3 => ?_⟩
          by_cases hi : i = root
          · subst hi
            have := g3 c i2 i3
            omega
          · exact h4 i c i1 hi i2 i3
      split
      · rw [eval_less _ (by omega) (by omega)]
        by_cases hl : W arr (first + (2 * root + 1)) < W arr (first + (2 * root + 1) + 1)
        · rw [decide_eq_true hl]
          refine go (2 * root + 1 + 1) (by omega) (by omega) (fun c c1 c2 => ?_)
          rw [Nat.add_assoc first] at hl
          rcases c1 with rfl | rfl
          · omega
          · exact Int.le_refl _
        · rw [decide_eq_false hl]
          refine go (2 * root + 1) (by omega) (by omega) (fun c c1 c2 => ?_)
          have hl' : ¬ W arr (first + (2 * root + 1)) < W arr (first + (2 * root + 2)) := hl
          rcases c1 with rfl | rfl
          · exact Int.le_refl _
          · omega
      · refine go (2 * root + 1) (by omega) (by omega) (fun c c1 c2 => ?_)
        have : c = 2 * root + 1 := by omega
        rw [this]; exact Int.le_refl _

theorem heapify_eval (hi first : Nat) (k : Prog) (m : Nat) : ∀ (arr : Policy), first + hi ≤ arr.length →
    Heap hi first m arr → ∃ arr', (heapify hi first k m).eval arr = k.eval arr' ∧
      Rearr first (first + hi) arr arr' ∧ Heap hi first 0 arr' := by
  induction m with
  | zero => intro arr _ h; exact ⟨arr, rfl, .refl _ _ _, h⟩
  | succ m ih =>
    intro arr h1 h2
    unfold heapify
    obtain ⟨x, e1, e2, e3⟩ := siftDown_eval hi first m (heapify hi first k m) hi arr m h1 (Nat.le_refl _) (by omega)
      (fun i c i1 i2 i3 i4 => h2 i c (by omega) i3 i4) (fun p p1 p2 => by omega)
    obtain ⟨y, f1, f2, f3⟩ := ih x (by rw [e2.len]; exact h1) e3
    exact ⟨y, e1.trans f1, e2.trans f2, f3⟩

theorem Heap.top {hi first : Nat} {arr : Policy} (h : Heap hi first 0 arr) : ∀ i, i < hi →
    W arr (first + i) ≤ W arr first := by
  intro i
  induction i using Nat.strongRecOn with
  | ind i ih =>
    intro hi'
    by_cases h0 : i = 0
    · subst h0; exact Int.le_refl _
    · have a := ih ((i - 1) / 2) (by omega) (by omega)
      have b := h ((i - 1) / 2) i (Nat.zero_le _) (by omega) hi'
      omega

theorem popAll_eval (first hi : Nat) (k : Prog) (m : Nat) : ∀ (arr : Policy), first + hi ≤ arr.length → m ≤ hi →
    Heap m first 0 arr → SortedOn (first + m) (first + hi) arr →
    (∀ i j, first ≤ i → i < first + m → first + m ≤ j → j < first + hi → W arr i ≤ W arr j) →
    ∃ arr', (popAll first k m).eval arr = k.eval arr' ∧ Rearr first (first + hi) arr arr' ∧
      SortedOn first (first + hi) arr' := by
  induction m with
  | zero => intro arr _ _ _ h _; exact ⟨arr, rfl, .refl _ _ _, h⟩
  | succ m ih =>
    intro arr h1 h2 h3 h4 h5
    unfold popAll
    have hx : first < arr.length := by omega
    have hy : first + m < arr.length := by omega
    rw [eval_swap _ hx hy]
    have hW := W_swapped arr first (first + m) hx hy
    have top := h3.top
    obtain ⟨x, e1, e2, e3⟩ := siftDown_eval m first 0 (popAll first k m) m (swapped arr first (first + m) hx hy) 0
      (by rw [swapped_len]; omega) (Nat.le_refl _) (by omega)
      (fun i c i1 i2 i3 i4 => by
        rw [hW, hW, if_neg (by omega), if_neg (by omega), if_neg (by omega), if_neg (by omega)]
        exact h3 i c i1 i3 (by omega)) (fun p p1 p2 => by omega)
    have big : ∀ i, first ≤ i → i < first + m → W (swapped arr first (first + m) hx hy) i ≤ W arr first := by
      intro i i1 i2
      rw [hW, if_neg (by omega)]
      split
      · exact top m (by omega)
      · have := top (i - first) (by omega)
        rwa [show first + (i - first) = i by omega] at this
    have old : ∀ j, first + m + 1 ≤ j → W x j = W arr j := by
      intro j hj
      rw [e2.W_out (Or.inr (by omega)), hW, if_neg (by omega), if_neg (by omega)]
    have atm : W x (first + m) = W arr first := by
      rw [e2.W_out (Or.inr (Nat.le_refl _)), hW, if_pos rfl]
    obtain ⟨y, f1, f2, f3⟩ := ih x (by rw [e2.len, swapped_len]; exact h1) (by omega) e3
      (by
        intro i j i1 i2 i3
        rw [old j (by omega)]
        by_cases hi' : i = first + m
        · rw [hi', atm]; exact h5 first j (Nat.le_refl _) (by omega) (by omega) i3
        · rw [old i (by omega)]; exact h4 i j (by omega) i2 i3)
      (by
        intro i j i1 i2 j1 j2
        have a := e2.all (P := fun w => w ≤ W arr first) big i i1 i2
        by_cases hj : j = first + m
        · rw [hj, atm]; exact a
        · rw [old j (by omega)]
          have := h5 first j (Nat.le_refl _) (by omega) (by omega) j2
          omega)
    refine ⟨y, e1.trans f1, ((Rearr.swap hx hy (Nat.le_refl _) ?_ ?_ ?_).trans ((e2.mono (Nat.le_refl _) ?_))).trans f2, f3⟩
    all_goals omega

theorem heapSort_eval (a b : Nat) (k : Prog) (arr : Policy) (hab : a < b) (hb : b ≤ arr.length) :
    ∃ arr', (heapSort a b k).eval arr = k.eval arr' ∧ Rearr a b arr arr' ∧ SortedOn a b arr' := by
  unfold heapSort
  have e : a + (b - a) = b := by omega
  obtain ⟨x, e1, e2, e3⟩ := heapify_eval (b - a) a (popAll a k (b - a)) ((b - a - 1) / 2 + 1) arr (by omega)
    (fun i c i1 i2 i3 => by omega)
  obtain ⟨y, f1, f2, f3⟩ := popAll_eval a (b - a) k (b - a) x (by rw [e2.len]; omega) (Nat.le_refl _) e3
    (fun i j i1 i2 i3 => by omega) (fun i j i1 i2 i3 => by omega)
  rw [e] at e2 f2 f3
  exact ⟨y, e1.trans f1, e2.trans f2, f3⟩

/-- Three parts, the middle one constant, put together. -/
theorem sorted_parts {a mlo mhi b : Nat} {arr : Policy} {P : Int} (h1 : SortedOn a mlo arr)
    (h2 : SortedOn mhi b arr) (l : ∀ i, a ≤ i → i < mlo → W arr i ≤ P)
    (e : ∀ i, mlo ≤ i → i < mhi → W arr i = P) (g : ∀ i, mhi ≤ i → i < b → P ≤ W arr i) : SortedOn a b arr := by
  intro i j i1 i2 i3
  by_cases hi : i < mlo
  · by_cases hj : j < mlo
    · exact h1 i j i1 i2 hj
    · have x := l i i1 hi
      by_cases hj' : j < mhi
      · have := e j (by omega) hj'; omega
      · have := g j (by omega) i3; omega
  · by_cases hi' : i < mhi
    · have x := e i (by omega) hi'
      by_cases hj' : j < mhi
      · have := e j (by omega) hj'; omega
      · have := g j (by omega) i3; omega
    · exact h2 i j (by omega) i2 i3

theorem quickSort_eval (d : Nat) : ∀ (a b : Nat) (k : Prog) (arr : Policy), b ≤ arr.length →
    ∃ arr', (quickSort d a b k).eval arr = k.eval arr' ∧ Rearr a b arr arr' ∧ SortedOn a b arr' := by
  induction d with
  | zero =>
    intro a b k arr hb
    unfold quickSort
    split
    · exact heapSort_eval a b k arr (by omega) hb
    · exact smallSort_eval a b k arr hb
  | succ d ih =>
    intro a b k arr hb
    unfold quickSort
    split
    · obtain ⟨x, mlo, mhi, P, e1, e2, l1, l2, l3, p1, p2, p3⟩ := doPivot_eval (lo := a) (hi := b) (k := fun mlo mhi =>
          if mlo - a < b - mhi then quickSort d a mlo (quickSort d mhi b k)
          else quickSort d mhi b (quickSort d a mlo k)) (arr := arr) (by omega) hb
      rw [e1]
      simp only
      split
      · obtain ⟨y, f1, f2, f3⟩ := ih a mlo (quickSort d mhi b k) x (by rw [e2.len]; omega)
        obtain ⟨z, g1, g2, g3⟩ := ih mhi b k y (by rw [f2.len, e2.len]; omega)
        refine ⟨z, f1.trans g1, (e2.trans (f2.mono (Nat.le_refl _) (by omega))).trans (g2.mono (by omega) (Nat.le_refl _)), ?_⟩
        refine sorted_parts (P := P) (mlo := mlo) (mhi := mhi) ?_ g3 ?_ ?_ ?_
        · intro i j i1 i2 i3
          rw [g2.W_out (Or.inl (by omega)), g2.W_out (Or.inl (by omega))]; exact f3 i j i1 i2 i3
        · intro i i1 i2
          rw [g2.W_out (Or.inl (by omega))]
          exact f2.all (P := fun w => w ≤ P) p1 i i1 i2
        · intro i i1 i2
          rw [g2.W_out (Or.inl (by omega)), f2.W_out (Or.inr i1)]; exact p2 i i1 i2
        · refine g2.all (P := fun w => P ≤ w) (fun i i1 i2 => ?_)
          rw [f2.W_out (Or.inr (by omega))]; exact p3 i i1 i2
      · obtain ⟨y, f1, f2, f3⟩ := ih mhi b (quickSort d a mlo k) x (by rw [e2.len]; omega)
        obtain ⟨z, g1, g2, g3⟩ := ih a mlo k y (by rw [f2.len, e2.len]; omega)
        refine ⟨z, f1.trans g1, (e2.trans (f2.mono (by omega) (Nat.le_refl _))).trans (g2.mono (Nat.le_refl _) (by omega)), ?_⟩
        refine sorted_parts (P := P) (mlo := mlo) (mhi := mhi) g3 ?_ ?_ ?_ ?_
        · intro i j i1 i2 i3
          rw [g2.W_out (Or.inr (by omega)), g2.W_out (Or.inr (by omega))]; exact f3 i j i1 i2 i3
        · refine g2.all (P := fun w => w ≤ P) (fun i i1 i2 => ?_)
          rw [f2.W_out (Or.inl (by omega))]; exact p1 i i1 i2
        · intro i i1 i2
          rw [g2.W_out (Or.inr i1), f2.W_out (Or.inl i2)]; exact p2 i i1 i2
        · intro i i1 i2
          rw [g2.W_out (Or.inr (by omega))]
          exact f2.all (P := fun w => P ≤ w) p3 i i1 i2
    · exact smallSort_eval a b k arr hb

/-- `sort.Sort`, undisturbed, does not index out of range and ends with the array in ascending order. -/
theorem sort_eval (arr : Policy) : ∃ arr', (sort arr.length).eval arr = some arr' ∧ arr'.Perm arr ∧
    SortedOn 0 arr.length arr' := by
  obtain ⟨x, e1, e2, e3⟩ := quickSort_eval (maxDepth arr.length) 0 arr.length .done arr (Nat.le_refl _)
  exact ⟨x, e1, e2.perm, e3⟩

/-! ## One goroutine of the machine, run alone -/

/-- `k` steps of one goroutine. -/
def alone : Nat → Policy × PC → Policy × PC
  | 0, s => s
  | k + 1, s => alone k (stepPC s.1 s.2)

theorem alone_eval (p : Prog) : ∀ (arr arr' : Policy), p.eval arr = some arr' →
    ∃ k, alone k (arr, .at p) = (arr', .at .done) := by
  induction p with
  | done =>
    intro arr arr' h
    simp only [Prog.eval, Option.some.injEq] at h
    subst h
    exact ⟨0, rfl⟩
  | less x y k ih =>
    intro arr arr' h
    unfold Prog.eval at h
    cases hl : lessAt arr x y with
    | none => rw [hl] at h; cases h
    | some r =>
      rw [hl] at h
      obtain ⟨n, hn⟩ := ih r arr arr' h
      refine ⟨n + 1, ?_⟩
      unfold alone
      simp only [stepPC, hl]
      exact hn
  | swap x y k ih =>
    intro arr arr' h
    unfold Prog.eval at h
    split at h
    case isTrue hxy =>
      obtain ⟨n, hn⟩ := ih _ arr' h
      refine ⟨n + 4, ?_⟩
      simp only [alone, stepPC, List.getElem?_eq_getElem hxy.1, List.getElem?_eq_getElem hxy.2]
      exact hn
    case isFalse => cases h

theorem SortedOn.pairwise {arr : Policy} (h : SortedOn 0 arr.length arr) :
    arr.Pairwise (fun a b => Policy.less b a = false) := by
  rw [List.pairwise_iff_getElem]
  intro i j hi hj hij
  have := h i j (Nat.zero_le _) hij hj
  simp only [W, hi, hj, List.getElem?_eq_getElem, Option.map_some, Option.getD_some] at this
  simp only [Policy.less, decide_eq_false_iff_not]
  omega

end J8a.SortRace

import Verif.Spec.Regexp
import Verif.Spec.Route
/-! # Regular expressions: the matcher finds what the expression means -/
namespace J8a
open Go

theorem steps_mono {R S : Nat → Nat → Prop} (h : ∀ i j, R i j → S i j) : ∀ n i j, Steps R n i j → Steps S n i j := by
  intro n
  induction n with
  | zero => intro i j h; exact h
  | succ n ih => rintro i j ⟨k, h1, h2⟩; exact ⟨k, h _ _ h1, ih _ _ h2⟩

theorem steps_add {R : Nat → Nat → Prop} : ∀ m n i j, Steps R (m + n) i j ↔ ∃ k, Steps R m i k ∧ Steps R n k j := by
  intro m
  induction m with
  | zero => intro n i j; simp [Steps]
  | succ m ih =>
    intro n i j
    rw [show m + 1 + n = (m + n) + 1 by omega]
    simp only [Steps, ih]
    constructor
    · rintro ⟨k, h1, l, h2, h3⟩; exact ⟨l, ⟨k, h1, h2⟩, h3⟩
    · rintro ⟨l, ⟨k, h1, h2⟩, h3⟩; exact ⟨k, h1, l, h2, h3⟩

theorem mem_powEnds {f : Nat → List Nat} : ∀ n i j, j ∈ powEnds f n i ↔ Steps (fun i j => j ∈ f i) n i j := by
  intro n
  induction n with
  | zero => intro i j; simp [powEnds, Steps, eq_comm]
  | succ n ih => intro i j; simp only [powEnds, List.mem_flatMap, Steps, ih]

theorem mem_upToEnds {f : Nat → List Nat} : ∀ n i j, j ∈ upToEnds f n i ↔
    ∃ m ≤ n, Steps (fun i j => j ∈ f i) m i j := by
  intro n
  induction n with
  | zero => intro i j; simp [upToEnds, Steps, eq_comm]
  | succ n ih =>
    intro i j
    simp only [upToEnds, List.mem_cons, List.mem_flatMap, ih]
    constructor
    · rintro (rfl | ⟨k, h1, m, hm, h2⟩)
      · exact ⟨0, by omega, rfl⟩
      · exact ⟨m + 1, by omega, k, h1, h2⟩
    · rintro ⟨m, hm, h⟩
      cases m with
      | zero => exact .inl h.symm
      | succ m => obtain ⟨k, h1, h2⟩ := h; exact .inr ⟨k, h1, m, by omega, h2⟩

/-- Steps go forward, and do not leave the text. -/
def Forward (len : Nat) (f : Nat → List Nat) : Prop := ∀ i j, j ∈ f i → i ≤ j ∧ (i ≤ len → j ≤ len)

theorem Forward.steps {len : Nat} {f : Nat → List Nat} (hf : Forward len f) : ∀ n i j,
    Steps (fun i j => j ∈ f i) n i j → i ≤ j ∧ (i ≤ len → j ≤ len) := by
  intro n
  induction n with
  | zero => intro i j h; cases h; exact ⟨Nat.le_refl _, id⟩
  | succ n ih =>
    rintro i j ⟨k, h1, h2⟩
    have := hf i k h1
    have := ih k j h2
    omega

theorem starEnds_steps {f : Nat → List Nat} {j : Nat} : ∀ k i, j ∈ starEnds f k i →
    ∃ n, Steps (fun i j => j ∈ f i) n i j := by
  intro k
  induction k with
  | zero => intro i h; simp [starEnds] at h; exact ⟨0, h.symm⟩
  | succ k ih =>
    intro i h
    simp only [starEnds, List.mem_cons, List.mem_flatMap, List.mem_filter] at h
    rcases h with rfl | ⟨l, ⟨h1, -⟩, h2⟩
    · exact ⟨0, rfl⟩
    · obtain ⟨n, hn⟩ := ih l h2
      exact ⟨n + 1, l, h1, hn⟩

theorem mem_starEnds {len : Nat} {f : Nat → List Nat} (hf : Forward len f) (i j : Nat) (hi : i ≤ len) :
    j ∈ starEnds f len i ↔ ∃ n, Steps (fun i j => j ∈ f i) n i j := by
  refine ⟨starEnds_steps _ _, ?_⟩
  rintro ⟨n, h⟩
  suffices h' : ∀ n k i, i ≤ len → len - i ≤ k → Steps (fun i j => j ∈ f i) n i j → j ∈ starEnds f k i from
    h' n len i hi (by omega) h
  intro n
  induction n with
  | zero => intro k i _ _ h; cases h; cases k <;> simp [starEnds]
  | succ n ih =>
    rintro k i hi hk ⟨l, h1, h2⟩
    have hl := hf i l h1
    by_cases hil : l = i
    · subst hil; exact ih k l hi hk h2
    · cases k with
      | zero => omega
      | succ k =>
        simp only [starEnds, List.mem_cons, List.mem_flatMap, List.mem_filter, decide_eq_true_eq]
        exact .inr ⟨l, ⟨h1, by omega⟩, ih k l (by omega) (by omega) h2⟩

/-- Inside the text the two kinds of steps are the same. -/
theorem steps_congr {len : Nat} {f : Nat → List Nat} {R : Nat → Nat → Prop} (hf : Forward len f)
    (hR : ∀ i j, i ≤ len → (j ∈ f i ↔ R i j)) : ∀ n i j, i ≤ len →
      (Steps (fun i j => j ∈ f i) n i j ↔ Steps R n i j) := by
  intro n
  induction n with
  | zero => intro i j _; exact Iff.rfl
  | succ n ih =>
    intro i j hi
    simp only [Steps]
    constructor
    · rintro ⟨k, h1, h2⟩
      exact ⟨k, (hR i k hi).1 h1, (ih k j ((hf i k h1).2 hi)).1 h2⟩
    · rintro ⟨k, h1, h2⟩
      have h1' := (hR i k hi).2 h1
      exact ⟨k, h1', (ih k j ((hf i k h1').2 hi)).2 h2⟩

theorem inClass_iff (neg : Bool) (ranges : List (Char × Char)) (c : Char) : inClass neg ranges c = true ↔
    (neg = false ∧ (∃ p ∈ ranges, p.1 ≤ c ∧ c ≤ p.2) ∨ neg = true ∧ ∀ p ∈ ranges, ¬ (p.1 ≤ c ∧ c ≤ p.2)) := by
  unfold inClass
  cases neg
  · simp
  · simp

theorem isWordAt_iff (w : Str) (i : Nat) : isWordAt w i = true ↔ WordAt w i := by
  unfold isWordAt WordAt
  cases w[i]? with
  | none => simp
  | some c =>
    simp only [inClass, wordRanges, List.any_cons, List.any_nil, Bool.or_false, bne_iff_ne, ne_eq,
      Bool.not_eq_false, Bool.or_eq_true, Bool.and_eq_true, decide_eq_true_eq, Option.some.injEq, exists_eq_left']
    have : ('_' ≤ c ∧ c ≤ '_') ↔ c = '_' :=
      ⟨fun h => Char.le_antisymm h.2 h.1, fun h => h ▸ ⟨Char.le_refl _, Char.le_refl _⟩⟩
    rw [this]

theorem boundary_iff (w : Str) (i : Nat) : boundary w i = true ↔ EdgeAt w i := by
  unfold boundary EdgeAt
  rw [bne_iff_ne, ne_eq, ← isWordAt_iff w i, ← Bool.coe_iff_coe]
  have : ((if i = 0 then false else isWordAt w (i - 1)) = true) ↔ ∃ k, i = k + 1 ∧ WordAt w k := by
    cases i with
    | zero => simp
    | succ k => simp [isWordAt_iff]
  rw [this]

/-- The matcher and the meaning agree. -/
theorem mem_ends (w : Str) (r : Re) : Forward w.length (r.ends w) ∧
    ∀ i j, i ≤ w.length → (j ∈ r.ends w i ↔ Re.Matches w r i j) := by
  induction r with
  | eps => exact ⟨by intro i j h; simp [Re.ends] at h; omega, by intro i j _; simp [Re.ends, Re.Matches, eq_comm]⟩
  | cls neg ranges =>
    constructor
    · intro i j h
      simp only [Re.ends] at h
      split at h
      · rename_i c hc
        split at h
        · simp at h
          have := (List.getElem?_eq_some_iff.mp hc).1
          omega
        · simp at h
      · simp at h
    · intro i j _
      simp only [Re.ends, Re.Matches]
      cases hc : w[i]? with
      | none => simp
      | some c =>
        simp only [Option.some.injEq]
        by_cases hcl : inClass neg ranges c = true
        · rw [if_pos hcl, List.mem_singleton]
          exact ⟨fun h => ⟨h, c, rfl, (inClass_iff ..).1 hcl⟩, fun h => h.1⟩
        · rw [if_neg hcl]
          refine ⟨fun h => (List.not_mem_nil h).elim, ?_⟩
          rintro ⟨-, c', rfl, h⟩
          exact absurd ((inClass_iff ..).2 h) hcl
  | bol => exact ⟨by intro i j h; simp [Re.ends] at h; omega,
      by intro i j _; simp [Re.ends, Re.Matches]; omega⟩
  | eol =>
    refine ⟨?_, ?_⟩
    · intro i j h; simp [Re.ends] at h; omega
    · intro i j _; simp [Re.ends, Re.Matches]; omega
  | wb neg =>
    refine ⟨?_, ?_⟩
    · intro i j h
      simp only [Re.ends] at h
      split at h <;> simp at h
      omega
    · intro i j _
      simp only [Re.ends, Re.Matches, ← boundary_iff]
      cases boundary w i <;> cases neg <;> simp [eq_comm]
  | cat a b iha ihb =>
    refine ⟨?_, ?_⟩
    · intro i j h
      simp only [Re.ends, List.mem_flatMap] at h
      obtain ⟨k, h1, h2⟩ := h
      have := iha.1 i k h1
      have := ihb.1 k j h2
      omega
    · intro i j hi
      simp only [Re.ends, List.mem_flatMap, Re.Matches]
      constructor
      · rintro ⟨k, h1, h2⟩
        exact ⟨k, (iha.2 i k hi).1 h1, (ihb.2 k j ((iha.1 i k h1).2 hi)).1 h2⟩
      · rintro ⟨k, h1, h2⟩
        have h1' := (iha.2 i k hi).2 h1
        exact ⟨k, h1', (ihb.2 k j ((iha.1 i k h1').2 hi)).2 h2⟩
  | alt a b iha ihb =>
    refine ⟨?_, ?_⟩
    · intro i j h
      simp only [Re.ends, List.mem_append] at h
      rcases h with h | h
      · exact iha.1 i j h
      · exact ihb.1 i j h
    · intro i j hi
      simp only [Re.ends, List.mem_append, Re.Matches, iha.2 i j hi, ihb.2 i j hi]
  | star a ih =>
    obtain ⟨hf, hR⟩ := ih
    refine ⟨?_, ?_⟩
    · intro i j h
      obtain ⟨n, h⟩ := starEnds_steps _ _ h
      exact hf.steps n i j h
    · intro i j hi
      simp only [Re.ends, Re.Matches, mem_starEnds hf i j hi, steps_congr hf hR _ i j hi]
  | plus a ih =>
    obtain ⟨hf, hR⟩ := ih
    refine ⟨?_, ?_⟩
    · intro i j h
      simp only [Re.ends, List.mem_flatMap] at h
      obtain ⟨k, h1, h⟩ := h
      obtain ⟨n, h⟩ := starEnds_steps _ _ h
      have := hf i k h1
      have := hf.steps n k j h
      omega
    · intro i j hi
      simp only [Re.ends, Re.Matches, List.mem_flatMap]
      constructor
      · rintro ⟨k, h1, h⟩
        have hk := (hf i k h1).2 hi
        rw [mem_starEnds hf k j hk] at h
        obtain ⟨n, h⟩ := h
        exact ⟨n + 1, by omega, (steps_congr hf hR _ i j hi).1 ⟨k, h1, h⟩⟩
      · rintro ⟨n, hn, h⟩
        obtain ⟨n, rfl⟩ : ∃ m, n = m + 1 := ⟨n - 1, by omega⟩
        rw [← steps_congr hf hR _ i j hi] at h
        obtain ⟨k, h1, h⟩ := h
        exact ⟨k, h1, (mem_starEnds hf k j ((hf i k h1).2 hi)).2 ⟨n, h⟩⟩
  | quest a ih =>
    obtain ⟨hf, hR⟩ := ih
    refine ⟨?_, ?_⟩
    · intro i j h
      simp only [Re.ends, List.mem_cons] at h
      rcases h with rfl | h
      · exact ⟨Nat.le_refl _, id⟩
      · exact hf i j h
    · intro i j hi
      simp only [Re.ends, Re.Matches, List.mem_cons, hR i j hi, eq_comm (a := i)]
  | rep a min max ih =>
    obtain ⟨hf, hR⟩ := ih
    have hrest : ∀ k j, (j ∈ moreEnds (a.ends w) w.length min max k →
          ∃ n, (∀ m, max = some m → min + n ≤ m) ∧ Steps (fun i j => j ∈ a.ends w i) n k j) ∧
        (k ≤ w.length → (∃ n, (∀ m, max = some m → min + n ≤ m) ∧
            Steps (fun i j => j ∈ a.ends w i) n k j) → j ∈ moreEnds (a.ends w) w.length min max k) := by
      intro k j
      cases max with
      | none =>
        simp only [moreEnds]
        refine ⟨fun h => ?_, fun hk h => ?_⟩
        · obtain ⟨n, h⟩ := starEnds_steps _ _ h
          exact ⟨n, by simp, h⟩
        · obtain ⟨n, -, h⟩ := h
          exact (mem_starEnds hf k j hk).2 ⟨n, h⟩
      | some m =>
        simp only [moreEnds, Option.some.injEq]
        refine ⟨fun h => ?_, fun hk h => ?_⟩
        · split at h
          · cases h
          · obtain ⟨n, hn, h⟩ := (mem_upToEnds _ _ _).1 h
            exact ⟨n, by rintro _ rfl; omega, h⟩
        · obtain ⟨n, hn, h⟩ := h
          have := hn m rfl
          rw [if_neg (by omega), mem_upToEnds]
          exact ⟨n, by omega, h⟩
    refine ⟨?_, ?_⟩
    · intro i j h
      simp only [Re.ends, List.mem_flatMap] at h
      obtain ⟨k, h1, h2⟩ := h
      obtain ⟨n, -, h⟩ := (hrest k j).1 h2
      have := hf.steps _ i k ((mem_powEnds _ _ _).1 h1)
      have := hf.steps _ k j h
      omega
    · intro i j hi
      simp only [Re.ends, Re.Matches, List.mem_flatMap]
      constructor
      · rintro ⟨k, h1, h2⟩
        obtain ⟨n, hn, h⟩ := (hrest k j).1 h2
        have h1 := (mem_powEnds _ _ _).1 h1
        refine ⟨min + n, by omega, ?_, (steps_congr hf hR _ i j hi).1 ((steps_add _ _ _ _).2 ⟨k, h1, h⟩)⟩
        exact hn
      · rintro ⟨n, hn, hm, h⟩
        rw [← steps_congr hf hR _ i j hi, show n = min + (n - min) by omega, steps_add] at h
        obtain ⟨k, h1, h2⟩ := h
        refine ⟨k, (mem_powEnds _ _ _).2 h1, (hrest k j).2 ((hf.steps _ i k h1).2 hi) ⟨n - min, ?_, h2⟩⟩
        intro m hmm
        have := hm m hmm
        omega

end J8a

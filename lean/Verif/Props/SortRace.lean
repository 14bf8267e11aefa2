import Verif.Model.SortRace
/-!
# C06: concurrent label resolution
-/
namespace J8a.SortRace

/-- A goroutine that has not yet looked at the array, or has finished with it. -/
def Idle (n : Nat) (pc : PC) : Prop := pc = start n ∨ pc = .at .done

/-- No element is less than one before it. -/
def Ascending (arr : Policy) : Prop := arr.Pairwise fun a b => Policy.less b a = false

/-! ## At most twelve labels, in order -/

/-- Only compares an element with one before it, and does not swap as long as the answer is no. -/
def Prog.Calm : Prog → Prop
  | .done => True
  | .less x y k => y ≤ x ∧ (k false).Calm
  | .swap _ _ _ => False

theorem insertInner_calm {a : Nat} {k : Prog} (hk : k.Calm) (m : Nat) : (insertInner a k m).Calm := by
  cases m with
  | zero => exact hk
  | succ m => exact ⟨by omega, hk⟩

theorem insertOuter_calm {a b : Nat} {k : Prog} (hk : k.Calm) (m : Nat) : (insertOuter a b k m).Calm := by
  induction m with
  | zero => exact hk
  | succ m ih => exact insertInner_calm ih _

theorem shellPass_calm {b : Nat} {k : Prog} (hk : k.Calm) (m : Nat) : (shellPass b k m).Calm := by
  induction m with
  | zero => exact hk
  | succ m ih => exact ⟨by omega, ih⟩

theorem sort_calm {n : Nat} (hn : n ≤ 12) : (sort n).Calm := by
  have : sort n = smallSort 0 n .done := by
    unfold sort
    cases maxDepth n <;> simp only [quickSort, if_neg (show ¬ (n - 0 > 12) by omega)]
  rw [this]
  unfold smallSort
  split
  · exact shellPass_calm (insertOuter_calm (k := .done) trivial _) _
  · trivial

theorem Ascending.less {arr : Policy} (h : Ascending arr) {x y : Nat} (hyx : y ≤ x) : lessAt arr x y ≠ some true := by
  unfold lessAt
  cases hx : arr[x]? with
  | none => simp
  | some a =>
    cases hy : arr[y]? with
    | none => simp
    | some b =>
      simp only [ne_eq, Option.some.injEq, Bool.not_eq_true]
      rcases Nat.lt_or_eq_of_le hyx with h' | h'
      · obtain ⟨hxl, rfl⟩ := List.getElem?_eq_some_iff.mp hx
        obtain ⟨hyl, rfl⟩ := List.getElem?_eq_some_iff.mp hy
        exact List.pairwise_iff_getElem.mp h y x hyl hxl h'
      · subst h'
        rw [hx] at hy; injection hy with hy
        subst hy; simp [Policy.less]

/-- Where a goroutine can be while nobody writes. -/
def Resting (pc : PC) : Prop := pc = .panicked ∨ ∃ p, pc = .at p ∧ p.Calm

theorem Resting.step {arr : Policy} (h : Ascending arr) {pc : PC} (hp : Resting pc) :
    (stepPC arr pc).1 = arr ∧ Resting (stepPC arr pc).2 := by
  rcases hp with rfl | ⟨p, rfl, hc⟩
  · exact ⟨rfl, Or.inl rfl⟩
  · cases p with
    | done => exact ⟨rfl, Or.inr ⟨_, rfl, trivial⟩⟩
    | swap x y k => exact hc.elim
    | less x y k =>
      have := h.less hc.1
      cases hl : lessAt arr x y with
      | none => simp only [stepPC, hl]; exact ⟨trivial, Or.inl rfl⟩
      | some r =>
        cases r with
        | true => exact absurd hl this
        | false => simp only [stepPC, hl]; exact ⟨trivial, Or.inr ⟨_, rfl, hc.2⟩⟩

/-- C06 in the case that holds: once a policy of at most 12 labels is in ascending order of weight (as after one
undisturbed `resolveLabel`, see `C06_sequential` in `Props/SortSeq.lean`), no number of concurrent requests
under any schedule ever writes to it. Full statement: the same from any array of any length; missing: first
resolutions racing on an unsorted array (`C06_violated`) and more than 12 labels (`C06_violated_steady`). -/
theorem C06_partial (s : St) (hn : s.arr.length ≤ 12) (h : Ascending s.arr)
    (hq : ∀ pc ∈ s.procs, Idle s.arr.length pc) (acts : List Act) : (exec s acts).arr = s.arr := by
  have key : ∀ acts s, s.arr.length ≤ 12 → Ascending s.arr → (∀ pc ∈ s.procs, Resting pc) →
      (exec s acts).arr = s.arr := by
    intro acts
    induction acts with
    | nil => intro s _ _ _; rfl
    | cons a acts ih =>
      intro s hn h hq
      have hstep : (step s a).arr = s.arr ∧ ∀ pc ∈ (step s a).procs, Resting pc := by
        cases a with
        | arrive =>
          refine ⟨rfl, fun pc hpc => ?_⟩
          simp only [step, List.mem_append, List.mem_singleton] at hpc
          rcases hpc with hpc | rfl
          · exact hq pc hpc
          · exact Or.inr ⟨_, rfl, sort_calm hn⟩
        | run k =>
          cases hk : s.procs[k]? with
          | none => simp only [step, hk]; exact ⟨trivial, hq⟩
          | some pc =>
            have hpc := (hq pc (List.mem_of_getElem? hk)).step h
            simp only [step, hk]
            refine ⟨hpc.1, fun pc' hpc' => ?_⟩
            rcases List.mem_or_eq_of_mem_set hpc' with h' | h'
            · exact hq pc' h'
            · rw [h']; exact hpc.2
      exact (ih (step s a) (by rw [hstep.1]; exact hn) (by rw [hstep.1]; exact h) hstep.2).trans hstep.1
  refine key acts s hn h fun pc hpc => ?_
  rcases hq pc hpc with rfl | rfl
  · exact Or.inr ⟨_, rfl, sort_calm hn⟩
  · exact Or.inr ⟨_, rfl, trivial⟩

/-! ## What is lost does not come back -/

/-- The entries a goroutine holds satisfy `P`. -/
def PC.Holds (P : LabelWeight → Prop) : PC → Prop
  | .load2 _ _ t _ => P t
  | .store1 _ _ t1 t2 _ => P t1 ∧ P t2
  | .store2 _ t _ => P t
  | _ => True

theorem holds_exec (P : LabelWeight → Prop) (acts : List Act) : ∀ s : St, (∀ a ∈ s.arr, P a) →
    (∀ pc ∈ s.procs, pc.Holds P) → ∀ a ∈ (exec s acts).arr, P a := by
  induction acts with
  | nil => intro s h _; exact h
  | cons a acts ih =>
    intro s h hp
    cases a with
    | arrive =>
      refine ih (step s .arrive) h (fun pc hpc => ?_)
      simp only [step, List.mem_append, List.mem_singleton] at hpc
      rcases hpc with hpc | rfl
      · exact hp pc hpc
      · trivial
    | run k =>
      cases hk : s.procs[k]? with
      | none =>
        have hs : step s (.run k) = s := by simp only [step, hk]
        show ∀ a ∈ (exec (step s (.run k)) acts).arr, P a
        rw [hs]; exact ih s h hp
      | some pc =>
        have hpc := hp pc (List.mem_of_getElem? hk)
        have get : ∀ (i : Nat) (t : LabelWeight), s.arr[i]? = some t → P t := fun i t ht =>
          h t (List.mem_of_getElem? ht)
        have hset : (∀ a ∈ (stepPC s.arr pc).1, P a) ∧ (stepPC s.arr pc).2.Holds P := by
          unfold stepPC
          split
          · exact ⟨h, trivial⟩
          · split <;> exact ⟨h, trivial⟩
          · split
            · exact ⟨h, get _ _ ‹_›⟩
            · exact ⟨h, trivial⟩
          · split
            · exact ⟨h, hpc, get _ _ ‹_›⟩
            · exact ⟨h, trivial⟩
          · refine ⟨fun a ha => ?_, hpc.2⟩
            rcases List.mem_or_eq_of_mem_set ha with h' | h'
            · exact h a h'
            · rw [h']; exact hpc.1
          · refine ⟨fun a ha => ?_, trivial⟩
            rcases List.mem_or_eq_of_mem_set ha with h' | h'
            · exact h a h'
            · rw [h']; exact hpc
          · exact ⟨h, trivial⟩
        have hs : step s (.run k) = ⟨(stepPC s.arr pc).1, s.procs.set k (stepPC s.arr pc).2⟩ := by
          simp only [step, hk]
        refine ih (step s (.run k)) (by rw [hs]; exact hset.1) (fun pc' hpc' => ?_)
        rw [hs] at hpc'
        rcases List.mem_or_eq_of_mem_set hpc' with h' | h'
        · exact hp pc' h'
        · rw [h']; exact hset.2

/-- The goroutine has finished. -/
def PC.finished : PC → Bool
  | .at .done => true
  | _ => false

theorem PC.finished.holds {pc : PC} (h : pc.finished = true) (l : Str) : pc.Holds (fun a => a.label ≠ l) := by
  unfold PC.finished at h
  split at h
  · trivial
  · cases h

/-! ## Two labels, first use -/

/-- Two labels, not in ascending order of weight: blue 0.75, green 0.25. -/
def bg : Policy := [⟨"blue".toList, 3 * 2 ^ 1072⟩, ⟨"green".toList, 2 ^ 1072⟩]

/-- Two requests; the second one loads while the first one is between its two stores. -/
def badSchedule : List Act :=
  [.arrive, .arrive,
   .run 0, .run 1,                   -- both find Less(1,0)
   .run 0, .run 0, .run 0,           -- first: two loads, first store
   .run 1, .run 1,                   -- second: two loads (sees blue twice)
   .run 0,                           -- first: second store
   .run 1, .run 1]                   -- second: both stores

/-- C06 fails: on an unsorted two label policy two overlapping requests leave the array holding
`blue` twice and `green` not at all, although both requests have finished. -/
theorem C06_violated :
    (exec ⟨bg, []⟩ badSchedule).arr.map LabelWeight.label = ["blue".toList, "blue".toList] ∧
    (exec ⟨bg, []⟩ badSchedule).procs.map PC.finished = [true, true] ∧
    ¬ (exec ⟨bg, []⟩ badSchedule).arr.Perm bg := by
  have h1 : (exec ⟨bg, []⟩ badSchedule).arr.map LabelWeight.label = ["blue".toList, "blue".toList] := by
    decide +kernel
  refine ⟨h1, by decide +kernel, ?_⟩
  intro hp
  have := hp.map LabelWeight.label
  rw [h1] at this
  have hm : "green".toList ∈ ["blue".toList, "blue".toList] :=
    this.mem_iff.mpr (by decide +kernel)
  revert hm; decide

theorem finished_of_map {s : St} {l : Str} (h : s.procs.map PC.finished = List.replicate s.procs.length true) :
    ∀ pc ∈ s.procs, pc.Holds (fun a => a.label ≠ l) := by
  intro pc hpc
  have : pc.finished ∈ s.procs.map PC.finished := List.mem_map_of_mem hpc
  rw [h] at this
  exact PC.finished.holds (List.eq_of_mem_replicate this) l

/-- …and the loss is permanent: whatever happens afterwards, `green` never comes back. -/
theorem C06_violated_forever (acts : List Act) :
    "green".toList ∉ (exec (exec ⟨bg, []⟩ badSchedule) acts).arr.map LabelWeight.label := by
  intro hm
  obtain ⟨a, ha, hl⟩ := List.mem_map.mp hm
  refine holds_exec (fun a => a.label ≠ "green".toList) acts _ (fun b hb hbl => ?_) (finished_of_map (by decide +kernel)) a ha hl
  have : "green".toList ∈ (exec ⟨bg, []⟩ badSchedule).arr.map LabelWeight.label := List.mem_map.mpr ⟨b, hb, hbl⟩
  rw [C06_violated.1] at this
  revert this; decide

/-! ## Thirteen labels, in steady state -/

/-- Thirteen labels in ascending order of weight: 1/128 up to 12/128, and 50/128. -/
def many : Policy := (List.range 13).map fun i =>
  ⟨[Char.ofNat (97 + i)], (if i = 12 then 50 else (i : Int) + 1) * 2 ^ 1067⟩

/-- Each undisturbed sort of this array exchanges positions 0 and 6 (median of three), and exchanges them back
(end of `doPivot`). The first request has loaded both for its first exchange when the second one does its first
and half of its second; then the first one writes what it had loaded. -/
def steadySchedule : List Act :=
  [.arrive, .arrive, .run 0, .run 0, .run 0] ++ List.replicate 22 (.run 1) ++ [.run 0, .run 0, .run 1] ++
    List.replicate 80 (.run 0) ++ List.replicate 80 (.run 1)

/-- C06 fails in steady state too: thirteen labels already in order (with weights that sum to 1), two
overlapping requests. Both finish, and the label of the smallest weight is gone, another one is there twice. -/
theorem C06_violated_steady :
    Ascending many ∧ (many.map LabelWeight.weight).sum = 2 ^ 1074 ∧
    (exec ⟨many, []⟩ steadySchedule).procs.map PC.finished = [true, true] ∧
    "a".toList ∈ many.map LabelWeight.label ∧
    ∀ acts, "a".toList ∉ (exec (exec ⟨many, []⟩ steadySchedule) acts).arr.map LabelWeight.label := by
  have h0 : "a".toList ∉ (exec ⟨many, []⟩ steadySchedule).arr.map LabelWeight.label := by decide +kernel
  have h1 : (exec ⟨many, []⟩ steadySchedule).procs.map PC.finished = [true, true] := by decide +kernel
  have h2 : (exec ⟨many, []⟩ steadySchedule).procs.length = 2 := by
    have := congrArg List.length h1
    simpa using this
  refine ⟨by unfold Ascending; decide +kernel, by decide +kernel, h1, by decide +kernel, fun acts hm => ?_⟩
  obtain ⟨a, ha, hl⟩ := List.mem_map.mp hm
  refine holds_exec (fun a => a.label ≠ "a".toList) acts _ (fun b hb hbl => h0 (List.mem_map.mpr ⟨b, hb, hbl⟩))
    (finished_of_map (by rw [h2]; exact h1)) a ha hl

/-- Ascending states with several requests about to resolve exist. -/
example : Ascending bg.reverse ∧ ∀ pc ∈ [start 2, start 2, .at .done], Idle 2 pc := by
  constructor
  · unfold Ascending; decide +kernel
  · intro pc hpc
    simp only [List.mem_cons, List.not_mem_nil, or_false] at hpc
    rcases hpc with rfl | rfl | rfl
    · exact Or.inl rfl
    · exact Or.inl rfl
    · exact Or.inr rfl

end J8a.SortRace

import Verif.Lemmas.SortHeap
import Verif.Lemmas.SortWithin
import Verif.Props.SortRace
/-!
# C06: what the sort does undisturbed; C83, C84: what races leave intact
-/
namespace J8a.SortRace

/-- One goroutine running undisturbed finishes, and leaves a sorted permutation: what
`Policy.SortedFrom` assumes about `sort.Sort` is what the algorithm of package sort does, for any number of
labels. -/
theorem C06_sequential (arr : Policy) :
    ∃ k arr', alone k (arr, start arr.length) = (arr', .at .done) ∧ Policy.SortedFrom arr' arr := by
  obtain ⟨arr', h1, h2, h3⟩ := sort_eval arr
  obtain ⟨k, hk⟩ := alone_eval _ arr arr' h1
  exact ⟨k, arr', hk, h2, SortedOn.pairwise (by rw [h2.length_eq]; exact h3)⟩

/-- The concurrent system running only goroutine `i` is that sequential run. -/
theorem exec_alone (k : Nat) (arr : Policy) (done : List PC) (pc : PC) :
    exec ⟨arr, done ++ [pc]⟩ (List.replicate k (.run done.length))
      = ⟨(alone k (arr, pc)).1, done ++ [(alone k (arr, pc)).2]⟩ := by
  induction k generalizing arr pc with
  | zero => rfl
  | succ k ih =>
    rw [List.replicate_succ]
    show exec (step ⟨arr, done ++ [pc]⟩ (.run done.length)) _ = _
    have : step ⟨arr, done ++ [pc]⟩ (.run done.length) = ⟨(stepPC arr pc).1, done ++ [(stepPC arr pc).2]⟩ := by
      simp [step]
    rw [this, ih]; rfl

theorem exec_append (s : St) (a b : List Act) : exec s (a ++ b) = exec (exec s a) b := by
  unfold exec; rw [List.foldl_append]

/-- The `i`-th request arrives, and resolves its label before anything else happens. -/
def turn (i k : Nat) : List Act := .arrive :: List.replicate k (.run i)

theorem exec_turn (arr : Policy) (done : List PC) (k : Nat) :
    exec ⟨arr, done⟩ (turn done.length k)
      = ⟨(alone k (arr, start arr.length)).1, done ++ [(alone k (arr, start arr.length)).2]⟩ := by
  show exec (step ⟨arr, done⟩ .arrive) _ = _
  exact exec_alone k arr done _

/-- C06 after a warm-up, for at most 12 labels: if the first request ever to use the policy resolves its label
before any other one starts, the policy keeps its labels and weights (and their order) under every later
schedule of any number of requests. -/
theorem C06_warm_partial (arr : Policy) (hn : arr.length ≤ 12) :
    ∃ k, ∀ acts, (exec ⟨arr, []⟩ (turn 0 k ++ acts)).arr.Perm arr ∧
      (exec ⟨arr, []⟩ (turn 0 k ++ acts)).arr = (exec ⟨arr, []⟩ (turn 0 k)).arr := by
  obtain ⟨k, arr', hk, hs⟩ := C06_sequential arr
  refine ⟨k, fun acts => ?_⟩
  have h1 : exec ⟨arr, []⟩ (turn 0 k) = ⟨arr', [.at .done]⟩ := by
    have := exec_turn arr [] k
    rw [hk] at this
    exact this
  have := C06_partial ⟨arr', [.at .done]⟩ (by rw [hs.perm.length_eq]; exact hn) hs.sorted
    (fun pc hpc => Or.inr (by simpa using hpc)) acts
  rw [exec_append, h1, this]
  exact ⟨hs.perm, rfl⟩

/-- The warm-up of the policy that `C06_violated` loses ends with both labels. -/
example : (alone 5 (bg, start 2)).1.map LabelWeight.label = ["green".toList, "blue".toList] ∧
    (alone 5 (bg, start 2)).2.finished = true := by decide +kernel

/-- Thirteen labels in descending order are sorted too. -/
example : (alone 300 (many.reverse, start 13)).1 = many ∧
    (alone 300 (many.reverse, start 13)).2.finished = true := by decide +kernel

/-! ## C83 -/

/-- Steps a call needs at most. -/
def Prog.cost : Prog → Nat
  | .done => 0
  | .less _ _ k => 1 + max (k true).cost (k false).cost
  | .swap _ _ k => 4 + k.cost

/-- Steps a goroutine needs at most. -/
def PC.cost : PC → Nat
  | .at p => p.cost
  | .load2 _ _ _ k => 3 + k.cost
  | .store1 _ _ _ _ k => 2 + k.cost
  | .store2 _ _ k => 1 + k.cost
  | .panicked => 0

/-- Will not index out of range. -/
def PC.Within (n : Nat) : PC → Prop
  | .at p => p.Within n
  | .load2 x _ _ k => x < n ∧ k.Within n
  | .store1 _ _ _ _ k => k.Within n
  | .store2 _ _ k => k.Within n
  | .panicked => False

theorem within_step {n : Nat} {arr : Policy} (hl : arr.length = n) {pc : PC} (h : pc.Within n) :
    (stepPC arr pc).1.length = n ∧ (stepPC arr pc).2.Within n ∧ (stepPC arr pc).2.cost ≤ pc.cost - 1 := by
  cases pc with
  | «at» p =>
    cases p with
    | done => exact ⟨hl, trivial, Nat.le_refl _⟩
    | less x y k =>
      obtain ⟨h1, h2, h3⟩ := h
      have : lessAt arr x y = some (Policy.less (arr[x]'(by omega)) (arr[y]'(by omega))) := by
        simp [lessAt, hl, h1, h2]
      simp only [stepPC, this]
      refine ⟨hl, h3 _, ?_⟩
      simp only [PC.cost, Prog.cost]
      cases Policy.less (arr[x]'(by omega)) (arr[y]'(by omega)) <;> omega
    | swap x y k =>
      obtain ⟨h1, h2, h3⟩ := h
      have : arr[y]? = some (arr[y]'(by omega)) := List.getElem?_eq_getElem (by omega)
      simp only [stepPC, this]
      exact ⟨hl, ⟨h1, h3⟩, by simp only [PC.cost, Prog.cost]; omega⟩
  | load2 x y t k =>
    have : arr[x]? = some (arr[x]'(by have := h.1; omega)) := List.getElem?_eq_getElem (by have := h.1; omega)
    simp only [stepPC, this]
    exact ⟨hl, h.2, by simp only [PC.cost]; omega⟩
  | store1 x y t1 t2 k => exact ⟨by simp [stepPC, hl], h, by simp only [stepPC, PC.cost]; omega⟩
  | store2 y t2 k => exact ⟨by simp [stepPC, hl], h, by simp only [stepPC, PC.cost]; omega⟩
  | panicked => exact h.elim

theorem within_exec {n : Nat} (acts : List Act) : ∀ s : St, s.arr.length = n → (∀ pc ∈ s.procs, pc.Within n) →
    (exec s acts).arr.length = n ∧ (∀ pc ∈ (exec s acts).procs, pc.Within n) ∧
      ∀ i pc, s.procs[i]? = some pc → ∃ pc', (exec s acts).procs[i]? = some pc' ∧
        pc'.cost ≤ pc.cost - acts.count (.run i) := by
  induction acts with
  | nil => intro s h1 h2; exact ⟨h1, h2, fun i pc h => ⟨pc, h, Nat.le_refl _⟩⟩
  | cons a acts ih =>
    intro s h1 h2
    cases a with
    | arrive =>
      obtain ⟨e1, e2, e3⟩ := ih (step s .arrive) h1 (fun pc hpc => by
        simp only [step, List.mem_append, List.mem_singleton] at hpc
        rcases hpc with hpc | rfl
        · exact h2 pc hpc
        · rw [h1]; exact sort_within n)
      refine ⟨e1, e2, fun i pc hi => ?_⟩
      obtain ⟨pc', f1, f2⟩ := e3 i pc (by
        simp only [step]
        rw [List.getElem?_append_left (List.getElem?_eq_some_iff.mp hi).1]; exact hi)
      refine ⟨pc', f1, ?_⟩
      rw [List.count_cons_of_ne (by simp)]; exact f2
    | run k =>
      cases hk : s.procs[k]? with
      | none =>
        have hs : step s (.run k) = s := by simp only [step, hk]
        obtain ⟨e1, e2, e3⟩ := ih s h1 h2
        show (exec (step s (.run k)) acts).arr.length = n ∧ (∀ pc ∈ (exec (step s (.run k)) acts).procs, _) ∧ _
        rw [hs]
        refine ⟨e1, e2, fun i pc hi => ?_⟩
        obtain ⟨pc', f1, f2⟩ := e3 i pc hi
        refine ⟨pc', by show (exec (step s (.run k)) acts).procs[i]? = _; rw [hs]; exact f1, ?_⟩
        have : k ≠ i := fun e => by rw [e, hi] at hk; cases hk
        rw [List.count_cons_of_ne (by simpa using this)]; exact f2
      | some q =>
        have hq := within_step h1 (h2 q (List.mem_of_getElem? hk))
        have hs : step s (.run k) = ⟨(stepPC s.arr q).1, s.procs.set k (stepPC s.arr q).2⟩ := by
          simp only [step, hk]
        obtain ⟨e1, e2, e3⟩ := ih (step s (.run k)) (by rw [hs]; exact hq.1) (fun pc hpc => by
          rw [hs] at hpc
          rcases List.mem_or_eq_of_mem_set hpc with h' | h'
          · exact h2 pc h'
          · rw [h']; exact hq.2.1)
        refine ⟨e1, e2, fun i pc hi => ?_⟩
        by_cases hki : k = i
        · subst hki
          rw [hk] at hi
          injection hi with hi
          subst hi
          obtain ⟨pc', f1, f2⟩ := e3 k (stepPC s.arr q).2 (by
            rw [hs]; simp [(List.getElem?_eq_some_iff.mp hk).1])
          refine ⟨pc', f1, ?_⟩
          rw [List.count_cons_self]
          have := hq.2.2
          omega
        · obtain ⟨pc', f1, f2⟩ := e3 i pc (by rw [hs]; simp [List.getElem?_set_ne hki, hi])
          refine ⟨pc', f1, ?_⟩
          rw [List.count_cons_of_ne (by simpa using hki)]; exact f2

theorem Prog.cost_pos {n : Nat} {pc : PC} (h : pc.Within n) (hc : pc.cost = 0) : pc = .at .done := by
  cases pc with
  | «at» p =>
    cases p with
    | done => rfl
    | less x y k => simp only [PC.cost, Prog.cost] at hc; omega
    | swap x y k => simp only [PC.cost, Prog.cost] at hc; omega
  | load2 x y t k => simp only [PC.cost] at hc; omega
  | store1 x y t1 t2 k => simp only [PC.cost] at hc; omega
  | store2 y t2 k => simp only [PC.cost] at hc; omega
  | panicked => exact h.elim

/-- C83, no panic: whatever the interleaving of however many resolutions, and although `Less` then gives answers
that fit no order, none of them indexes out of range. -/
theorem C83_in_range (arr : Policy) (acts : List Act) :
    PC.panicked ∉ (exec ⟨arr, []⟩ acts).procs ∧ (exec ⟨arr, []⟩ acts).arr.length = arr.length := by
  obtain ⟨h1, h2, -⟩ := within_exec acts ⟨arr, []⟩ rfl (fun pc hpc => by simp at hpc)
  exact ⟨fun h => h2 _ h, h1⟩

/-- C83, termination: there is a number of steps, depending on the number of labels only, after which a
resolution has finished its sort, whatever the others did before and do in between. -/
theorem C83_terminates (n : Nat) : ∃ N, ∀ (arr : Policy) (before after : List Act), arr.length = n →
    ∀ i, (exec ⟨arr, []⟩ before).procs.length = i → N ≤ after.count (.run i) →
      (exec ⟨arr, []⟩ (before ++ .arrive :: after)).procs[i]? = some (.at .done) := by
  refine ⟨(sort n).cost, fun arr before after hn i hi hN => ?_⟩
  obtain ⟨h1, h2, -⟩ := within_exec before ⟨arr, []⟩ rfl (fun pc hpc => by simp at hpc)
  rw [exec_append]
  generalize exec ⟨arr, []⟩ before = s at *
  simp only at h1 h2
  have hlen : s.arr.length = n := h1.trans hn
  obtain ⟨-, e2, e3⟩ := within_exec after (step s .arrive) hlen (fun pc hpc => by
    simp only [step, List.mem_append, List.mem_singleton] at hpc
    rcases hpc with hpc | rfl
    · have := h2 pc hpc; rwa [hn] at this
    · rw [hlen]; exact sort_within n)
  obtain ⟨pc', f1, f2⟩ := e3 i (start n) (by simp [step, ← hi, hlen])
  have : pc'.cost = 0 := by
    have : (start n).cost = (sort n).cost := rfl
    omega
  rw [Prog.cost_pos (e2 pc' (List.mem_of_getElem? f1)) this] at f1
  exact f1

/-- Three requests on the thirteen labels: the third one arrives in the middle of the race of
`C06_violated_steady`. -/
example : (exec ⟨many, []⟩ (steadySchedule.take 30 ++ .arrive :: List.replicate 100 (.run 2))).procs.map PC.finished
    = [false, false, true] := by decide +kernel

/-! ## C06 when resolutions do not overlap -/

theorem alone_done (k : Nat) (arr : Policy) : alone k (arr, .at .done) = (arr, .at .done) := by
  induction k with
  | zero => rfl
  | succ k ih => exact ih

theorem alone_add (k j : Nat) (s : Policy × PC) : alone (k + j) s = alone j (alone k s) := by
  induction k generalizing s with
  | zero => rw [Nat.zero_add]; rfl
  | succ k ih => rw [Nat.add_right_comm]; exact ih _

theorem alone_within {n : Nat} (k : Nat) : ∀ (arr : Policy) (pc : PC), arr.length = n → pc.Within n →
    (alone k (arr, pc)).2.Within n ∧ (alone k (arr, pc)).2.cost ≤ pc.cost - k := by
  induction k with
  | zero => intro arr pc _ h; exact ⟨h, Nat.le_refl _⟩
  | succ k ih =>
    intro arr pc hl h
    obtain ⟨h1, h2, h3⟩ := within_step hl h
    obtain ⟨e1, e2⟩ := ih _ _ h1 h2
    exact ⟨e1, Nat.le_trans e2 (by omega)⟩

theorem alone_enough {arr : Policy} {k : Nat} (hk : (sort arr.length).cost ≤ k) :
    ∃ arr', alone k (arr, start arr.length) = (arr', .at .done) ∧ Policy.SortedFrom arr' arr := by
  obtain ⟨k0, arr', h1, h2⟩ := C06_sequential arr
  refine ⟨arr', ?_, h2⟩
  obtain ⟨w1, w2⟩ := alone_within k arr (start arr.length) rfl (sort_within _)
  have hd : (alone k (arr, start arr.length)).2 = .at .done :=
    Prog.cost_pos w1 (by have : (start arr.length).cost = (sort arr.length).cost := rfl; omega)
  rcases Nat.le_total k k0 with h | h
  · have := alone_add k (k0 - k) (arr, start arr.length)
    rw [show k + (k0 - k) = k0 by omega, h1] at this
    rw [show alone k (arr, start arr.length) = ((alone k (arr, start arr.length)).1, .at .done) by rw [← hd],
      alone_done] at this
    rw [this, ← hd]
  · have := alone_add k0 (k - k0) (arr, start arr.length)
    rw [show k0 + (k - k0) = k by omega, h1, alone_done] at this
    exact this

/-- C06 when resolutions do not overlap: any number of requests, one after the other, each given the steps it
needs, keep the labels and weights of a policy of any length, and finish their sorts. Full statement: the same
for all schedules; missing: overlapping ones (`C06_violated`, `C06_violated_steady`). -/
theorem C06_serial_partial (n : Nat) : ∃ N, ∀ (arr : Policy) (ks : List Nat), arr.length = n → (∀ k ∈ ks, N ≤ k) →
    (exec ⟨arr, []⟩ (ks.zipIdx.flatMap fun k => turn k.2 k.1)).arr.Perm arr ∧
    (exec ⟨arr, []⟩ (ks.zipIdx.flatMap fun k => turn k.2 k.1)).procs = List.replicate ks.length (.at .done) := by
  refine ⟨(sort n).cost, fun arr ks hn hks => ?_⟩
  have key : ∀ (ks : List Nat) (arr : Policy) (done : List PC), arr.length = n → (∀ k ∈ ks, (sort n).cost ≤ k) →
      (exec ⟨arr, done⟩ ((ks.zipIdx done.length).flatMap fun k => turn k.2 k.1)).arr.Perm arr ∧
      (exec ⟨arr, done⟩ ((ks.zipIdx done.length).flatMap fun k => turn k.2 k.1)).procs
        = done ++ List.replicate ks.length (.at .done) := by
    intro ks
    induction ks with
    | nil => intro arr done _ _; exact ⟨.refl _, by simp [exec]⟩
    | cons k ks ih =>
      intro arr done hn hks
      obtain ⟨arr', h1, h2⟩ := alone_enough (arr := arr) (k := k) (by rw [hn]; exact hks k (by simp))
      have e := ih arr' (done ++ [.at .done]) (h2.perm.length_eq.trans hn) (fun k hk => hks k (by simp [hk]))
      rw [List.length_append, List.length_singleton] at e
      rw [List.zipIdx_cons, List.flatMap_cons, exec_append, exec_turn, h1]
      refine ⟨e.1.trans h2.perm, ?_⟩
      rw [e.2, List.length_cons, List.replicate_succ]
      simp
  exact key ks arr [] hn hks

/-- Three requests, one after the other, on the two unsorted labels. -/
example : (exec ⟨bg, []⟩ (([9, 5, 7] : List Nat).zipIdx.flatMap fun k => turn k.2 k.1)).arr = bg.reverse := by
  decide +kernel

/-! ## C84 -/

/-- C84: however requests race, at every moment every position of the policy holds one of the configured pairs of
label and weight; so whatever position a request reads, and whenever, it gets a configured label. -/
theorem C84_configured (arr : Policy) (acts : List Act) (i : Nat) (h : i < arr.length) :
    ∃ a ∈ arr, (exec ⟨arr, []⟩ acts).arr[i]? = some a := by
  have hl := (C83_in_range arr acts).2
  refine ⟨(exec ⟨arr, []⟩ acts).arr[i]'(by omega), ?_, List.getElem?_eq_getElem (by omega)⟩
  exact holds_exec (· ∈ arr) acts ⟨arr, []⟩ (fun a h => h) (fun pc hpc => by simp at hpc) _ (List.getElem_mem _)

/-- In the race of `C06_violated`, while the first request is between its two stores. -/
example : (exec ⟨bg, []⟩ (badSchedule.take 7)).arr.map LabelWeight.label = ["blue".toList, "blue".toList] := by
  decide +kernel

end J8a.SortRace

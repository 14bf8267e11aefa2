import Verif.Lemmas.MachineOrderly
/-!
# Executions of the whole handler
-/
namespace J8a
open Go

variable {K : Type}

/-- A handler that decided without asking an upstream. -/
structure Still (s : St) : Prop where
  n : s.n = 0
  calls : s.calls = []
  dwnFlag : s.dwnFlag = false
  pc : (∃ code msg, s.pc = .sendJson code msg) ∨ s.pc = .log1 ∨ s.pc = .done ∨ s.pc = .panicked
  atmpt : s.atmpt = fun _ => noAtmpt

theorem Still.step {e : Env} {s s' : St} {a : Act} (hi : Still s) (h : step e s a = some s') :
    Still s' := by
  obtain ⟨h1, h2, h3, h4, h5⟩ := hi
  cases a
  case main c =>
    simp only [J8a.step] at h
    rcases h4 with ⟨code, msg, h4⟩ | h4 | h4 | h4 <;> simp only [stepMain, h4, h1] at h <;>
      (repeat' split at h) <;> cases h <;> constructor <;> simp_all
  all_goals
    simp only [J8a.step, stepOther] at h
    (repeat' split at h) <;> cases h <;> first
      | (constructor <;> simp_all; done)
      | (exfalso; simp_all; done)

theorem Still.initial {d : Decision} (h : ∀ r u l, d ≠ .forward r u l) : Still (initial d) := by
  cases d with
  | forward r u l => exact absurd rfl (h r u l)
  | respond c m => constructor <;> simp [J8a.initial]
  | panic => constructor <;> simp [J8a.initial]

theorem Still.run {e : Env} {s s' : St} {as : List Act} (hi : Still s) (h : run e s as = some s') :
    Still s' := run_invariant (fun _ _ _ hi hs => hi.step hs) hi h

/-- What holds in all reachable states when a request is forwarded. -/
structure Going (e : Env) (u : URL) (s : St) : Prop where
  inv : Inv e s
  close : CloseInv s
  call : CallInv e u s

theorem Going.step {e : Env} {u : URL} {s s' : St} {a : Act} (hi : Going e u s)
    (h : step e s a = some s') : Going e u s' :=
  ⟨hi.inv.step h, hi.close.step h, hi.call.step h⟩

theorem Going.run {e : Env} {u : URL} {s s' : St} {as : List Act} (hi : Going e u s)
    (h : run e s as = some s') : Going e u s' :=
  run_invariant (fun _ _ _ hi hs => hi.step hs) hi h

theorem Going.initial (e : Env) (r : Route) (u : URL) (l : Str) :
    Going e u (initial (.forward r u l)) :=
  ⟨.initial e r u l, .initial _, by constructor <;> simp [J8a.initial, St.cur]⟩

theorem going_or_still {x : Setup K} {s : St} (h : x.Reaches s) :
    (∃ r u l, x.dec = .forward r u l ∧ Going x.env u s) ∨
    ((∀ r u l, x.dec ≠ .forward r u l) ∧ Still s) := by
  obtain ⟨as, h⟩ := h
  by_cases hd : ∃ r u l, x.dec = .forward r u l
  · obtain ⟨r, u, l, hd⟩ := hd
    rw [hd] at h
    exact .inl ⟨r, u, l, hd, (Going.initial _ r u l).run h⟩
  · have hn : ∀ r u l, x.dec ≠ .forward r u l := fun r u l h => hd ⟨r, u, l, h⟩
    exact .inr ⟨hn, (Still.initial hn).run h⟩

theorem Setup.Reaches.run {x : Setup K} {s s' : St} {as : List Act} (h : x.Reaches s)
    (hr : run x.env s as = some s') : x.Reaches s' := by
  obtain ⟨bs, h⟩ := h
  exact ⟨bs ++ as, by rw [run_append h, hr]⟩

/-- Each attempt makes at most one call. -/
theorem CallInv.length_le {e : Env} {u : URL} {s : St} (h : CallInv e u s) :
    s.calls.length ≤ s.n := by
  have h1 : (s.calls.map Prod.fst) ⊆ List.range s.n := by
    intro i hi
    obtain ⟨p, hp, rfl⟩ := List.mem_map.mp hi
    exact List.mem_range.mpr (h.calls p hp).1
  have := h.nodup.length_le_of_subset h1
  simpa using this

/-- After the round trip deadline the handler passes `next` at most once. -/
theorem dwnFired_step {e : Env} {s s' : St} {a : Act} (h : step e s a = some s')
    (hd : s.dwnFired = true) : s'.dwnFired = true ∧
      (s'.n = s.n ∧ (s'.pc = .next → s.pc = .next) ∨
        s.pc = .next ∧ s'.n = s.n + 1 ∧ s'.pc = .scaffold) := by
  cases a <;> step_cases h <;> simp_all

theorem dwnFired_run {e : Env} {s s' : St} {as : List Act} (h : run e s as = some s')
    (hd : s.dwnFired = true) :
    s'.n = s.n ∧ (s'.pc = .next → s.pc = .next) ∨
      s.pc = .next ∧ s'.n = s.n + 1 ∧ s'.pc ≠ .next := by
  have := run_invariant (P := fun t => t.dwnFired = true ∧
    (t.n = s.n ∧ (t.pc = .next → s.pc = .next) ∨ s.pc = .next ∧ t.n = s.n + 1 ∧ t.pc ≠ .next))
    (fun t a t' ⟨h1, h2⟩ hs => by
      obtain ⟨k1, k2⟩ := dwnFired_step hs h1
      refine ⟨k1, ?_⟩
      rcases k2 with ⟨k2, k3⟩ | ⟨k2, k3, k4⟩
      · rcases h2 with ⟨h2, h3⟩ | ⟨h2, h3, h4⟩
        · exact .inl ⟨by omega, fun h => h3 (k3 h)⟩
        · exact .inr ⟨h2, by omega, fun h => h4 (k3 h)⟩
      · rcases h2 with ⟨h2, h3⟩ | ⟨h2, h3, h4⟩
        · exact .inr ⟨h3 k2, by omega, by rw [k4]; simp⟩
        · exact absurd k2 h4)
    ⟨hd, .inl ⟨rfl, id⟩⟩ h
  exact this.2

/-! ## Infinite executions -/

theorem InfRun.later {e : Env} {σ : Nat → St} (h : InfRun e σ) (i d : Nat) :
    Later (σ i) (σ (i + d)) := by
  induction d with
  | zero => exact .refl _
  | succ d ih =>
    refine ih.trans ?_
    rcases h (i + d) with h | ⟨a, h⟩
    · show Later _ (σ (i + d + 1)); rw [h]; exact .refl _
    · exact later_step h

theorem InfRun.inv {e : Env} {σ : Nat → St} (h : InfRun e σ) (h0 : Inv e (σ 0)) (i : Nat) :
    Inv e (σ i) := by
  induction i with
  | zero => exact h0
  | succ i ih =>
    rcases h i with h | ⟨a, h⟩
    · rw [h]; exact ih
    · exact ih.step h

theorem InfRun.count {e : Env} {σ : Nat → St} (h : InfRun e σ) (h0 : CountInv e (σ 0)) (i : Nat) :
    CountInv e (σ i) := by
  induction i with
  | zero => exact h0
  | succ i ih =>
    rcases h i with h | ⟨a, h⟩
    · rw [h]; exact ih
    · exact ih.step h

/-- Without a step of the handler its program counter and the number of attempts stay. -/
theorem InfRun.stay {e : Env} {σ : Nat → St} (h : InfRun e σ) (i : Nat) :
    MainAt e σ i ∨ ((σ (i + 1)).pc = (σ i).pc ∧ (σ (i + 1)).n = (σ i).n) := by
  rcases h i with h | ⟨a, h⟩
  · right; rw [h]; exact ⟨rfl, rfl⟩
  · rcases step_cases' h with hf | ⟨c, -, hm⟩
    · exact .inr ⟨hf.pc, hf.n⟩
    · exact .inl ⟨c, hm⟩

/-- From some time on the handler makes no more steps. -/
theorem InfRun.rests {e : Env} {σ : Nat → St} (h : InfRun e σ) (h0 : CountInv e (σ 0)) :
    ∃ i, ∀ j, i ≤ j → ¬ MainAt e σ j := by
  have hdec : ∀ j, stepsLeft e (σ (j + 1)) ≤ stepsLeft e (σ j) ∧
      (MainAt e σ j → stepsLeft e (σ (j + 1)) < stepsLeft e (σ j)) := by
    intro j
    have hm : MainAt e σ j → stepsLeft e (σ (j + 1)) < stepsLeft e (σ j) := fun ⟨c, hm⟩ =>
      stepsLeft_main (h.count h0 j) hm
    refine ⟨?_, hm⟩
    rcases h.stay j with hj | ⟨h1, h2⟩
    · exact Nat.le_of_lt (hm hj)
    · unfold stepsLeft; rw [h1, h2]; exact Nat.le_refl _
  have main : ∀ n i, stepsLeft e (σ i) ≤ n → ∃ i, ∀ j, i ≤ j → ¬ MainAt e σ j := by
    intro n
    induction n with
    | zero =>
      intro i hi
      refine ⟨i, fun j hj hm => ?_⟩
      have hle : stepsLeft e (σ j) ≤ stepsLeft e (σ i) := by
        obtain ⟨d, rfl⟩ := Nat.exists_eq_add_of_le hj
        clear hj hm
        induction d with
        | zero => exact Nat.le_refl _
        | succ d ih => exact Nat.le_trans (hdec (i + d)).1 ih
      have := (hdec j).2 hm
      omega
    | succ n ih =>
      intro i hi
      by_cases hx : ∃ j, i ≤ j ∧ MainAt e σ j
      · obtain ⟨j, hj, hm⟩ := hx
        have hle : stepsLeft e (σ j) ≤ stepsLeft e (σ i) := by
          obtain ⟨d, rfl⟩ := Nat.exists_eq_add_of_le hj
          clear hj hm
          induction d with
          | zero => exact Nat.le_refl _
          | succ d ih => exact Nat.le_trans (hdec (i + d)).1 ih
        have := (hdec j).2 hm
        exact ih (j + 1) (by omega)
      · exact ⟨i, fun j hj hm => hx ⟨j, hj, hm⟩⟩
  exact main _ 0 (Nat.le_refl _)

theorem InfRun.still_pc {e : Env} {σ : Nat → St} (h : InfRun e σ) {i : Nat}
    (hi : ∀ j, i ≤ j → ¬ MainAt e σ j) (d : Nat) :
    (σ (i + d)).pc = (σ i).pc ∧ (σ (i + d)).n = (σ i).n := by
  induction d with
  | zero => exact ⟨rfl, rfl⟩
  | succ d ih =>
    rcases h.stay (i + d) with hm | ⟨h1, h2⟩
    · exact absurd hm (hi _ (by omega))
    · exact ⟨h1.trans ih.1, h2.trans ih.2⟩

theorem Fair.finishes {e : Env} {σ : Nat → St} (hf : Fair e σ) (h : InfRun e σ)
    (h0 : Inv e (σ 0)) : ∃ i, (σ i).pc.finished := by
  obtain ⟨i, hi⟩ := h.rests h0.count
  refine ⟨i, Classical.byContradiction fun hn => ?_⟩
  have hpc := h.still_pc hi
  have hnow : ∀ j, i ≤ j → ¬ (σ j).pc.finished := by
    intro j hj
    obtain ⟨d, rfl⟩ := Nat.exists_eq_add_of_le hj
    rw [(hpc d).1]
    exact hn
  by_cases hw : (σ i).pc.waiting
  · have hp : (σ i).pc ≠ .scaffold := by
      intro h; rw [h] at hw; exact hw
    have hc := (h.inv h0 i).cancel (σ i).cur (cur_lt (h.inv h0 i).pos) (fun h => absurd h hp)
    obtain ⟨j, hj, hd⟩ := hf.timer i _ (cur_lt (h.inv h0 i).pos) hc
    obtain ⟨k, hk, hm⟩ := hf.handler j (fun l hl => by
      obtain ⟨d, rfl⟩ := Nat.exists_eq_add_of_le (Nat.le_trans hj hl)
      refine enabled_of_ctxDone ?_ (hnow _ (by omega))
      obtain ⟨d', hd'⟩ := Nat.exists_eq_add_of_le hl
      have hl' := h.later j d'
      rw [← hd'] at hl'
      have hcur : (σ (i + d)).cur = (σ i).cur := by unfold St.cur; rw [(hpc d).2]
      unfold St.curA
      rw [hcur]
      refine hl'.ctxDone _ ?_ hd
      obtain ⟨d'', rfl⟩ := Nat.exists_eq_add_of_le hj
      rw [(hpc d'').2]
      exact cur_lt (h.inv h0 i).pos)
    exact hi k (by omega) hm
  · obtain ⟨k, hk, hm⟩ := hf.handler i (fun l hl => by
      obtain ⟨d, rfl⟩ := Nat.exists_eq_add_of_le hl
      refine enabled_of_not_waiting ?_ (hnow _ hl)
      rw [(hpc d).1]; exact hw)
    exact hi k hk hm

theorem Fair.finishes_still {e : Env} {σ : Nat → St} (hf : Fair e σ) (h : InfRun e σ)
    (h0 : Still (σ 0)) : ∃ i, (σ i).pc.finished := by
  have hs : ∀ i, Still (σ i) := by
    intro i
    induction i with
    | zero => exact h0
    | succ i ih =>
      rcases h i with h | ⟨a, h⟩
      · rw [h]; exact ih
      · exact ih.step h
  have hw : ∀ i, ¬ (σ i).pc.waiting := by
    intro i
    rcases (hs i).pc with ⟨c, m, h⟩ | h | h | h <;> rw [h] <;> exact id
  have hc : CountInv e (σ 0) := by
    refine ⟨.inl (by rw [h0.n]; omega), ?_, ?_⟩ <;>
      rcases h0.pc with ⟨c, m, h⟩ | h | h | h <;> rw [h] <;> simp
  obtain ⟨i, hi⟩ := h.rests hc
  refine ⟨i, Classical.byContradiction fun hn => ?_⟩
  obtain ⟨k, hk, hm⟩ := hf.handler i (fun l hl => by
    obtain ⟨d, rfl⟩ := Nat.exists_eq_add_of_le hl
    refine enabled_of_not_waiting (hw _) ?_
    rw [(h.still_pc hi d).1]; exact hn)
  exact hi k hk hm

/-! ## A finite execution as an infinite one -/

/-- The state after `i` actions. -/
def stateAt (e : Env) (s : St) : List Act → Nat → St
  | _, 0 => s
  | [], _ => s
  | a :: as, i + 1 => match step e s a with
    | none => s
    | some s' => stateAt e s' as i

theorem stateAt_infRun (e : Env) (s : St) (as : List Act) : InfRun e (stateAt e s as) := by
  intro i
  induction i generalizing s as with
  | zero =>
    cases as with
    | nil => exact .inl rfl
    | cons a as =>
      simp only [stateAt]
      split
      · exact .inl rfl
      · exact .inr ⟨a, ‹_›⟩
  | succ i ih =>
    cases as with
    | nil => exact .inl rfl
    | cons a as =>
      simp only [stateAt]
      split
      · exact .inl rfl
      · exact ih _ as

theorem stateAt_end {e : Env} {s t : St} {as : List Act} (h : run e s as = some t) {i : Nat}
    (hi : as.length ≤ i) : stateAt e s as i = t := by
  induction as generalizing s i with
  | nil => rw [run] at h; cases h; cases i <;> rfl
  | cons a as ih =>
    obtain ⟨u, hu, h⟩ := run_cons h
    cases i with
    | zero => simp at hi
    | succ i =>
      simp only [stateAt, hu]
      exact ih h (by simpa using hi)

theorem stateAt_fair {e : Env} {s t : St} {as : List Act} (h : run e s as = some t)
    (hp : t.pc = .done ∨ t.pc = .panicked) (hc : ∀ k < t.n, (t.atmpt k).ctxDone = true) :
    Fair e (stateAt e s as) := by
  constructor
  · intro i hi
    exfalso
    have := hi (i + as.length) (by omega)
    rw [stateAt_end h (by omega)] at this
    obtain ⟨c, s', hs⟩ := this
    rcases hp with hp | hp <;> simp only [stepMain, hp] at hs <;> cases hs
  · intro i k hk _
    refine ⟨i + as.length, by omega, ?_⟩
    have hl := (stateAt_infRun e s as).later i as.length
    rw [stateAt_end h (i := i + as.length) (by omega)] at hl ⊢
    exact hc k (Nat.lt_of_lt_of_le hk hl.n)

end J8a

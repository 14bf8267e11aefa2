import Verif.Lemmas.MachineRun
import Verif.Lemmas.MachineProgress
import Verif.Model.Timed
/-!
# Timed executions
-/
namespace J8a
open Go

variable {K : Type}

theorem canMove_iff {e : Env} {s : St} : canMove e s = true ↔ Enabled e s := by
  unfold canMove Enabled
  simp only [Bool.or_eq_true, Option.isSome_iff_exists]
  constructor
  · rintro ((h | h) | h)
    · exact ⟨_, h⟩
    · exact ⟨_, h⟩
    · exact ⟨_, h⟩
  · rintro ⟨c, h⟩
    cases c
    · exact .inl (.inr h)
    · exact .inr h
    · exact .inl (.inl h)

/-- The actions of a timed schedule. -/
def untimed : List TAct → List Act
  | [] => []
  | .wait _ :: as => untimed as
  | .act a :: as => a :: untimed as

/-- Timed executions are executions. -/
theorem trun_run {e : Env} {p : Pace} {t t' : TSt} {as : List TAct} (h : trun e p t as = some t') :
    run e t.s (untimed as) = some t'.s := by
  induction as generalizing t with
  | nil => simp only [trun] at h; cases h; rfl
  | cons a as ih =>
    simp only [trun] at h
    split at h
    · cases h
    · rename_i u hu
      have := ih h
      cases a with
      | wait d =>
        simp only [tstep] at hu
        split at hu
        · cases hu; exact this
        · cases hu
      | act a =>
        simp only [tstep] at hu
        split at hu
        · cases hu
        · rename_i s' hs
          cases hu
          simp only [untimed, run, hs]
          exact this

theorem trun_invariant {e : Env} {p : Pace} {P : TSt → Prop} {t t' : TSt} {as : List TAct}
    (hstep : ∀ t a t', P t → tstep e p t a = some t' → P t') (h0 : P t)
    (h : trun e p t as = some t') : P t' := by
  induction as generalizing t with
  | nil => simp only [trun] at h; cases h; exact h0
  | cons a as ih =>
    simp only [trun] at h
    split at h
    · cases h
    · rename_i u hu
      exact ih (hstep _ _ _ h0 hu) h

/-- The cases of a timed step. -/
theorem tstep_cases {e : Env} {p : Pace} {t t' : TSt} {a : TAct} (h : tstep e p t a = some t') :
    (∃ d, mayBe e p t (t.now + d) ∧ t' = { t with now := t.now + d }) ∨
    (∃ c s', stepMain e t.s c = some s' ∧ t' = ⟨s', t.now, t.now,
      if t.s.pc.isScaffold then fun k => if k = t.s.cur then t.now else t.start k else t.start⟩) ∨
    (∃ b s', Frame t.s s' ∧ step e t.s b = some s' ∧ b.isMain = false ∧
      t' = ⟨s', t.now, if canMove e t.s then t.since else t.now, t.start⟩) := by
  cases a with
  | wait d =>
    simp only [tstep] at h
    split at h
    · rename_i hm
      cases h
      exact .inl ⟨d, hm, rfl⟩
    · cases h
  | act a =>
    simp only [tstep] at h
    split at h
    · cases h
    · rename_i s' hs
      cases h
      by_cases hm : a.isMain = true
      · cases a <;> simp only [Act.isMain, Bool.false_eq_true] at hm
        exact .inr (.inl ⟨_, s', hs, by simp [Act.isMain]⟩)
      · simp only [Bool.not_eq_true] at hm
        refine .inr (.inr ⟨a, s', ?_, hs, hm, ?_⟩)
        · rcases step_cases' hs with hf | ⟨c, rfl, -⟩
          · exact hf
          · simp [Act.isMain] at hm
        · simp only [hm, Bool.false_or, Bool.false_and, Bool.false_eq_true, if_false]
          cases canMove e t.s <;> simp

/-! ## After the round trip deadline -/

theorem enabled_of_dwnFired {e : Env} {s : St} (hd : s.dwnFired = true) (hf : ¬ s.pc.finished) :
    Enabled e s := by
  by_cases hw : s.pc.waiting
  · refine ⟨.dwnAborted, ?_⟩
    cases hpc : s.pc <;> simp only [hpc, PC.waiting] at hw <;>
      simp only [stepMain, hpc, hd, if_true] <;> exact ⟨_, rfl⟩
  · exact enabled_of_not_waiting hw hf

theorem not_finished_of_main {e : Env} {s s' : St} {c : Choice} (hm : stepMain e s c = some s') :
    ¬ s.pc.finished := by
  intro h
  cases hpc : s.pc <;> simp only [hpc, PC.finished] at h <;> simp only [stepMain, hpc] at hm <;>
    cases hm

/-- An upper bound on the steps to the end when the round trip deadline has passed. -/
def PC.late : PC → Nat
  | .next => 31
  | q => q.rank

theorem PC.late_le (q : PC) : q.late ≤ 31 := by cases q <;> simp [PC.late, PC.rank]

theorem PC.late_pos {q : PC} (h : ¬ q.finished) : 1 ≤ q.late := by
  cases q <;> simp_all [PC.late, PC.rank, PC.finished]

theorem PC.rank_pos {q : PC} (h : ¬ q.finished) : 1 ≤ q.rank := by
  cases q <;> simp_all [PC.rank, PC.finished]

theorem late_main {e : Env} {s s' : St} {c : Choice} (hd : s.dwnFired = true)
    (hm : stepMain e s c = some s') : s'.dwnFired = true ∧ s'.pc.late + 1 ≤ s.pc.late := by
  main_cases s hm hpc <;>
    simp_all [St.noteDwn, St.noteUp, St.abortAll, St.upd, PC.late, PC.rank]

/-- What the clock shows, with respect to the round trip timer. -/
structure DownInv (e : Env) (p : Pace) (t0 : Nat) (t : TSt) : Prop where
  prompt : canMove e t.s = true → t.now ≤ t.since + p.eps
  since : t.since ≤ t.now
  before : t.s.dwnFired = false → t.now ≤ max t0 p.down
  after : t.s.dwnFired = true → ¬ t.s.pc.finished → t.since ≤ max t0 p.down + (31 - t.s.pc.late) * p.eps
  idle : canMove e t.s = false → t.s.dwnFired = false ∨ t.s.pc.finished

theorem DownInv.step {e : Env} {p : Pace} {t0 : Nat} {t t' : TSt} {a : TAct}
    (hi : DownInv e p t0 t) (h0 : t0 ≤ t.now) (h : tstep e p t a = some t') : DownInv e p t0 t' := by
  have idle : ∀ s : St, canMove e s = false → s.dwnFired = false ∨ s.pc.finished := by
    intro s hc
    by_cases hf : s.pc.finished
    · exact .inr hf
    · refine .inl (Bool.eq_false_iff.mpr fun hd => ?_)
      have := canMove_iff.mpr (enabled_of_dwnFired (e := e) hd hf)
      rw [hc] at this; cases this
  rcases tstep_cases h with ⟨d, hm, rfl⟩ | ⟨c, s', hs, rfl⟩ | ⟨b, s', hf, hs, -, rfl⟩
  · refine ⟨fun hc => hm.1 hc, Nat.le_trans hi.since (Nat.le_add_right _ _), fun hd => ?_, hi.after,
      idle _⟩
    have h1 := hm.2.1 hd
    have h2 := hi.before hd
    show t.now + d ≤ _
    omega
  · have hc : canMove e t.s = true := canMove_iff.mpr ⟨c, s', hs⟩
    have hp := hi.prompt hc
    refine ⟨fun _ => Nat.le_add_right _ _, Nat.le_refl _, fun hd => ?_, fun hd _ => ?_, idle _⟩
    · refine hi.before (Bool.eq_false_iff.mpr fun h => ?_)
      have hd : s'.dwnFired = false := hd
      rw [(late_main h hs).1] at hd
      cases hd
    · show t.now ≤ max t0 p.down + (31 - s'.pc.late) * p.eps
      cases h1 : t.s.dwnFired with
      | false =>
        have := hi.before h1
        exact Nat.le_trans this (Nat.le_add_right _ _)
      | true =>
        have h2 := hi.after h1 (not_finished_of_main hs)
        have h3 := (late_main h1 hs).2
        have h4 := t.s.pc.late_le
        have h5 : (31 - t.s.pc.late) * p.eps + p.eps ≤ (31 - s'.pc.late) * p.eps := by
          rw [← Nat.succ_mul]
          exact Nat.mul_le_mul_right _ (by omega)
        omega
  · have hnow : t.s.dwnFired = false → t.now ≤ max t0 p.down := hi.before
    refine ⟨fun hc => ?_, ?_, fun hd => ?_, fun hd hfin => ?_, idle _⟩
    · show t.now ≤ (if _ then _ else _) + _
      split
      · exact hi.prompt ‹_›
      · omega
    · show (if _ then _ else _) ≤ t.now
      split
      · exact hi.since
      · exact Nat.le_refl _
    · refine hi.before (Bool.eq_false_iff.mpr fun h => ?_)
      have hd : s'.dwnFired = false := hd
      rw [hf.dwnFired h] at hd
      cases hd
    · show (if _ then _ else _) ≤ _ + (31 - s'.pc.late) * p.eps
      rw [hf.pc]
      cases h1 : t.s.dwnFired with
      | false =>
        have h2 := hi.before h1
        have h3 := hi.since
        split <;> exact Nat.le_trans (by omega) (Nat.le_add_right _ _)
      | true =>
        have hfin : ¬ s'.pc.finished := hfin
        rw [hf.pc] at hfin
        have h2 := hi.after h1 hfin
        split
        · exact h2
        · rename_i hc
          rcases hi.idle (by simpa using hc) with h3 | h3
          · rw [h1] at h3; cases h3
          · exact absurd h3 hfin

theorem DownInv.initial (e : Env) (p : Pace) (d : Decision) (t0 : Nat) :
    DownInv e p t0 (tinitial d t0) := by
  have hd : (J8a.initial d).dwnFired = false := by cases d <;> rfl
  refine ⟨fun _ => Nat.le_add_right _ _, Nat.le_refl _, fun _ => Nat.le_max_left _ _, fun h => ?_,
    fun _ => .inl hd⟩
  have h : (J8a.initial d).dwnFired = true := h
  rw [hd] at h; cases h

theorem now_mono {e : Env} {p : Pace} {t t' : TSt} {a : TAct} (h : tstep e p t a = some t') :
    t.now ≤ t'.now := by
  rcases tstep_cases h with ⟨d, hm, rfl⟩ | ⟨c, s', hs, rfl⟩ | ⟨b, s', hf, hs, -, rfl⟩
  · exact Nat.le_add_right _ _
  · exact Nat.le_refl _
  · exact Nat.le_refl _

/-- While the handler has not finished, the clock shows at most the round trip deadline and 31 steps. -/
theorem down_bound {e : Env} {p : Pace} {t0 : Nat} {d : Decision} {t : TSt} {as : List TAct}
    (h : trun e p (tinitial d t0) as = some t) (hf : ¬ t.s.pc.finished) :
    t.now ≤ max t0 p.down + 31 * p.eps := by
  obtain ⟨hi, -⟩ := trun_invariant (P := fun t => DownInv e p t0 t ∧ t0 ≤ t.now)
    (fun _ _ _ ⟨h1, h2⟩ hs => ⟨h1.step h2 hs, Nat.le_trans h2 (now_mono hs)⟩)
    ⟨.initial e p d t0, Nat.le_refl _⟩ h
  cases hd : t.s.dwnFired with
  | false => exact Nat.le_trans (hi.before hd) (Nat.le_add_right _ _)
  | true =>
    have h1 := hi.after hd hf
    have h2 := hi.prompt (canMove_iff.mpr (enabled_of_dwnFired hd hf))
    have h3 := PC.late_pos hf
    have h4 : (31 - t.s.pc.late) * p.eps + p.eps ≤ 31 * p.eps := by
      rw [← Nat.succ_mul]
      exact Nat.mul_le_mul_right _ (by omega)
    omega

/-! ## The read timers -/

theorem PC.isScaffold_iff {q : PC} : q.isScaffold = true ↔ q = .scaffold := by
  cases q <;> simp [PC.isScaffold]

/-- Number of attempts whose time is up when the handler is at `pc`. -/
def St.spent (s : St) : Nat := if s.pc.isScaffold then s.n - 1 else s.n

theorem spent_main {e : Env} {s s' : St} {c : Choice} (hm : stepMain e s c = some s') :
    s.spent ≤ s'.spent := by
  main_cases s hm hpc <;> simp_all [St.spent, PC.isScaffold, St.noteDwn, St.noteUp, St.abortAll,
    St.upd]

/-- Which read timers are running. -/
def St.running (s : St) (i : Nat) : Prop :=
  i < s.n ∧ (s.atmpt i).hasCancel = true ∧ (s.atmpt i).ctxDone = false

theorem running_main {e : Env} {s s' : St} {c : Choice} {i : Nat} (hm : stepMain e s c = some s')
    (hr : s'.running i) : s.running i ∨ s.pc = .scaffold ∧ i = s.cur := by
  unfold St.running at hr ⊢
  main_cases s hm hpc <;>
    simp only [upd_atmpt, abortAll_atmpt, noteUp_atmpt, noteDwn_atmpt, upd_n, noteUp_n, noteDwn_n,
      abortAll_n] at hr <;>
    grind [St.cur]

theorem cur_main {e : Env} {s s' : St} {c : Choice} (hm : stepMain e s c = some s')
    (h : s'.pc ≠ .scaffold) : s'.n = s.n := by
  main_cases s hm hpc <;> simp_all [St.noteDwn, St.noteUp, St.abortAll, St.upd]

/-- What the clock shows, with respect to the read timers. -/
structure ReadInv (e : Env) (p : Pace) (t0 L : Nat) (t : TSt) : Prop where
  left : stepsLeft e t.s ≤ L
  prompt : canMove e t.s = true → t.now ≤ t.since + p.eps
  since : ¬ t.s.pc.finished →
    t.since ≤ t0 + t.s.spent * p.read + (L - stepsLeft e t.s) * p.eps
  timer : ∀ i, t.s.running i → t.now ≤ t.start i + p.read
  started : 0 < t.s.n → t.s.pc ≠ .scaffold →
    t.start t.s.cur ≤ t0 + t.s.cur * p.read + (L - stepsLeft e t.s) * p.eps

/-- A waiting handler has a read timer. -/
def HasTimer (s : St) : Prop := s.pc.waiting → 0 < s.n ∧ s.curA.hasCancel = true

theorem ReadInv.now_idle {e : Env} {p : Pace} {t0 L : Nat} {t : TSt} (hi : ReadInv e p t0 L t)
    (ht : HasTimer t.s) (hc : canMove e t.s = false) (hf : ¬ t.s.pc.finished) :
    t.now ≤ t0 + t.s.spent * p.read + (L - stepsLeft e t.s) * p.eps := by
  have hne : ¬ Enabled e t.s := fun h => by rw [canMove_iff.mpr h] at hc; cases hc
  have hw : t.s.pc.waiting := Classical.byContradiction fun h => hne (enabled_of_not_waiting h hf)
  obtain ⟨h1, h2⟩ := ht hw
  have hd : t.s.curA.ctxDone = false :=
    Bool.eq_false_iff.mpr fun h => hne (enabled_of_ctxDone h hf)
  have hns : t.s.pc ≠ .scaffold := by intro h; rw [h] at hw; exact hw
  have h3 := hi.timer t.s.cur ⟨by unfold St.cur; omega, h2, hd⟩
  have h4 := hi.started h1 hns
  have h5 : t.s.spent = t.s.cur + 1 := by
    unfold St.spent St.cur
    rw [if_neg (fun h => hns (PC.isScaffold_iff.mp h))]
    omega
  rw [h5, Nat.succ_mul]
  omega

theorem ReadInv.step {e : Env} {p : Pace} {t0 L : Nat} {t t' : TSt} {a : TAct}
    (hi : ReadInv e p t0 L t) (hcount : CountInv e t.s) (ht : HasTimer t.s)
    (h : tstep e p t a = some t') : ReadInv e p t0 L t' := by
  rcases tstep_cases h with ⟨d, hm, rfl⟩ | ⟨c, s', hs, rfl⟩ | ⟨b, s', hf, hs, -, rfl⟩
  · exact ⟨hi.left, fun hc => hm.1 hc, hi.since, fun i hr => hm.2.2 i hr.1 hr.2.1 hr.2.2, hi.started⟩
  · have hc : canMove e t.s = true := canMove_iff.mpr ⟨c, s', hs⟩
    have hp := hi.prompt hc
    have hl := hi.left
    have hn := hi.since (not_finished_of_main hs)
    have hlt := stepsLeft_main hcount hs
    have h1 : (L - stepsLeft e t.s) * p.eps + p.eps ≤ (L - stepsLeft e s') * p.eps := by
      rw [← Nat.succ_mul]
      exact Nat.mul_le_mul_right _ (by omega)
    refine ⟨by show stepsLeft e s' ≤ L; omega, fun _ => Nat.le_add_right _ _, fun hf => ?_,
      fun i hr => ?_, fun hn0 hns => ?_⟩
    · show t.now ≤ t0 + s'.spent * p.read + (L - stepsLeft e s') * p.eps
      have h2 : t.s.spent * p.read ≤ s'.spent * p.read := Nat.mul_le_mul_right _ (spent_main hs)
      omega
    · show t.now ≤ (if _ then _ else _ : Nat → Nat) i + p.read
      rcases running_main hs hr with h2 | ⟨h2, h3⟩
      · split
        · dsimp only
          split
          · omega
          · exact hi.timer i h2
        · exact hi.timer i h2
      · rw [if_pos (PC.isScaffold_iff.mpr h2)]
        rw [if_pos h3]
        omega
    · have hns : s'.pc ≠ .scaffold := hns
      have hn' := cur_main hs hns
      have hcur : s'.cur = t.s.cur := by unfold St.cur; rw [hn']
      show (if _ then _ else _ : Nat → Nat) s'.cur ≤ t0 + s'.cur * p.read + (L - stepsLeft e s') * p.eps
      rw [hcur]
      by_cases hsc : t.s.pc = .scaffold
      · rw [if_pos (PC.isScaffold_iff.mpr hsc)]
        rw [if_pos rfl]
        have h2 : t.s.spent = t.s.cur := by
          unfold St.spent St.cur
          rw [if_pos (PC.isScaffold_iff.mpr hsc)]
        rw [h2] at hn
        omega
      · rw [if_neg (fun h => hsc (PC.isScaffold_iff.mp h))]
        have h2 := hi.started (by rw [← hn']; exact hn0) hsc
        omega
  · have hsl := stepsLeft_other (e := e) hf
    have hsp : s'.spent = t.s.spent := by unfold St.spent; rw [hf.pc, hf.n]
    refine ⟨by show stepsLeft e s' ≤ L; rw [hsl]; exact hi.left, fun hc => ?_, fun hfin => ?_,
      fun i hr => ?_, fun hn0 hns => ?_⟩
    · show t.now ≤ (if _ then _ else _) + _
      split
      · exact hi.prompt ‹_›
      · omega
    · show (if _ then _ else _) ≤ t0 + s'.spent * p.read + (L - stepsLeft e s') * p.eps
      have hfin : ¬ s'.pc.finished := hfin
      rw [hf.pc] at hfin
      rw [hsl, hsp]
      split
      · exact hi.since hfin
      · rename_i hc
        exact hi.now_idle ht (by simpa using hc) hfin
    · have hr : s'.running i := hr
      refine hi.timer i ⟨by rw [← hf.n]; exact hr.1, by rw [← hf.hasCancel]; exact hr.2.1, ?_⟩
      exact Bool.eq_false_iff.mpr fun h => by
        have := hr.2.2
        rw [hf.ctxDone i h] at this
        cases this
    · show t.start s'.cur ≤ t0 + s'.cur * p.read + (L - stepsLeft e s') * p.eps
      rw [hsl, hf.cur]
      exact hi.started (by rw [← hf.n]; exact hn0) (by rw [← hf.pc]; exact hns)

theorem ReadInv.initial (e : Env) (p : Pace) (d : Decision) (t0 : Nat) :
    ReadInv e p t0 (stepsLeft e (J8a.initial d)) (tinitial d t0) := by
  refine ⟨Nat.le_refl _, fun _ => Nat.le_add_right _ _, fun _ => ?_, fun i hr => ?_, fun h1 h2 => ?_⟩
  · show t0 ≤ _
    omega
  · exfalso
    obtain ⟨h1, h2, -⟩ := hr
    have h2 : ((J8a.initial d).atmpt i).hasCancel = true := h2
    have h1 : i < (J8a.initial d).n := h1
    revert h1 h2
    cases d <;> simp [J8a.initial, noAtmpt]
    intro h h'; subst h'; simp at h
  · exfalso
    have h1 : 0 < (J8a.initial d).n := h1
    have h2 : (J8a.initial d).pc ≠ .scaffold := h2
    revert h1 h2
    cases d <;> simp [J8a.initial]

/-- While the handler has not finished, the clock shows at most the read timeouts of its attempts and
its steps. -/
theorem read_bound {e : Env} {p : Pace} {t0 : Nat} {d : Decision} {t : TSt} {as : List TAct}
    (hok : ∀ bs s, run e (initial d) bs = some s → CountInv e s ∧ HasTimer s)
    (h : trun e p (tinitial d t0) as = some t) (hf : ¬ t.s.pc.finished) :
    t.now ≤ t0 + t.s.n * p.read + (stepsLeft e (initial d) - stepsLeft e t.s + 1) * p.eps := by
  have key := trun_invariant (P := fun t => ReadInv e p t0 (stepsLeft e (J8a.initial d)) t ∧
      ∃ bs, run e (initial d) bs = some t.s)
    (fun t a t' ⟨h1, bs, h2⟩ hs => by
      obtain ⟨h3, h4⟩ := hok bs _ h2
      refine ⟨h1.step h3 h4 hs, ?_⟩
      have h5 : trun e p t [a] = some t' := by simp only [trun, hs]
      exact ⟨bs ++ untimed [a], by rw [run_append h2]; exact trun_run h5⟩)
    ⟨.initial e p d t0, [], rfl⟩ h
  obtain ⟨hi, bs, hb⟩ := key
  have h1 : t.s.spent * p.read ≤ t.s.n * p.read := by
    refine Nat.mul_le_mul_right _ ?_
    unfold St.spent; split <;> omega
  rw [Nat.succ_mul]
  cases hc : canMove e t.s with
  | false =>
    have := hi.now_idle (hok bs _ hb).2 hc hf
    omega
  | true =>
    have h4 := hi.since hf
    have h5 := hi.prompt hc
    omega

end J8a

import Verif.Lemmas.MachineFlags
import Verif.Spec.Schedule
/-!
# The handler's steps: a measure, and when it can move
-/
namespace J8a
open Go

variable {K : Type}

/-- An upper bound on the number of steps to the end without another attempt. -/
def PC.rank : PC → Nat
  | .scaffold => 30
  | .selHeader => 29
  | .retHeader => 28
  | .procCheck _ _ => 27
  | .selBody => 26
  | .retBody => 25
  | .setBody _ _ => 24
  | .chkDwn _ => 23
  | .chkUp _ => 22
  | .chkResp _ => 21
  | .branch => 20
  | .jsonStatus => 19
  | .okHeaders => 19
  | .okStatus _ => 18
  | .okEncode _ _ => 17
  | .okLength _ _ _ => 16
  | .okEnc1 _ _ _ => 15
  | .okEnc2 _ _ _ => 14
  | .okSend _ _ _ => 13
  | .retry1 => 10
  | .retry2 _ => 9
  | .next => 8
  | .final1 => 7
  | .final2 => 6
  | .sendJson _ _ => 5
  | .log1 => 4
  | .log2 => 3
  | .done => 0
  | .panicked => 0

/-- The largest number of attempts (C45). -/
def attemptLimit (e : Env) : Nat := max 1 e.maxAttempts.toNat

/-- Decreases with each step of the handler. -/
def stepsLeft (e : Env) (s : St) : Nat := 30 * (attemptLimit e - s.n) + s.pc.rank

theorem stepsLeft_main {e : Env} {s s' : St} {c : Choice} (hi : CountInv e s)
    (hm : stepMain e s c = some s') : stepsLeft e s' < stepsLeft e s := by
  have hnext := hi.next
  clear hi
  unfold stepsLeft
  main_cases s hm hpc <;> simp only [upd_n, noteUp_n, noteDwn_n, abortAll_n, PC.rank] <;>
    first | omega | skip
  obtain ⟨-, h⟩ := hnext hpc
  unfold attemptLimit
  omega

theorem stepsLeft_other {e : Env} {s s' : St} (h : Frame s s') : stepsLeft e s' = stepsLeft e s := by
  unfold stepsLeft; rw [h.n, h.pc]

/-- Number of steps of the handler in a schedule. -/
def mainSteps (as : List Act) : Nat := as.countP fun a => match a with
  | .main _ => true
  | _ => false

theorem mainSteps_le {e : Env} {s s' : St} {as : List Act} (hi : CountInv e s)
    (h : run e s as = some s') : mainSteps as + stepsLeft e s' ≤ stepsLeft e s := by
  induction as generalizing s with
  | nil => rw [run] at h; cases h; simp [mainSteps]
  | cons a as ih =>
    obtain ⟨t, ht, h⟩ := run_cons h
    have := ih (hi.step ht) h
    unfold mainSteps at this ⊢
    rw [List.countP_cons]
    rcases step_cases' ht with hf | ⟨c, rfl, hm⟩
    · rw [stepsLeft_other hf] at this
      cases a
      case main c =>
        have := stepsLeft_main hi ht
        rw [stepsLeft_other hf] at this
        omega
      all_goals simp; omega
    · have := stepsLeft_main hi hm
      simp
      omega

/-- Waiting for an upstream. -/
def PC.waiting : PC → Prop
  | .selHeader | .selBody => True
  | _ => False

theorem enabled_of_not_waiting {e : Env} {s : St} (hw : ¬ s.pc.waiting) (hf : ¬ s.pc.finished) :
    Enabled e s := by
  refine ⟨.complete, ?_⟩
  cases hpc : s.pc <;> simp only [hpc, PC.waiting, PC.finished, not_true_eq_false] at hw hf <;>
    simp only [stepMain, hpc] <;> (repeat' split) <;> exact ⟨_, rfl⟩

theorem enabled_of_ctxDone {e : Env} {s : St} (hc : s.curA.ctxDone = true)
    (hf : ¬ s.pc.finished) : Enabled e s := by
  by_cases hw : s.pc.waiting
  · refine ⟨.atmptAborted, ?_⟩
    cases hpc : s.pc <;> simp only [hpc, PC.waiting] at hw <;>
      simp only [stepMain, hpc, hc, if_true] <;> exact ⟨_, rfl⟩
  · exact enabled_of_not_waiting hw hf

end J8a

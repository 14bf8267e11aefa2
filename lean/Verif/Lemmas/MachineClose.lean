import Verif.Lemmas.MachineFlags
/-!
# Closing of the completion channels
-/
namespace J8a
open Go

variable {K : Type}

/-- Before the body goroutine of the current attempt is started. -/
def PC.beforeBody : PC → Prop
  | .scaffold | .selHeader | .retHeader | .procCheck _ _ => True
  | _ => False

def BG.isFinished : BG → Bool
  | .finished _ => true
  | _ => false

/-- A channel is closed by the last step of its goroutine. -/
structure CloseInv (s : St) : Prop where
  hdr : ∀ k, (s.atmpt k).hg = .finished ∧ (s.atmpt k).hdrClosed ≤ 1 ∨ (s.atmpt k).hdrClosed = 0
  body : ∀ k, (s.atmpt k).bg.isFinished ∧ (s.atmpt k).bodyClosed ≤ 1 ∨ (s.atmpt k).bodyClosed = 0
  idle : s.pc = .scaffold → s.curA.hg = .idle
  idleB : s.pc.beforeBody → s.curA.bg = .idle

theorem CloseInv.step {e : Env} {s s' : St} {a : Act} (hi : CloseInv s)
    (h : step e s a = some s') : CloseInv s' := by
  obtain ⟨h1, h2, h3, h4⟩ := hi
  unfold St.curA at h3 h4
  refine ⟨?_, ?_, ?_, ?_⟩
  · intro k
    have h1k := h1 k
    clear h1 h2 h4
    cases a
    case main c =>
      simp only [J8a.step] at h
      main_cases s h hpc <;> simp only [upd_atmpt, abortAll_atmpt, noteUp_atmpt, noteDwn_atmpt] <;>
        (repeat' split) <;> first | exact h1k | grind
    all_goals
      step_cases h <;> simp only [upd_atmpt, abortAll_atmpt, noteUp_atmpt, noteDwn_atmpt] <;>
        (repeat' split) <;> first | exact h1k | grind
  · intro k
    have h2k := h2 k
    clear h1 h2 h3
    cases a
    case main c =>
      simp only [J8a.step] at h
      main_cases s h hpc <;> simp only [upd_atmpt, abortAll_atmpt, noteUp_atmpt, noteDwn_atmpt] <;>
        (repeat' split) <;> first | exact h2k | grind [PC.beforeBody, BG.isFinished]
    all_goals
      step_cases h <;> simp only [upd_atmpt, abortAll_atmpt, noteUp_atmpt, noteDwn_atmpt] <;>
        (repeat' split) <;> first | exact h2k | grind [BG.isFinished]
  · unfold St.curA
    clear h1 h2 h4
    cases a
    case main c =>
      simp only [J8a.step] at h
      main_cases s h hpc <;> simp_all [St.cur]
    all_goals
      step_cases h <;> simp only [upd_atmpt, upd_pc, upd_cur] <;>
        (repeat' split) <;> first | exact h3 | grind [St.cur, upd_n]
  · unfold St.curA
    clear h1 h2 h3
    cases a
    case main c =>
      simp only [J8a.step] at h
      main_cases s h hpc <;> simp only [PC.beforeBody, false_imp_iff, true_imp_iff, hpc] at h4 ⊢ <;>
        simp_all [St.cur, upd_atmpt, abortAll_atmpt] <;> (repeat' split) <;> simp_all
    all_goals
      step_cases h <;> simp only [upd_atmpt, upd_pc, upd_cur] <;>
        (repeat' split) <;> first | exact h4 | grind [St.cur, upd_n]

theorem CloseInv.initial (d : Decision) : CloseInv (initial d) := by
  have noA : noAtmpt.hdrClosed = 0 ∧ noAtmpt.bodyClosed = 0 ∧ noAtmpt.hg = .idle ∧
    noAtmpt.bg = .idle := ⟨rfl, rfl, rfl, rfl⟩
  cases d <;> constructor <;> simp [J8a.initial, St.curA, St.cur, noA]
  all_goals intro k; split <;> simp [noA]

end J8a

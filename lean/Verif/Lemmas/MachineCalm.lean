import Verif.Lemmas.MachineRun
/-!
# Executions that are always orderly
-/
namespace J8a
open Go

/-- A write by a goroutine that is possible belongs to an unfinished goroutine of an attempt. -/
theorem late_step {e : Env} {s s' : St} {a : Act} (h : step e s a = some s') (hl : a.late s) :
    ∃ i, i < s.n ∧ i ≠ s.cur ∧ ((s.atmpt i).hg = .returned ∨
      (∃ r, (s.atmpt i).bg = .started r) ∨ ∃ r, (s.atmpt i).bg = .read r) := by
  cases a <;> simp only [Act.late] at hl <;> simp only [step, stepOther] at h <;>
    (repeat' split at h) <;> cases h <;> exact ⟨_, ‹_›, hl, by simp_all⟩

/-- With one attempt nothing is late. -/
theorem orderly_of_single {e : Env} {s t : St} {as : List Act} (hc : CountInv e s)
    (hp : 0 < s.n) (h1 : e.method ∉ repeatableMethods ∨ e.maxAttempts ≤ 1)
    (h : run e s as = some t) : Orderly e s as := by
  induction as generalizing s with
  | nil => trivial
  | cons a as ih =>
    obtain ⟨u, hu, h⟩ := run_cons h
    refine ⟨fun hl => ?_, fun u' hu' => ?_⟩
    · obtain ⟨i, hi, hne, -⟩ := late_step hu hl
      have : s.n ≤ 1 := by
        rcases hc.bound with hb | ⟨hb, hb'⟩
        · exact hb
        · rcases h1 with h1 | h1
          · exact absurd hb h1
          · omega
      unfold St.cur at hne
      omega
    · rw [hu] at hu'
      cases hu'
      exact ih (hc.step hu) (pos_step hu hp) h

def BG.quiet : BG → Prop
  | .idle | .finished _ => True
  | _ => False

/-- Where the goroutines of the current attempt are if its context was not cancelled. -/
def PC.calm (a : Atmpt) : PC → Prop
  | .scaffold | .selHeader => a.bg = .idle
  | .retHeader | .procCheck _ _ => a.hg = .finished ∧ a.bg = .idle
  | .selBody => a.hg = .finished
  | .retBody | .setBody _ _ | .chkDwn _ | .chkUp _ | .chkResp _ | .retry1 | .retry2 _ | .next =>
    a.hg = .finished ∧ a.bg.quiet
  | _ => True

/-- No goroutine of an earlier attempt is left. -/
structure Calm (s : St) : Prop where
  old : ∀ k < s.n, k ≠ s.cur → (s.atmpt k).hg = .finished ∧ (s.atmpt k).bg.quiet
  cur : s.dwnFlag = true ∨ s.curA.ctxDone = false ∧ s.pc.calm s.curA

theorem quiet_of_finished {b : BG} (h : b.isFinished = true) : b.quiet := by
  cases b <;> simp_all [BG.isFinished, BG.quiet]

theorem CurMove.calm {a a' : Atmpt} (hm : CurMove a a') (p : PC) (h : p.calm a) : p.calm a' := by
  cases hm <;> first
    | exact h
    | (cases p <;> simp_all [PC.calm, BG.quiet])

theorem other_old {s s' : St} {a : Act} (h : stepOther s a = some s') (k : Nat)
    (h1 : (s.atmpt k).hg = .finished) (h2 : (s.atmpt k).bg.quiet) :
    (s'.atmpt k).hg = .finished ∧ (s'.atmpt k).bg.quiet := by
  cases a <;> simp only [stepOther] at h <;> (repeat' split at h) <;> cases h <;>
    simp only [upd_atmpt] <;> (repeat' split) <;> first
      | exact ⟨h1, h2⟩
      | (subst_vars; simp_all [BG.quiet]; done)

theorem other_ctx {s s' : St} {a : Act} (h : stepOther s a = some s')
    (ht : ∀ i, a ≠ .atmptTimer i) (k : Nat) : (s'.atmpt k).ctxDone = (s.atmpt k).ctxDone := by
  cases a <;> simp only [stepOther] at h <;> (repeat' split at h) <;> cases h <;>
    simp only [upd_atmpt] <;> (repeat' split) <;> first
      | rfl
      | exact absurd rfl (ht _)

theorem Calm.late {s : St} (hc : Calm s) {e : Env} {s' : St} {a : Act}
    (h : step e s a = some s') : ¬ a.late s := by
  intro hl
  obtain ⟨i, hi, hne, hx⟩ := late_step h hl
  obtain ⟨h1, h2⟩ := hc.old i hi hne
  rcases hx with hx | ⟨r, hx⟩ | ⟨r, hx⟩
  · rw [h1] at hx; cases hx
  · rw [hx] at h2; exact h2
  · rw [hx] at h2; exact h2

/-- The handler touches the goroutines of the current attempt only. -/
theorem main_old {e : Env} {s s' : St} {c : Choice} (hm : stepMain e s c = some s') (k : Nat)
    (hk : k < s.n) (hne : k ≠ s.cur) :
    (s'.atmpt k).hg = (s.atmpt k).hg ∧ (s'.atmpt k).bg = (s.atmpt k).bg := by
  main_cases s hm hpc <;>
    simp only [upd_atmpt, abortAll_atmpt, noteUp_atmpt, noteDwn_atmpt] <;>
    (repeat' split) <;> first
      | exact ⟨rfl, rfl⟩
      | exact ⟨trivial, trivial⟩
      | omega
      | contradiction

theorem Calm.main {e : Env} {s s' : St} {c : Choice} (hm : stepMain e s c = some s')
    (hi : Inv e s) (hcl : CloseInv s) (hc : Calm s) : Calm s' := by
  have hp := hi.pos
  obtain ⟨h1, h2⟩ := hc
  constructor
  · intro k hk hne
    rcases step_n (a := .main c) hm with hn | ⟨hpc, hn, -, -, hat⟩
    · have hcur : s'.cur = s.cur := by unfold St.cur; rw [hn]
      rw [hcur] at hne
      rw [hn] at hk
      obtain ⟨k1, k2⟩ := main_old hm k hk hne
      rw [k1, k2]
      exact h1 k hk hne
    · have hcur : s'.cur = s.n := by unfold St.cur; rw [hn]; rfl
      rw [hcur] at hne
      rw [hat]
      simp only [if_neg hne]
      by_cases hk' : k = s.cur
      · subst hk'
        rcases h2 with h2 | h2
        · exfalso
          rcases hi.dwn h2 with h | h <;> rw [hpc] at h <;> exact h.1
        · rw [hpc] at h2
          exact h2.2
      · exact h1 k (by omega) hk'
  · have hc1 := hcl.hdr s.cur
    have hc2 := hcl.body s.cur
    have hfl := hi.flag.up s.cur
    unfold St.curA at h2 ⊢
    clear h1 hi hcl
    main_cases s hm hpc <;> simp only [hpc, PC.calm] at h2 ⊢ <;>
      grind [upd_dwnFlag, noteUp_dwnFlag, noteDwn_dwnFlag, abortAll_dwnFlag,
        upd_atmpt, abortAll_atmpt, noteUp_atmpt, noteDwn_atmpt, St.cur, St.curA, upd_n, noteUp_n,
        noteDwn_n, abortAll_n, BG.quiet, quiet_of_finished]

theorem Calm.other {s s' : St} {a : Act} (h : stepOther s a = some s') (hl : ¬ a.late s)
    (ht : ∀ i, a ≠ .atmptTimer i) (hc : Calm s) : Calm s' := by
  have hf := other_frame h
  constructor
  · intro k hk hne
    rw [hf.cur] at hne
    rw [hf.n] at hk
    obtain ⟨k1, k2⟩ := hc.old k hk hne
    exact other_old h k k1 k2
  · rw [hf.dwnFlag, hf.pc]
    refine hc.cur.imp id fun ⟨h1, h2⟩ => ⟨?_, (other_cur h hl).calm _ h2⟩
    unfold St.curA at h1 ⊢
    rw [hf.cur, other_ctx h ht]
    exact h1

theorem Calm.initial (r : Route) (u : URL) (l : Str) : Calm (initial (.forward r u l)) := by
  constructor
  · intro k hk hne
    simp [J8a.initial, St.cur] at hk hne
    omega
  · exact .inr ⟨rfl, rfl⟩

/-- Without read timeouts nothing is late. -/
theorem orderly_of_no_timeout {e : Env} {s t : St} {as : List Act} (hi : Inv e s)
    (hcl : CloseInv s) (hc : Calm s) (ht : ∀ a ∈ as, ∀ i, a ≠ .atmptTimer i)
    (h : run e s as = some t) : Orderly e s as := by
  induction as generalizing s with
  | nil => trivial
  | cons a as ih =>
    obtain ⟨u, hu, h⟩ := run_cons h
    refine ⟨hc.late hu, fun u' hu' => ?_⟩
    rw [hu] at hu'
    cases hu'
    refine ih (hi.step hu) (hcl.step hu) ?_ (fun b hb => ht b (List.mem_cons_of_mem _ hb)) h
    have hl := hc.late hu
    have hta := ht a List.mem_cons_self
    cases a
    case main c => exact hc.main hu hi hcl
    all_goals
      simp only [J8a.step] at hu
      exact hc.other hu hl hta

/-- A handler that asks no upstream has no late writes. -/
theorem Still.orderly {e : Env} {s t : St} {as : List Act} (hs : Still s)
    (h : J8a.run e s as = some t) : Orderly e s as := by
  induction as generalizing s with
  | nil => trivial
  | cons a as ih =>
    obtain ⟨u, hu, h⟩ := run_cons h
    refine ⟨fun hl => ?_, fun u' hu' => ?_⟩
    · obtain ⟨i, hi, -⟩ := late_step hu hl
      rw [hs.n] at hi
      exact Nat.not_lt_zero _ hi
    · rw [hu] at hu'
      cases hu'
      exact ih (hs.step hu) h

/-- Without late writes the response is there when it is needed. -/
theorem OrdInv.nilDeref {e : Env} {s : St} (h : OrdInv e s) : ¬ NilDeref e s := by
  rintro ⟨hr, hn⟩
  have hp := h.pc
  have hh := h.hdr
  have key : ∀ r, Got s.curA r → False := by
    intro r hg
    unfold HdrOk at hh
    rw [hg.1] at hh
    rw [hh.2, hg.2.1] at hr
    cases hr
  unfold PcOk at hp
  cases hpc : s.pc <;> simp only [hpc] at hp hn
  case chkResp => obtain ⟨r, hg, -⟩ := hp; exact key r hg
  case okHeaders => obtain ⟨r, hg, -⟩ := hp; exact key r hg.1
  case okLength => obtain ⟨r, hg, -⟩ := hp; exact key r hg.1
  case okEnc2 => obtain ⟨r, hg, -⟩ := hp; exact key r hg.1
  case log2 => rw [hr] at hp; simp at hp

end J8a

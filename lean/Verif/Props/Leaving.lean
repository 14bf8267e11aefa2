import Verif.Model.Leaving
import Verif.Props.Timed
/-!
# C146 — a client that goes away stops the work for it
-/
namespace J8a
open Go

variable {K : Type}

/-- An execution of the request `x`, parsed at `start`, its body read at `t0`, the client still being there. -/
def Setup.crun (x : Setup K) (start t0 eps : Nat) (as : List CAct) : Option CSt :=
  J8a.crun x.env (Pace.ofConfig x.c start eps) ⟨tinitial x.dec t0, false⟩ as

/-- The execution without the client. -/
def CAct.timed : CAct → List TAct
  | .leave => []
  | .act a => [a]

theorem trun_append {e : Env} {p : Pace} {t : TSt} (as bs : List TAct) :
    trun e p t (as ++ bs) = (trun e p t as).bind fun t' => trun e p t' bs := by
  induction as generalizing t with
  | nil => rfl
  | cons a as ih =>
    rw [List.cons_append, trun, trun]
    cases tstep e p t a with
    | none => rfl
    | some t' => exact ih

theorem crun_append {e : Env} {p : Pace} {c : CSt} (as bs : List CAct) :
    crun e p c (as ++ bs) = (crun e p c as).bind fun c' => crun e p c' bs := by
  induction as generalizing c with
  | nil => rfl
  | cons a as ih =>
    rw [List.cons_append, crun, crun]
    cases cstep e p c a with
    | none => rfl
    | some t' => exact ih

/-- Leaving has no influence on the rest. -/
theorem crun_timed {e : Env} {p : Pace} (as : List CAct) (c : CSt) :
    (crun e p c as).map (·.t) = trun e p c.t (as.flatMap CAct.timed) := by
  induction as generalizing c with
  | nil => rfl
  | cons a as ih =>
    cases a with
    | leave => exact ih _
    | act a =>
      rw [List.flatMap_cons]
      show (match (tstep e p c.t a).map fun t => ({ c with t } : CSt) with
        | none => none
        | some c' => crun e p c' as).map _ = (match tstep e p c.t a with
        | none => none
        | some t' => trun e p t' (as.flatMap CAct.timed))
      cases tstep e p c.t a with
      | none => rfl
      | some t' => exact ih _

/-- The statement of C146: after the client has left no call of an upstream begins. -/
def NoCallAfterLeaving : Prop := ∀ (x : Setup Nat) (start t0 eps : Nat) (as bs : List CAct) (c c' : CSt),
  x.crun start t0 eps (as ++ [.leave]) = some c →
  J8a.crun x.env (Pace.ofConfig x.c start eps) c bs = some c' → c'.t.s.calls.length = c.t.s.calls.length

/-- C146 fails always: whatever is done for a client that stays is done for one that leaves, at any moment. -/
theorem C146_violated_always (x : Setup K) (start t0 eps : Nat) (as bs : List TAct) (t : TSt)
    (h : trun x.env (Pace.ofConfig x.c start eps) (tinitial x.dec t0) (as ++ bs) = some t) :
    x.crun start t0 eps (as.map .act ++ [.leave] ++ bs.map .act) = some ⟨t, true⟩ := by
  have hm : ∀ l : List TAct, (l.map CAct.act).flatMap CAct.timed = l := by
    intro l
    induction l with
    | nil => rfl
    | cons a l ih => simp [List.flatMap_cons, CAct.timed, ih]
  have h1 := crun_timed (e := x.env) (p := Pace.ofConfig x.c start eps) (as.map .act ++ [.leave] ++ bs.map .act)
    ⟨tinitial x.dec t0, false⟩
  rw [List.flatMap_append, List.flatMap_append, hm, hm] at h1
  have h2 : [CAct.leave].flatMap CAct.timed = [] := rfl
  rw [h2, List.append_nil, h] at h1
  unfold Setup.crun
  rw [List.append_assoc, crun_append] at h1 ⊢
  cases ha : crun x.env (Pace.ofConfig x.c start eps) ⟨tinitial x.dec t0, false⟩ (as.map .act) with
  | none => rw [ha] at h1; cases h1
  | some c1 =>
    rw [ha, Option.bind_some] at h1
    rw [Option.bind_some]
    have hg : ∀ (l : List TAct) (c c' : CSt), crun x.env (Pace.ofConfig x.c start eps) c (l.map .act) = some c' →
        c'.gone = c.gone := by
      intro l
      induction l with
      | nil => intro c c' h; cases h; rfl
      | cons a l ih =>
        intro c c' h
        rw [List.map_cons, crun] at h
        cases hs : cstep x.env (Pace.ofConfig x.c start eps) c (.act a) with
        | none => rw [hs] at h; cases h
        | some c2 =>
          rw [hs] at h
          rw [ih _ _ h]
          simp only [cstep] at hs
          cases ht : tstep x.env (Pace.ofConfig x.c start eps) c.t a with
          | none => rw [ht] at hs; cases hs
          | some t2 => rw [ht] at hs; cases hs; rfl
    show crun x.env (Pace.ofConfig x.c start eps) { c1 with gone := true } (bs.map .act) = _
    have h1' : (crun x.env (Pace.ofConfig x.c start eps) { c1 with gone := true } (bs.map .act)).map (·.t) = some t := h1
    cases hb : crun x.env (Pace.ofConfig x.c start eps) { c1 with gone := true } (bs.map .act) with
    | none => rw [hb] at h1'; cases h1'
    | some c2 =>
      rw [hb] at h1'
      have e1 : c2.t = t := Option.some.inj h1'
      have e2 : c2.gone = true := hg _ _ _ hb
      cases c2
      cases e1
      cases e2
      rfl

/-- Nothing is cancelled. -/
def St.Calm (s : St) : Prop := s.dwnFired = false ∧ ∀ k, (s.atmpt k).ctxDone = false

/-- Is it a timer? -/
def Act.isTimer : Act → Bool
  | .dwnTimer => true
  | .atmptTimer _ => true
  | _ => false

theorem calm_main {e : Env} {s s' : St} {c : Choice} (h : s.Calm) (hs : stepMain e s c = some s') : s'.Calm := by
  have hd := h.1
  have hc : s.curA.ctxDone = false := h.2 _
  cases hp : s.pc <;> simp only [stepMain, hp, hd, hc, Bool.false_eq_true, if_false] at hs
  all_goals repeat' split at hs
  all_goals first
    | (cases hs; done)
    | (cases hs
       refine ⟨by first | exact hd | rfl, fun k => ?_⟩
       dsimp only [St.upd, St.noteUp, St.noteDwn]
       repeat' split
       all_goals first
         | rfl
         | exact h.2 _)

theorem calm_step {e : Env} {s s' : St} {a : Act} (h : s.Calm) (ha : a.isTimer = false) (hs : step e s a = some s') :
    s'.Calm := by
  have hd := h.1
  cases a with
  | main c => exact calm_main h hs
  | dwnTimer => cases ha
  | atmptTimer i => cases ha
  | _ =>
    simp only [step, stepOther] at hs
    repeat' split at hs
    all_goals first
      | (cases hs; done)
      | (cases hs
         refine ⟨hd, fun k => ?_⟩
         dsimp only [St.upd]
         repeat' split
         all_goals first
           | rfl
           | exact h.2 _)

/-- Is it a timer? -/
def TAct.isTimer : TAct → Bool
  | .wait _ => false
  | .act a => a.isTimer

theorem calm_trun {e : Env} {p : Pace} {as : List TAct} (ha : ∀ a ∈ as, a.isTimer = false) {t t' : TSt} (h : t.s.Calm)
    (hr : trun e p t as = some t') : t'.s.Calm := by
  induction as generalizing t with
  | nil => cases hr; exact h
  | cons a as ih =>
    rw [trun] at hr
    cases hs : tstep e p t a with
    | none => rw [hs] at hr; cases hr
    | some t1 =>
      rw [hs] at hr
      refine ih (fun b hb => ha b (List.mem_cons_of_mem _ hb)) ?_ hr
      cases a with
      | wait d =>
        simp only [tstep] at hs
        split at hs
        · cases hs; exact h
        · cases hs
      | act a =>
        simp only [tstep] at hs
        split at hs
        · cases hs
        · rename_i s1 hs1
          cases hs
          exact calm_step h (ha _ List.mem_cons_self) hs1

/-- C146 fails for attempts under way: as long as no timer fires none is cancelled, whether the client is there or not. -/
theorem C146_violated_uncancelled (x : Setup K) (start t0 eps : Nat) (as : List CAct)
    (ha : ∀ a, .act a ∈ as → a.isTimer = false) (c : CSt) (h : x.crun start t0 eps as = some c) (k : Nat) :
    (c.t.s.atmpt k).ctxDone = false := by
  have h1 := crun_timed (e := x.env) (p := Pace.ofConfig x.c start eps) as ⟨tinitial x.dec t0, false⟩
  unfold Setup.crun at h
  rw [h] at h1
  refine (calm_trun (as := as.flatMap CAct.timed) ?_ ?_ h1.symm).2 k
  · intro a hm
    obtain ⟨b, hb, hm⟩ := List.mem_flatMap.1 hm
    cases b with
    | leave => cases hm
    | act b =>
      rw [List.mem_singleton.1 hm]
      exact ha b hb
  · show (initial x.dec).Calm
    unfold initial
    split
    · exact ⟨rfl, fun _ => rfl⟩
    · refine ⟨rfl, fun k => ?_⟩
      dsimp only
      split <;> rfl
    · exact ⟨rfl, fun _ => rfl⟩

/-- **C146**, what is left of it: the work for a client, gone or not, ends with the round trip timeout. Missing: that it ends
when the client leaves. -/
theorem C146_bounded_partial (x : Setup K) (start t0 eps : Nat) (as : List CAct) (c : CSt)
    (h : x.crun start t0 eps as = some c) (hfit : Fits x.c.connection.downstream.roundTripTimeoutSeconds)
    (hlate : max t0 (start + seconds x.c.connection.downstream.roundTripTimeoutSeconds) + 31 * eps < c.t.now) :
    Answered c.t.s := by
  have h1 := crun_timed (e := x.env) (p := Pace.ofConfig x.c start eps) as ⟨tinitial x.dec t0, false⟩
  unfold Setup.crun at h
  rw [h] at h1
  exact C96_answered_by x start t0 eps c.t ⟨_, h1.symm⟩ hfit hlate

/-- The client leaves before anything is done; the upstream is silent. -/
def leavesAtOnce : List CAct :=
  .leave :: (Demo.waits 0 ++ List.replicate 5 (TAct.act Demo.go) ++ Demo.waits 1).map CAct.act

/-- Two attempts of ten seconds each are made for nobody. -/
example : ((Demo.timed 30 10).crun 0 0 1000000 leavesAtOnce).map
    (fun c => (c.gone, c.t.now, c.t.s.n, c.t.s.calls.length)) = some (true, 20002000000, 2, 2) := by decide +kernel

theorem C146_violated : ¬ NoCallAfterLeaving := by
  intro h
  cases hc : (Demo.timed 30 10).crun 0 0 1000000 leavesAtOnce with
  | none =>
    have : ((Demo.timed 30 10).crun 0 0 1000000 leavesAtOnce).isSome = true := by decide +kernel
    rw [hc] at this
    cases this
  | some c' =>
    have h2 : ((Demo.timed 30 10).crun 0 0 1000000 leavesAtOnce).map (fun c => c.t.s.calls.length) = some 2 := by
      decide +kernel
    rw [hc] at h2
    have := h (Demo.timed 30 10) 0 0 1000000 [] leavesAtOnce.tail _ c' rfl hc
    have h3 : c'.t.s.calls.length = 2 := Option.some.inj h2
    rw [h3] at this
    exact absurd this (by decide +kernel)

end J8a

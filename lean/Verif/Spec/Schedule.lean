import Verif.Model.Machine
/-!
# Schedules

The goroutines of an abandoned attempt may still be running when the next attempt is under way, and
the code makes them write into whichever attempt is current (proxyhandler.go:156, 204, 207). Such a
write is late. An execution without late writes is called orderly.
-/
namespace J8a

/-- A goroutine writes into an attempt that is not its own. -/
def Act.late (s : St) : Act → Prop
  | .hgWrite i => i ≠ s.cur
  | .bgStatus i => i ≠ s.cur
  | .bgGzip i => i ≠ s.cur
  | _ => False

/-- `Orderly e s as`: none of the actions, executed from `s`, is a late write. -/
def Orderly (e : Env) (s : St) : List Act → Prop
  | [] => True
  | a :: as => ¬ a.late s ∧ ∀ t, step e s a = some t → Orderly e t as

/-- The next step of the handler dereferences the upstream response of the current attempt
(proxyhandler.go:281, proxy.go:398, 469, 439), and it is nil. -/
def NilDeref (e : Env) (s : St) : Prop :=
  s.curA.resp = none ∧
  match s.pc with
  | .chkResp err => err = false
  | .okHeaders => True
  | .okLength h code _ => lengthIsZero e.toRespEnv h code = false ∧ e.method = "HEAD".toList
  | .okEnc2 _ _ _ => True
  | .log2 => True
  | _ => False

/-- The handler is at its end. -/
def PC.finished : PC → Prop
  | .done | .panicked => True
  | _ => False

/-- The handler can make a step. -/
def Enabled (e : Env) (s : St) : Prop := ∃ c s', stepMain e s c = some s'

/-- An infinite execution; a step may also leave the state as it is. -/
def InfRun (e : Env) (σ : Nat → St) : Prop :=
  ∀ i, σ (i + 1) = σ i ∨ ∃ a, step e (σ i) a = some (σ (i + 1))

/-- Some step of the handler happens at time `i`. -/
def MainAt (e : Env) (σ : Nat → St) (i : Nat) : Prop := ∃ c, stepMain e (σ i) c = some (σ (i + 1))

/-- The scheduler runs the handler if it stays able to run, and the read timer of every attempt fires
or its context is cancelled otherwise. Nothing is assumed about upstreams, the other goroutines and
the round trip timer. -/
structure Fair (e : Env) (σ : Nat → St) : Prop where
  handler : ∀ i, (∀ j, i ≤ j → Enabled e (σ j)) → ∃ j, i ≤ j ∧ MainAt e σ j
  timer : ∀ i k, k < (σ i).n → ((σ i).atmpt k).hasCancel = true →
    ∃ j, i ≤ j ∧ ((σ j).atmpt k).ctxDone = true

end J8a

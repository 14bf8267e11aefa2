import Verif.Model.Handler
import Verif.Model.JwtAuth
/-!
# Time: the machine of `Model/Machine.lean` with a clock

Durations are in nanoseconds. Three things are assumed of time.

* The round trip timer, started at proxy.go:203, has fired when its deadline has passed.
* The read timer of an attempt, started at proxyhandler.go:113, has fired when its deadline has passed.
* The handler goroutine, as soon as it is able to take a step, takes it within `eps`. The time that
  the step itself takes counts, in particular that of writing the response to the client.

Nothing is assumed about upstreams or about the other goroutines of the request: they may take any
time for a step, or never take it. Waiting does not happen while something assumed above is overdue.
-/
namespace J8a
open Go

/-- The constants of time. -/
structure Pace where
  /-- time within which the handler takes a step it is able to take -/
  eps : Nat
  /-- when the round trip timer is due -/
  down : Nat
  /-- duration of the read timer of an attempt -/
  read : Nat

/-- config.go:260-262, proxyhandler.go:113: the configured durations, for a request parsed at `start`
(proxy.go:196). A timer with a negative duration is due at once. -/
def Pace.ofConfig {J : Type} (c : Config J) (start eps : Nat) : Pace where
  eps := eps
  down := start + (secondsDuration c.connection.downstream.roundTripTimeoutSeconds).toNat
  read := (secondsDuration c.connection.upstream.readTimeoutSeconds).toNat

/-- A state with the time, the time since which the handler is able to take its next step (if it is),
and the times at which the read timers were started. -/
structure TSt where
  s : St
  now : Nat
  since : Nat
  start : Nat → Nat

/-- Time passes, or something happens. -/
inductive TAct where
  | wait (d : Nat)
  | act (a : Act)

/-- Is the handler able to take a step? -/
def canMove (e : Env) (s : St) : Bool :=
  (stepMain e s .complete).isSome || (stepMain e s .atmptAborted).isSome ||
    (stepMain e s .dwnAborted).isSome

/-- May the time be `u`? -/
def mayBe (e : Env) (p : Pace) (t : TSt) (u : Nat) : Prop :=
  (canMove e t.s = true → u ≤ t.since + p.eps) ∧
  (t.s.dwnFired = false → u ≤ max t.now p.down) ∧
  ∀ i < t.s.n, (t.s.atmpt i).hasCancel = true → (t.s.atmpt i).ctxDone = false →
    u ≤ t.start i + p.read

instance (e : Env) (p : Pace) (t : TSt) (u : Nat) : Decidable (mayBe e p t u) := by
  unfold mayBe; infer_instance

/-- Is it a step of the handler? -/
def Act.isMain : Act → Bool
  | .main _ => true
  | _ => false

/-- Is the handler about to start the read timer (proxyhandler.go:113)? -/
def PC.isScaffold : PC → Bool
  | .scaffold => true
  | _ => false

def tstep (e : Env) (p : Pace) (t : TSt) : TAct → Option TSt
  | .wait d => if mayBe e p t (t.now + d) then some { t with now := t.now + d } else none
  | .act a =>
    match step e t.s a with
    | none => none
    | some s' => some {
        s := s'
        now := t.now
        since := if a.isMain || !canMove e t.s then t.now else t.since
        start := if a.isMain && t.s.pc.isScaffold then
            fun k => if k = t.s.cur then t.now else t.start k
          else t.start }

def trun (e : Env) (p : Pace) (t : TSt) : List TAct → Option TSt
  | [] => some t
  | a :: as =>
    match tstep e p t a with
    | none => none
    | some t' => trun e p t' as

/-- A request whose body has been read at time `t0`. -/
def tinitial (d : Decision) (t0 : Nat) : TSt := ⟨initial d, t0, t0, fun _ => 0⟩

end J8a

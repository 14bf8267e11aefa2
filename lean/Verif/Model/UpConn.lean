import Verif.Model.Reception
import Verif.Model.Wish
/-!
# httpclient.go:26-48 — the requests on one connection to an upstream

All requests share the transport, so one connection carries requests of different clients, one after the other.
`persistConn` of Go 1.15 (`roundTrip`, `readLoop`, `readLoopPeekFailLocked`; from the source as remembered) as a machine;
every lock or channel operation is a step. The pool is in `Model/Conns`. What the upstream sends arrives in any portions.
-/
namespace J8a
open Go

/-- A request that was put on the connection (`numExpectedResponses++`). -/
structure Asked where
  /-- which request -/
  tag : Nat
  method : Str
  /-- how many bytes had arrived then -/
  came : Nat
  /-- how many of them had been read -/
  start : Nat
deriving DecidableEq, Repr

/-- A response, as it was handed to the request. -/
structure Handed extends Asked where
  /-- how many bytes had been read when it came to its end -/
  stop : Nat
  w : WireResp

/-- transport.go `persistConn`. -/
structure UpConn where
  arrived : Str := []
  /-- how many of these bytes have been read -/
  pos : Nat := 0
  /-- the upstream has closed its side -/
  ended : Bool := false
  /-- it may still be used -/
  alive : Bool := true
  asking : Option Asked := none
  log : List Handed := []

def UpConn.unread (c : UpConn) : Str := c.arrived.drop c.pos

/-- The requests that were put on the connection and answered or are waiting, in their order. -/
def UpConn.asked (c : UpConn) : List Asked := c.log.map Handed.toAsked ++ c.asking.toList

/-- `readLoop`, with `shouldClose` (transfer.go): whether the connection may be used again after a response. -/
def keepsConn (h : RespHead) : Bool :=
  200 ≤ h.status && 1 ≤ h.version.1 && h.framing ≠ .untilEnd && !shouldClose h.version h.header

/-- One step. -/
inductive UpConn.Step : UpConn → UpConn → Prop
  /-- bytes arrive -/
  | arrive {c : UpConn} (bytes : Str) : c.ended = false → Step c { c with arrived := c.arrived ++ bytes }
  | ends {c : UpConn} : Step c { c with ended := true }
  /-- `roundTrip`: a request has got the connection out of the pool -/
  | ask {c : UpConn} (tag : Nat) (method : Str) : c.alive = true → c.asking = none →
      Step c { c with asking := some ⟨tag, method, c.arrived.length, c.pos⟩ }
  /-- `readLoop`, `readLoopPeekFailLocked`: there is something to read and no request; the connection is closed -/
  | unsolicited {c : UpConn} : c.asking = none → c.unread ≠ [] ∨ c.ended = true → Step c { c with alive := false }
  /-- the request is cancelled, its time is over, or what is read is no response; the connection is closed -/
  | fail {c : UpConn} (q : Asked) : c.asking = some q → Step c { c with asking := none, alive := false }
  /-- `readLoop`: a response is read; the connection is kept or not. If reading fails, it is not. -/
  | answer {c : UpConn} (q : Asked) (w : WireResp) (rest : Option Str) (h : RespHead) (after : Str) (keep : Bool) :
      c.asking = some q → Receives q.method c.unread w rest h after →
      (h.framing = .untilEnd → c.ended = true) → (keep = true → rest.isSome = true ∧ keepsConn h = true) →
      Step c { c with pos := c.arrived.length - (rest.getD []).length, asking := none, alive := keep,
                      log := c.log ++ [⟨q, c.arrived.length - (rest.getD []).length, w⟩] }

/-- Everything that can happen to a connection. -/
inductive UpConn.Reached : UpConn → Prop
  | new : Reached {}
  | step {c c' : UpConn} : Reached c → Step c c' → Reached c'

end J8a

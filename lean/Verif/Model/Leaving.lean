import Verif.Model.Timed
/-!
# A client that goes away

proxy.go:201-205 and proxyhandler.go:107-115 make their contexts from `context.TODO()`. The context of the request, which
`net/http` cancels when the client closes its connection, is read nowhere in the program; writing to a closed connection
returns an error that is dropped (proxyhandler.go:262, server.go:234). So the client's leaving is an event that changes
nothing but whether the client is there.
-/
namespace J8a

/-- A timed state, and whether the client has gone. -/
structure CSt where
  t : TSt
  gone : Bool

inductive CAct where
  /-- the client closes its connection -/
  | leave
  | act (a : TAct)

def cstep (e : Env) (p : Pace) (c : CSt) : CAct → Option CSt
  | .leave => some { c with gone := true }
  | .act a => (tstep e p c.t a).map fun t => { c with t }

def crun (e : Env) (p : Pace) (c : CSt) : List CAct → Option CSt
  | [] => some c
  | a :: as =>
    match cstep e p c a with
    | none => none
    | some c' => crun e p c' as

end J8a

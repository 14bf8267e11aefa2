import Verif.Go.Num
import Verif.Model.Mux
/-!
# server.go:83-104, config.go:260-262 — the timeouts of the listener
-/
namespace J8a
open Go

/-- `time.Second`. -/
def second : Int := 1000000000

/-- `time.Second * time.Duration(n)`: 64 bit, wraps around. -/
def timeoutSeconds (n : Int) : Int := wrap64 (second * n)

/-- config.go:260-262 `getDownstreamRoundTripTimeoutDuration`, used at proxy.go:203. -/
def Downstream.roundTripTimeout (d : Downstream) : Int := timeoutSeconds d.roundTripTimeoutSeconds

/-- server.go:85-86, 100: `WriteTimeout` of the server. -/
def Downstream.writeTimeout (d : Downstream) : Int :=
  wrap64 (timeoutSeconds d.roundTripTimeoutSeconds + second * 1)

/-- server.go:84, 99: `ReadTimeout` of the server. -/
def Downstream.readTimeout (d : Downstream) : Int := timeoutSeconds d.readTimeoutSeconds

/-- How the gateway serves, and on which port. -/
inductive Serving where
  | plain (port : Int)
  | tls (port : Int)
  /-- the process ends -/
  | exits
deriving DecidableEq, Repr

/-- server.go:113-125: `tlsStarts` is what becomes of the certificate and key (`startTls`). That the
operating system may refuse the port is left out. -/
def Downstream.serve (tlsStarts : (cert key : Str) → Bool) (d : Downstream) : Serving :=
  if d.isTLSMode then
    if tlsStarts d.cert d.key then .tls d.port else .exits
  else .plain d.port

/-- `net.Listen("tcp", ":" + port)`: what is no port is refused (net/lookup.go `LookupPort`). -/
def listen (port : Int) : Bool := decide (0 ≤ port) && decide (port ≤ 65535)

/-- server.go:74-130: the rest of `BootStrap`. The process also ends when two handlers are registered for the
same path, or one for the empty path (`ServeMux.Handle` panics), and when the port cannot be listened on. -/
def start {J : Type} (tlsStarts : (cert key : Str) → Bool) (c : Config J) : Serving :=
  match mapPathsToHandler c.routes with
  | none => .exits
  | some _ =>
    match c.connection.downstream.serve tlsStarts with
    | .plain port => if listen port then .plain port else .exits
    | .tls port => if listen port then .tls port else .exits
    | .exits => .exits

end J8a

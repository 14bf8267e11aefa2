import Verif.Model.Client
import Verif.Model.Stats
/-!
# httpclient.go:19-91 — connections to upstreams, with the parts of `http.Transport` (Go 1.15) below it

The pool as a machine: every step of a request, a dial or a connection is an action. Connections are HTTP/1.1 (the
transport has its own `DialContext` and `TLSClientConfig`). Each method of the transport that touches the pool does
so under one lock, so it is one step.
-/
namespace J8a
open Go

/-! ## The pool -/

/-- The limits of an `http.Transport`. `MaxConnsPerHost` is not set here, which means no limit. -/
structure TransportCfg where
  maxIdleConns : Int
  maxIdleConnsPerHost : Int

/-- httpclient.go:27-42. -/
def j8aTransport (u : Upstream) : TransportCfg where
  maxIdleConns := u.poolSize
  maxIdleConnsPerHost := u.poolSize

/-- transport.go `persistConn`: `key` is the scheme and address it leads to. -/
structure Conn where
  id : Nat
  key : Str
deriving DecidableEq, Repr

/-- transport.go `wantConn`: the request `w` wants a connection to `key`. -/
structure Want where
  w : Nat
  key : Str
deriving DecidableEq, Repr

/-- The transport. `idle` is in the order of `idleLRU`, oldest first; `waiting` that of `idleConnWait`. -/
structure ConnSt where
  idle : List Conn := []
  busy : List (Want × Conn) := []
  waiting : List Want := []
  dialing : List Want := []
  next : Nat := 0
deriving DecidableEq, Repr

inductive ConnAct where
  /-- a request asks for a connection (`getConn`) -/
  | want (key : Str)
  /-- a dial succeeds (`dialConnFor`) -/
  | dialed (w : Nat)
  | dialFailed (w : Nat)
  /-- a request is cancelled while it waits -/
  | cancel (w : Nat)
  /-- the response was read to its end, and the connection can be used again (`tryPutIdleConn`) -/
  | finish (id : Nat)
  /-- the connection breaks, or is not to be used again -/
  | broken (id : Nat)
  /-- an idle connection is closed, by the upstream or after `IdleConnTimeout` -/
  | expire (id : Nat)
deriving DecidableEq, Repr

/-- transport.go `maxIdleConnsPerHost`. -/
def TransportCfg.perHost (c : TransportCfg) : Int :=
  if c.maxIdleConnsPerHost ≠ 0 then c.maxIdleConnsPerHost else 2

/-- transport.go `tryPutIdleConn`. A connection that is refused is closed. -/
def putIdle (c : TransportCfg) (s : ConnSt) (x : Conn) : ConnSt :=
  if c.maxIdleConnsPerHost < 0 then s
  else match s.waiting.find? (·.key = x.key) with
    | some w => { s with waiting := s.waiting.erase w, busy := (w, x) :: s.busy }
    | none =>
      if c.perHost ≤ (s.idle.filter (·.key = x.key)).length then s
      else
        let idle := s.idle ++ [x]
        if c.maxIdleConns ≠ 0 ∧ c.maxIdleConns < idle.length then { s with idle := idle.drop 1 }
        else { s with idle := idle }

/-- The most recently used idle connection to `key` (`queueForIdleConn`). -/
def lastIdle (s : ConnSt) (key : Str) : Option Conn := s.idle.reverse.find? (·.key = key)

def connStep (c : TransportCfg) (s : ConnSt) : ConnAct → Option ConnSt
  | .want key =>
    let w : Want := ⟨s.next, key⟩
    match lastIdle s key with
    | some x => some { s with idle := s.idle.erase x, busy := (w, x) :: s.busy, next := s.next + 1 }
    | none => some { s with waiting := s.waiting ++ [w], dialing := s.dialing ++ [w], next := s.next + 1 }
  | .dialed w =>
    match s.dialing.find? (·.w = w) with
    | none => none
    | some d =>
      let x : Conn := ⟨s.next, d.key⟩
      let s := { s with dialing := s.dialing.erase d, next := s.next + 1 }
      if d ∈ s.waiting then some { s with waiting := s.waiting.erase d, busy := (d, x) :: s.busy }
      else some (putIdle c s x)
  | .dialFailed w =>
    match s.dialing.find? (·.w = w) with
    | none => none
    | some d => some { s with dialing := s.dialing.erase d, waiting := s.waiting.erase d }
  | .cancel w =>
    match s.waiting.find? (·.w = w) with
    | none => none
    | some d => some { s with waiting := s.waiting.erase d }
  | .finish id =>
    match s.busy.find? (·.2.id = id) with
    | none => none
    | some p => some (putIdle c { s with busy := s.busy.erase p } p.2)
  | .broken id =>
    match s.busy.find? (·.2.id = id) with
    | none => none
    | some p => some { s with busy := s.busy.erase p }
  | .expire id =>
    match s.idle.find? (·.id = id) with
    | none => none
    | some x => some { s with idle := s.idle.erase x }

def connRun (c : TransportCfg) (s : ConnSt) : List ConnAct → Option ConnSt
  | [] => some s
  | a :: as => match connStep c s a with
    | none => none
    | some s => connRun c s as

/-! ## One request over one or more connections -/

/-- How a try on a connection ends (transport.go `persistConn.roundTrip`, `mapRoundTripError`). -/
inductive TryEnd where
  | resp (w : WireResp)
  /-- the connection broke before a byte of the request was written -/
  | nothingWritten
  /-- `errServerClosedIdle` -/
  | closedIdle
  /-- `transportReadFromServerError` -/
  | readFailed
  /-- cancelled, a timeout, a response that is no HTTP, a connection that broke during the request -/
  | failed
deriving DecidableEq, Repr

/-- request.go `isReplayable`. A request of the gateway has no body, or one made from a byte slice (proxy.go:336-341),
which can be read again. -/
def isReplayable (q : UpReq) : Bool :=
  q.method ∈ ["GET", "HEAD", "OPTIONS", "TRACE"].map String.toList ||
    q.header "Idempotency-Key".toList ≠ [] || q.header "X-Idempotency-Key".toList ≠ []

/-- transport.go `shouldRetryRequest`. -/
def shouldRetry (reused : Bool) (q : UpReq) : TryEnd → Bool
  | .resp _ => false
  | .nothingWritten => reused
  | .closedIdle => reused && isReplayable q
  | .readFailed => reused && isReplayable q
  | .failed => false

/-- How often a try puts the request on the wire. -/
def TryEnd.written : TryEnd → Nat
  | .nothingWritten => 0
  | _ => 1

/-- transport.go `roundTrip` when `idle` connections to the upstream are idle and no other request takes or
returns one: first these, then a new one. `ends k` is how the try ends that leaves `k` idle connections; the new
connection is tried with `last`, if the dial succeeds. The result is how often the request was put on the wire, and
the response. -/
def roundTrip (q : UpReq) (ends : Nat → TryEnd) (last : Option TryEnd) : (idle : Nat) → Nat × Option WireResp
  | 0 => match last with
    | none => (0, none)
    | some (.resp w) => (1, some w)
    | some e => (e.written, none)
  | idle + 1 => match ends idle with
    | .resp w => (1, some w)
    | e => if shouldRetry true q e then
        let (n, r) := roundTrip q ends last idle
        (e.written + n, r)
      else (e.written, none)

/-! ## TCP keep-alive -/

/-- httpclient.go:76-91 `getTCPKeepCnt`, with the environment variable and `runtime.GOOS`. -/
def tcpKeepCnt (env goos : Str) : Nat :=
  let os := if env.length = 0 then goos else env
  if os = "windows".toList then 5
  else if os = "darwin".toList ∨ os = "freebsd".toList ∨ os = "openbsd".toList then 8
  else 9

/-- httpclient.go:69-74 `getKeepAliveIntervalDuration` in nanoseconds, for a timeout that is not negative:
`float64(idle) / float64(cnt) * float64(time.Second)`, cut to an integer. -/
def keepAliveNanos (idle cnt : Nat) : Nat :=
  F64.roundNat (GoFloat.divNat (F64.roundNat idle) cnt * 1000000000) / 2 ^ 1074

end J8a

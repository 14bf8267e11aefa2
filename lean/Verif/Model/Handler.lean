import Verif.Model.Machine
import Verif.Model.Responses
/-!
# proxyhandler.go:33-103 — one request from arrival to the end

Everything a request's execution depends on, put together: the request is read
(`parseRequestBody`), the handler decides (`decision`), then the attempt machine runs.
-/
namespace J8a
open Go

variable {K : Type}

/-- Process wide constants and library functions. -/
structure Server where
  /-- main.go `ID`, `Version` -/
  id : Str
  version : Str
  codec : Codec
  uriOk : Str → Bool

/-- All inputs of one execution of `proxyHandler`. -/
structure Setup (K : Type) where
  sv : Server
  E : Regexp
  L : Jwx K
  /-- the configuration after boot, and the keys as they are now -/
  c : Config (Jwt K)
  /-- `resolveLabel` (policy.go) -/
  pick : Policy → Str
  /-- Unix seconds when the token is checked -/
  now : Int
  /-- the random part of a generated request id -/
  uuid : Str
  /-- buffer sizes used when reading the body -/
  sz : Nat → Nat
  rq : Request
  /-- `rand.Int()` when an own response is written (responses.go:151) -/
  seed : Nat := 0

namespace Setup
variable (x : Setup K)

/-- The configured limit. -/
def maxBody : Int := x.c.connection.downstream.maxBodyBytes

/-- proxy.go:215. -/
def pb : ParsedBody := parseRequestBody x.sz x.maxBody x.rq

/-- proxyhandler.go:41-75. -/
def dec : Decision := decision x.E x.L x.c x.pick x.now x.pb x.rq

/-- proxy.go:198. -/
def xrid : Str := createXRequestID x.sv.id x.uuid x.rq

/-- The constants of the response. -/
def respEnv : RespEnv where
  method := parseMethod x.rq
  sendGzip := sendGzip x.rq
  tls := x.c.connection.downstream.isTLSMode
  xrid := x.xrid
  server := "j8a ".toList ++ x.sv.version ++ " ".toList ++ x.sv.id
  codec := x.sv.codec
  json := fun code msg => strBytes (statusJson x.sv.id x.sv.version x.seed code msg)

/-- The constants of the attempts. Without a matched route there are none. -/
def env : Env where
  toRespEnv := x.respEnv
  maxAttempts := x.c.connection.upstream.maxAttempts
  uriOk := x.sv.uriOk
  rq := x.rq
  pb := x.pb
  route := match x.dec with
    | .forward r _ _ => r
    | _ => { path := [] }

/-- `s` is a state of some execution. -/
def Reaches (s : St) : Prop := ∃ acts, run x.env (initial x.dec) acts = some s

end Setup
end J8a

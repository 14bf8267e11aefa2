import Verif.Model.Handler
/-!
# What the attempt machine leaves out: deferred calls and the access log

The state of the machine holds what later steps depend on. Here an execution is watched, step by step, for
effects nothing depends on: the response bodies that `handle` closes when it returns, the variables
`proxy.Dwn.Resp.StatusCode` and `Message`, and the log line of proxyhandler.go:313-344.
-/
namespace J8a
open Go

/-- An execution that is watched: `obs` sees every action together with the state in which it is taken. -/
def watch {σ : Type} (e : Env) (obs : St → Act → σ → σ) : St → σ → List Act → Option (St × σ)
  | s, w, [] => some (s, w)
  | s, w, a :: as => match step e s a with
    | none => none
    | some s' => watch e obs s' (obs s a w) as

/-! ## proxyhandler.go:84-87 -/

/-- The response of an attempt that is closed when its `handle` returns: `defer` is reached when
`performUpstreamRequest` returns (pc `retHeader`) a response. The deferred calls run when the handler ends,
also when it panics. (`Body` of a response of net/http's client is never nil.) -/
def deferred (s : St) (a : Act) (closes : List (Nat × UpResp)) : List (Nat × UpResp) :=
  match a, s.pc with
  | .main _, .retHeader => match s.curA.vResp with
    | some r => closes ++ [(s.cur, r)]
    | none => closes
  | _, _ => closes

/-! ## proxyhandler.go:313-344 `logHandledDownstreamRoundtrip` -/

inductive Level where
  | info | warn
deriving DecidableEq, Repr

/-- The fields of the line that come from the request and the response. Not modelled: path, protocol
versions, address (see iprex), dates, and the fields about the last attempt. -/
structure LogLine where
  level : Level
  /-- `dwnResErrMsg` -/
  errMsg : Option Str
  /-- `dwnReqMethod` -/
  method : Str
  /-- `dwnReqUserAgent` -/
  userAgent : Str
  /-- `dwnResCode` -/
  code : Int
  /-- `dwnResContentEnc` -/
  contentEnc : Str
  /-- `X-Request-Id` -/
  xrid : Str
deriving DecidableEq, Repr

/-- proxy.go:286-292 `parseUserAgent`. -/
def parseUserAgent (rq : Request) : Str :=
  let ua := rq.header.get "User-Agent".toList
  if ua.length = 0 then "unknown".toList else ua

/-- `proxy.Dwn.Resp.StatusCode`, `proxy.Dwn.Resp.Message`, and the lines written. -/
structure LogSt where
  code : Int := 0
  msg : Str := []
  lines : List LogLine := []
deriving DecidableEq, Repr

/-- The line, given the coding. -/
def logLine (e : Env) (w : LogSt) (enc : Str) : LogLine :=
  { level := if w.code > 399 then .warn else .info,
    errMsg := if w.code > 399 then some w.msg else none,
    method := e.method, userAgent := parseUserAgent e.rq, code := w.code, contentEnc := enc,
    xrid := e.xrid }

/-- proxy.go:434-446 `contentEncoding` at pc `log2`: the coding of the attempt's response. -/
def upEncoding (r : UpResp) : Str :=
  let ceA := r.header.values "Content-Encoding".toList
  if 0 < ceA.length then join [' '] ceA else "identity".toList

/-- What a step of the handler does to these variables. `hasDownstreamAborted` (proxy.go:115-127) sets them as
well, `sendStatusCodeAsJSON` (server.go:226-229) replaces the message. -/
def logged (e : Env) (s : St) (a : Act) (w : LogSt) : LogSt :=
  match a with
  | .main _ => match s.pc with
    | .chkDwn _ | .retry2 _ =>
      if s.noteDwn.dwnFlag then
        { w with code := 504,
                 msg := "gateway timeout triggered after downstream roundtripTimeoutSeconds".toList }
      else w
    | .final1 =>
      if s.noteDwn.dwnFlag then
        { w with code := 504, msg := "gateway timeout triggered by downstream event".toList }
      else w
    | .final2 =>
      if s.noteUp.curA.abortedFlag then
        { w with code := 504, msg := "gateway timeout triggered by upstream attempt".toList }
      else
        { w with code := 502,
                 msg := "bad gateway triggered. unable to process upstream response".toList }
    | .jsonStatus | .okStatus _ => { w with code := s.curA.statusCode, msg := "none".toList }
    | .sendJson _ _ => { w with msg := responseMessage w.code w.msg }
    | .log1 =>
      if e.sendGzip then { w with lines := w.lines ++ [logLine e w "gzip".toList] }
      else if 0 < s.n ∧ s.curA.resp.isSome ∧ ¬ s.curA.isGzip then w
      else { w with lines := w.lines ++ [logLine e w "identity".toList] }
    | .log2 => match s.curA.resp with
      | none => w
      | some r => { w with lines := w.lines ++ [logLine e w (upEncoding r)] }
    | _ => w
  | _ => w

/-- The variables when the handler has decided (proxyhandler.go:41-75). -/
def LogSt.initial : Decision → LogSt
  | .respond code msg => { code := code, msg := msg }
  | _ => {}

/-- `lines` are the log lines of the execution `as`. -/
def Setup.Logs {K : Type} (x : Setup K) (as : List Act) (s : St) (lines : List LogLine) : Prop :=
  ∃ w, watch x.env (logged x.env) (J8a.initial x.dec) (LogSt.initial x.dec) as = some (s, w) ∧
    w.lines = lines

end J8a

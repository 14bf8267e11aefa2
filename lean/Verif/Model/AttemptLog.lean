import Verif.Model.Logger
import Verif.Model.Handshake
/-!
# The log lines about the upstream attempts of a request, and the last line in full

Written by the handler: proxyhandler.go:122-128, 177-191, 225-237, 252, 266, 299-311, 345-357, proxy.go:145-147, 184-187,
361-362, 387-388, 414-430; by the goroutines when a channel is closed twice: proxyhandler.go:158-167, 211-216. As in
`Verif.Model.Observe` the machine is watched; what is written has no influence on it.

The lines about a token are in `Model/TokenLog`. Not modelled: other lines before the first attempt, all of level trace.
-/
namespace J8a
open Go

/-- proxy.go:298-301 `parseXRequestDebug`. -/
def parseXRequestDebug (rq : Request) : Bool :=
  let h := rq.header.get "X-REQUEST-DEBUG".toList
  decide (0 < h.length) && toLower h == "true".toList

/-- proxy.go:294-296 `parseHTTPVer`. -/
def parseHTTPVer (major minor : Int) : Str := itoa major ++ '.' :: itoa minor

/-- proxy.go:67-69 `print`. -/
def printAttempt (count max : Int) : Str := itoa count ++ '/' :: itoa max

/-- What a line about an attempt says. -/
inductive AtmptMsg where
  /-- proxy.go:361-362, 387-388 -/
  | initialized
  /-- proxyhandler.go:122-128 -/
  | resolved (uri : Str)
  /-- proxyhandler.go:179-182 -/
  | headerTimeout
  /-- proxyhandler.go:186-187 -/
  | headerStopped
  /-- proxyhandler.go:189-190 -/
  | headerDone
  /-- proxyhandler.go:226-229 -/
  | bodyTimeout
  /-- proxyhandler.go:232-233 -/
  | bodyStopped
  /-- proxyhandler.go:235-236 -/
  | bodyDone
  /-- proxy.go:145-147 -/
  | cancelled
  /-- proxyhandler.go:345-357, successful or not, and the status of the response if there is one -/
  | ended (successful : Bool) (code : Option Int)
  /-- proxy.go:184-187 -/
  | retriesStopped
  /-- proxy.go:414-415 -/
  | gzipped
  /-- proxy.go:419-420 -/
  | gunzipped
  /-- proxy.go:423-424 -/
  | unchanged
  /-- proxy.go:431-432 -/
  | noBody
  /-- proxyhandler.go:160-165 -/
  | recoveredHeader
  /-- proxyhandler.go:213-214 -/
  | recoveredBody
deriving DecidableEq, Repr

/-- A line, and `proxy.Up.Atmpt.Count` when it was written. -/
structure AtmptLine where
  count : Nat
  msg : AtmptMsg
deriving DecidableEq, Repr

/-- The parameter `upstreamResponse` of `processUpstreamResponse`, and the lines written. -/
structure AtmptLog where
  resp : Option UpResp := none
  lines : List AtmptLine := []

/-- proxyhandler.go:351-357 `logUnsuccessfulUpstreamAttempt`: a status above 0 is written. -/
def loggedCode : Option UpResp → Option Int
  | some r => if r.status > 0 then some r.status else none
  | none => none

/-- proxy.go:408-434 `encodeUpstreamResponseBody`. -/
def bodyMsg (e : Env) (a : Atmpt) : AtmptMsg :=
  if 0 < (a.respBody.getD []).length then
    if e.sendGzip && !a.isGzip then .gzipped
    else if !e.sendGzip && a.isGzip then .gunzipped
    else .unchanged
  else .noBody

/-- What a step of the handler writes about the current attempt. -/
def attemptMsgs (e : Env) (s : St) (c : Choice) (resp : Option UpResp) : List AtmptMsg :=
  match s.pc with
  | .scaffold => [.resolved (resolveUpstreamURI s.curA.url e.route e.rq.uri)]
  | .selHeader => match c with
    | .atmptAborted => [.headerTimeout]
    | .dwnAborted =>
      List.replicate ((List.range s.n).countP fun k => (s.atmpt k).hasCancel) .cancelled ++ [.headerStopped]
    | .complete => [.headerDone]
  | .procCheck r err =>
    if r.isNone ∨ err ∨ s.noteUp.curA.abortedFlag then [.ended false (loggedCode r)] else []
  | .selBody => match c with
    | .atmptAborted => [.bodyTimeout]
    | .dwnAborted =>
      List.replicate ((List.range s.n).countP fun k => (s.atmpt k).hasCancel) .cancelled ++ [.bodyStopped]
    | .complete => [.bodyDone]
  | .chkDwn _ => if s.noteDwn.dwnFlag then [.ended false (loggedCode resp)] else []
  | .chkUp _ => if s.noteUp.curA.abortedFlag then [.ended false (loggedCode resp)] else []
  | .chkResp err =>
    if err then [.ended false (loggedCode resp)]
    else match s.curA.resp with
      | none => []
      | some r =>
        if r.status < 500 then [.ended true (resp.map (·.status))] else [.ended false (loggedCode resp)]
  | .okEncode _ _ => [bodyMsg e s.curA]
  | .retry2 retry => if s.noteDwn.dwnFlag ∨ retry = false then [.retriesStopped] else []
  | _ => []

/-- The lines of a step. `next` makes the new attempt the current one before it writes. -/
def attemptLogged (e : Env) (s : St) (a : Act) (w : AtmptLog) : AtmptLog :=
  match a with
  | .main c =>
    { resp := match s.pc with
        | .procCheck r _ => r
        | _ => w.resp
      lines := w.lines ++ (attemptMsgs e s c w.resp).map (⟨s.n, ·⟩) ++
        match s.pc with
        | .next => [⟨s.n + 1, .initialized⟩]
        | _ => [] }
  | .hgClose i =>
    if ¬ (s.atmpt i).abortedFlag ∧ ¬ s.dwnFlag ∧ 0 < (s.atmpt i).hdrClosed then
      { w with lines := w.lines ++ [⟨s.n, .recoveredHeader⟩] }
    else w
  | .bgClose i =>
    if ¬ s.curA.abortedFlag ∧ ¬ s.dwnFlag ∧ 0 < (s.atmpt i).bodyClosed then
      { w with lines := w.lines ++ [⟨s.n, .recoveredBody⟩] }
    else w
  | _ => w

/-- proxy.go:361-362: the line of the first attempt. -/
def AtmptLog.initial : Decision → AtmptLog
  | .forward _ _ _ => { lines := [⟨1, .initialized⟩] }
  | _ => {}

/-- `w` is written about the attempts in the execution `as`. -/
def Setup.LogsAttempts {K : Type} (x : Setup K) (as : List Act) (s : St) (w : AtmptLog) : Prop :=
  watch x.env (attemptLogged x.env) (J8a.initial x.dec) (AtmptLog.initial x.dec) as = some (s, w)

/-! ## The lines as events -/

/-- Further fields of a line, and its text. -/
def AtmptMsg.text (readTimeoutSeconds : Int) : AtmptMsg → List (Str × ZVal) × Str
  | .initialized => ([], "upstream attempt initialized".toList)
  | .resolved _ => ([], "upstream URI resolved".toList)
  | .headerTimeout => ([("upReadTimeoutSecs".toList, .int readTimeoutSeconds)],
    "upstream connection read timeout fired, aborting upstream response header processing.".toList)
  | .headerStopped => ([], ("aborting upstream response header processing. downstream connection read timeout " ++
    "fired or user cancelled request").toList)
  | .headerDone => ([], "upstream response headers processed".toList)
  | .bodyTimeout => ([("upReadTimeoutSecs".toList, .int readTimeoutSeconds)],
    "upstream connection read timeout fired, aborting upstream response body processing".toList)
  | .bodyStopped => ([], ("aborting upstream response body processing. downstream connection read timeout " ++
    "fired or user cancelled request").toList)
  | .bodyDone => ([], "upstream response body processed".toList)
  | .cancelled => ([], "aborted upstream attempt after prior downstream abort.".toList)
  | .ended ok code => (code.toList.map fun c => ("upAtmptResCode".toList, .int c),
    if ok then "upstream attempt successful".toList else "upstream attempt unsuccessful".toList)
  | .retriesStopped => ([], "upstream retries stopped after upstream attempt".toList)
  | .gzipped => ([], "copying upstream body with gzip re-encoding".toList)
  | .gunzipped => ([], "copying upstream body with gzip re-decoding".toList)
  | .unchanged => ([], "copying upstream body as is".toList)
  | .noBody => ([], "skipping empty upstream body".toList)
  | .recoveredHeader => ([], ("safe to ignore. recovered internally from closed header success channel after " ++
    "request already handled.").toList)
  | .recoveredBody => ([], ("safe to ignore. recovered internally from closed body success channel after " ++
    "request already handled.").toList)

/-- proxyhandler.go:299-311 `scaffoldUpAttemptLog` and the calls that follow; `atmptMicros` and `dwnMicros` are the
times elapsed. Not modelled: the line of proxyhandler.go:160-165, which has the text of the panic and is of level
trace. -/
def attemptEvent (e : Env) (readTimeoutSeconds atmptMicros dwnMicros : Int) (path : Str) (l : AtmptLine) : ZEvent :=
  match l.msg with
  | .resolved uri =>
    { level := .trace,
      fields := [("dwnReqPath".toList, .str path), ("dwnElapsedMicros".toList, .int dwnMicros),
        ("X-Request-Id".toList, .str e.xrid), ("upReqURI".toList, .str uri)],
      msg := "upstream URI resolved".toList }
  | m =>
    { level := if parseXRequestDebug e.rq then .debug else .trace,
      fields := [("X-Request-Id".toList, .str e.xrid), ("upAtmptElapsedMicros".toList, .int atmptMicros),
        ("dwnElapsedMicros".toList, .int dwnMicros),
        ("upAtmpt".toList, .str (printAttempt l.count e.maxAttempts))] ++ (m.text readTimeoutSeconds).1,
      msg := (m.text readTimeoutSeconds).2 }

/-! ## The last line in full -/

/-- What only the log shows of a request and its connection. -/
structure ConnInfo where
  /-- `request.URL.EscapedPath()` -/
  path : Str
  /-- `request.RemoteAddr` -/
  remoteAddr : Str
  protoMajor : Int
  protoMinor : Int
  /-- the version in `request.TLS` -/
  tls : Option Nat
  /-- times elapsed since the request came in, and since the last attempt began -/
  dwnMicros : Int
  atmptMicros : Int

/-- proxyhandler.go:323-342. -/
def accessFields (i : ConnInfo) (e : Env) (s : St) : AccessFields where
  path := i.path
  remoteAddr := i.remoteAddr
  httpVer := parseHTTPVer i.protoMajor i.protoMinor
  micros := i.dwnMicros
  tlsVer := if e.tls then some (parseTlsVersion i.tls) else none
  up := if 0 < s.n ∧ s.curA.resp.isSome then
      some { uri := resolveUpstreamURI s.curA.url e.route e.rq.uri, label := s.curA.label,
             code := s.curA.statusCode, micros := i.atmptMicros, abort := s.curA.abortedFlag,
             atmpt := printAttempt s.n e.maxAttempts }
    else none

/-- The variables of `logged`, and the last line as an event. (`hasMadeUpstreamAttempt` at line 335 reads the
response once more; here together with line 328.) -/
def accessed (i : ConnInfo) (e : Env) (s : St) (a : Act) (w : LogSt × List ZEvent) : LogSt × List ZEvent :=
  let w' := logged e s a w.1
  (w', w.2 ++ (w'.lines.drop w.1.lines.length).map fun l => accessEvent l (accessFields i e s))

/-- `evs` are the events of proxyhandler.go:313-344 in the execution `as`. -/
def Setup.Accesses {K : Type} (x : Setup K) (i : ConnInfo) (as : List Act) (s : St) (evs : List ZEvent) : Prop :=
  ∃ w, watch x.env (accessed i x.env) (J8a.initial x.dec) (LogSt.initial x.dec, []) as = some (s, w, evs)

end J8a

import Verif.Model.Response
/-!
# proxyhandler.go:83-282, proxy.go:115-189, 343-389 — upstream attempts as a small-step machine

The handler goroutine (`main`) makes attempts one after the other. Each attempt has a goroutine
that waits for the upstream's response headers (HG, proxyhandler.go:153-172), and possibly one that
reads the body (BG, proxyhandler.go:203-221). Those goroutines outlive the attempt when it is
abandoned. All of them share the proxy object; a write to `proxy.Up.Atmpt.x` goes to the attempt
that is current *when the write happens*. A schedule is a list of actions; every read or write of
shared memory is its own action (nil checks and the following dereference are separate where the
code evaluates `proxy.Up.Atmpt.resp` twice). Memory is sequentially consistent.
-/
namespace J8a
open Go

/-- Program counter of the header goroutine. -/
inductive HG where
  /-- not started -/
  | idle
  /-- started, before `httpClient.Do(req)` -/
  | started (req : UpReq)
  /-- inside `httpClient.Do` (proxyhandler.go:155) -/
  | calling
  /-- `Do` returned, before proxyhandler.go:156 -/
  | returned
  /-- before proxyhandler.go:169 -/
  | wrote
  | finished

/-- Program counter of the body goroutine; it holds the upstream response it was given. -/
inductive BG where
  | idle
  /-- before proxyhandler.go:204 -/
  | started (r : UpResp)
  /-- before/inside `ReadAll` (205) -/
  | reading (r : UpResp)
  /-- before 206 -/
  | read (r : UpResp)
  /-- before 218 -/
  | tested (r : UpResp)
  | finished (r : UpResp)
deriving DecidableEq, Repr

/-- proxy.go:51-65 `Atmpt` (without dates; `Count` is the position plus one), the closure
variables of `performUpstreamRequest` and `parseUpstreamResponse` for this attempt, and its
goroutines. -/
structure Atmpt where
  url : URL
  label : Str
  statusCode : Int := 0
  isGzip : Bool := false
  resp : Option UpResp := none
  respBody : Option Bytes := none
  /-- `CompleteHeader` closed? -/
  hdrClosed : Nat := 0
  /-- `CompleteBody` closed? -/
  bodyClosed : Nat := 0
  /-- is `CancelFunc` set (and `Aborted` the context's channel)? -/
  hasCancel : Bool := false
  /-- context cancelled, i.e. `Aborted` closed -/
  ctxDone : Bool := false
  abortedFlag : Bool := false
  /-- `upstreamResponse`, `upstreamError` (proxyhandler.go:150-151) -/
  vResp : Option UpResp := none
  vErr : Bool := false
  /-- `upstreamResponseBody`, `bodyError` (proxyhandler.go:197-198) -/
  vBody : Option Bytes := none
  vBodyErr : Bool := false
  hg : HG := .idle
  bg : BG := .idle

/-- Where the handler goroutine is. -/
inductive PC where
  /-- proxyhandler.go:148-172: create the request, start HG -/
  | scaffold
  /-- 175-191 -/
  | selHeader
  /-- 193: read the closure variables -/
  | retHeader
  /-- 244: `upstreamResponse != nil && upstreamError == nil` known, `hasUpstreamAttemptAborted` next -/
  | procCheck (r : Option UpResp) (err : Bool)
  /-- 223-237 -/
  | selBody
  /-- 239 -/
  | retBody
  /-- 248 -/
  | setBody (b : Option Bytes) (err : Bool)
  /-- 278 `hasDownstreamAborted` -/
  | chkDwn (err : Bool)
  /-- 279 `hasUpstreamAttemptAborted` -/
  | chkUp (err : Bool)
  /-- 280-281 -/
  | chkResp (err : Bool)
  /-- 251, 273-275 -/
  | branch
  /-- 252 -/
  | jsonStatus
  /-- 255-256 -/
  | okHeaders
  /-- 257 -/
  | okStatus (h : Hdr)
  /-- 258 -/
  | okEncode (h : Hdr) (code : Int)
  /-- 259 -/
  | okLength (h : Hdr) (code : Int) (body : Bytes)
  /-- 260: proxy.go:392, 438 -/
  | okEnc1 (h : Hdr) (code : Int) (body : Bytes)
  /-- 260: proxy.go:439 -/
  | okEnc2 (h : Hdr) (code : Int) (body : Bytes)
  /-- 261-262 -/
  | okSend (h : Hdr) (code : Int) (body : Bytes)
  /-- server.go:214-235 -/
  | sendJson (code : Int) (msg : Str)
  /-- the log line: proxy.go:438 -/
  | log1
  /-- the log line: proxy.go:439 -/
  | log2
  /-- proxy.go:166-176 -/
  | retry1
  /-- proxy.go:179-188 -/
  | retry2 (retry : Bool)
  /-- proxyhandler.go:91, proxy.go:366-389 -/
  | next
  /-- proxyhandler.go:94 -/
  | final1
  /-- proxyhandler.go:96 -/
  | final2
  | done
  | panicked
deriving Inhabited

/-- Constants of one request. -/
structure Env extends RespEnv where
  maxAttempts : Int
  /-- does `http.NewRequestWithContext` accept the upstream URI? -/
  uriOk : Str → Bool
  rq : Request
  pb : ParsedBody
  /-- the matched route -/
  route : Route

/-- The state of one request. `n` attempts exist; the current one has index `n - 1`. -/
structure St where
  n : Nat
  atmpt : Nat → Atmpt
  pc : PC
  /-- the round trip timer has fired (`proxy.Dwn.Aborted` closed) -/
  dwnFired : Bool := false
  /-- `proxy.Dwn.AbortedFlag` -/
  dwnFlag : Bool := false
  /-- responses handed to net/http -/
  sent : List Sent := []
  /-- the calls of `httpClient.Do`: attempt and request -/
  calls : List (Nat × UpReq) := []

/-- The index of the current attempt. -/
def St.cur (s : St) : Nat := s.n - 1

/-- The current attempt. -/
def St.curA (s : St) : Atmpt := s.atmpt s.cur

/-- Update of attempt `i`. -/
def St.upd (s : St) (i : Nat) (f : Atmpt → Atmpt) : St :=
  { s with atmpt := fun k => if k = i then f (s.atmpt k) else s.atmpt k }

/-- Which ready case a `select` takes. -/
inductive Choice where
  | atmptAborted | dwnAborted | complete
deriving DecidableEq, Repr

/-- Scheduler actions. -/
inductive Act where
  /-- the round trip timer fires (proxy.go:203) -/
  | dwnTimer
  /-- the read timer of attempt `i` fires (proxyhandler.go:113) -/
  | atmptTimer (i : Nat)
  /-- HG `i`: calls `Do` -/
  | hgCall (i : Nat)
  /-- HG `i`: `Do` returns a response or an error -/
  | hgReturn (i : Nat) (r : Option UpResp)
  /-- HG `i`: `proxy.Up.Atmpt.resp = upstreamResponse` -/
  | hgWrite (i : Nat)
  /-- HG `i`: `close(CompleteHeader)` or not -/
  | hgClose (i : Nat)
  /-- BG `i`: `proxy.Up.Atmpt.StatusCode = ...` -/
  | bgStatus (i : Nat)
  /-- BG `i`: `ReadAll` returns; `some k` means it fails after `k` bytes -/
  | bgRead (i : Nat) (fail : Option Nat)
  /-- BG `i`: test of the magic bytes -/
  | bgGzip (i : Nat)
  /-- BG `i`: `close(CompleteBody)` or not -/
  | bgClose (i : Nat)
  /-- the handler goroutine makes a step -/
  | main (c : Choice)
deriving DecidableEq, Repr

/-- proxy.go:141-150 `abortAllUpstreamAttempts`: the flags are set on copies; every attempt with a
`CancelFunc` is cancelled. -/
def St.abortAll (s : St) : St :=
  { s with atmpt := fun k =>
      if k < s.n ∧ (s.atmpt k).hasCancel then { s.atmpt k with ctxDone := true } else s.atmpt k }

/-- proxy.go:115-127 `hasDownstreamAborted`, the update it makes (`Resp.StatusCode` and `Message`
are also set to 504, but every path sets them again before use). -/
def St.noteDwn (s : St) : St := { s with dwnFlag := s.dwnFlag || s.dwnFired }

/-- proxy.go:152-160 `hasUpstreamAttemptAborted`, the update it makes. -/
def St.noteUp (s : St) : St :=
  s.upd s.cur fun a => { a with abortedFlag := a.abortedFlag || a.ctxDone }

/-- One step of the handler goroutine; `none` if it is blocked (or finished). -/
def stepMain (e : Env) (s : St) (c : Choice) : Option St :=
  match s.pc with
  | .scaffold =>
    let req := scaffoldUpstreamRequest e.xrid e.pb e.rq e.route s.curA.url
    if e.uriOk req.uri then
      some { s.upd s.cur (fun a => { a with hasCancel := true, hg := .started req }) with
        pc := .selHeader }
    else some { s.upd s.cur (fun a => { a with hasCancel := true }) with pc := .panicked }
  | .selHeader =>
    match c with
    | .atmptAborted =>
      if s.curA.ctxDone then
        some { s.upd s.cur (fun a => { a with abortedFlag := true, statusCode := 0 }) with
          pc := .retHeader }
      else none
    | .dwnAborted =>
      if s.dwnFired then some { s.abortAll with dwnFlag := true, pc := .retHeader } else none
    | .complete => if 0 < s.curA.hdrClosed then some { s with pc := .retHeader } else none
  | .retHeader => some { s with pc := .procCheck s.curA.vResp s.curA.vErr }
  | .procCheck r err =>
    match r with
    | none => some { s with pc := .retry1 }
    | some r =>
      if err then some { s with pc := .retry1 }
      else
        let s' := s.noteUp
        if s'.curA.abortedFlag then some { s' with pc := .retry1 }
        else some { s'.upd s.cur (fun a => { a with bg := .started r }) with pc := .selBody }
  | .selBody =>
    match c with
    | .atmptAborted =>
      if s.curA.ctxDone then
        some { s.upd s.cur (fun a => { a with abortedFlag := true }) with pc := .retBody }
      else none
    | .dwnAborted =>
      if s.dwnFired then some { s.abortAll with dwnFlag := true, pc := .retBody } else none
    | .complete => if 0 < s.curA.bodyClosed then some { s with pc := .retBody } else none
  | .retBody => some { s with pc := .setBody s.curA.vBody s.curA.vBodyErr }
  | .setBody b err => some { s.upd s.cur (fun a => { a with respBody := b }) with pc := .chkDwn err }
  | .chkDwn err =>
    let s' := s.noteDwn
    if s'.dwnFlag then some { s' with pc := .retry1 } else some { s' with pc := .chkUp err }
  | .chkUp err =>
    let s' := s.noteUp
    if s'.curA.abortedFlag then some { s' with pc := .retry1 } else some { s' with pc := .chkResp err }
  | .chkResp err =>
    if err then some { s with pc := .retry1 }
    else match s.curA.resp with
      | none => some { s with pc := .panicked }
      | some r => if r.status < 500 then some { s with pc := .branch } else some { s with pc := .retry1 }
  | .branch =>
    if s.curA.statusCode > 399 ∧ s.curA.statusCode < 500 then some { s with pc := .jsonStatus }
    else some { s with pc := .okHeaders }
  | .jsonStatus => some { s with pc := .sendJson s.curA.statusCode "none".toList }
  | .okHeaders =>
    match s.curA.resp with
    | none => some { s with pc := .panicked }
    | some r =>
      let h := copyHeaders r.header (writeStandardResponseHeaders e.toRespEnv Hdr.empty)
      some { s with pc := .okStatus h }
  | .okStatus h => some { s with pc := .okEncode h s.curA.statusCode }
  | .okEncode h code =>
    let body := encodeUpstreamResponseBody e.toRespEnv s.curA.isGzip s.curA.respBody
    some { s with pc := .okLength h code body }
  | .okLength h code body =>
    if lengthIsZero e.toRespEnv h code ∨ e.method ≠ "HEAD".toList then
      some { s with pc := .okEnc1 (setContentLengthHeader e.toRespEnv h code body []) code body }
    else match s.curA.resp with
      | none => some { s with pc := .panicked }
      | some r =>
        some { s with pc := .okEnc1 (setContentLengthHeader e.toRespEnv h code body r.header) code body }
  | .okEnc1 h code body =>
    if 0 < body.length then
      if e.sendGzip then
        some { s with pc := .okSend (h.set "Content-Encoding".toList "gzip".toList) code body }
      else if s.curA.resp.isSome ∧ ¬ s.curA.isGzip then some { s with pc := .okEnc2 h code body }
      else some { s with pc := .okSend (h.set "Content-Encoding".toList "identity".toList) code body }
    else some { s with pc := .okSend h code body }
  | .okEnc2 h code body =>
    match s.curA.resp with
    | none => some { s with pc := .panicked }
    | some r =>
      let h := h.set "Content-Encoding".toList (contentEncoding e.toRespEnv false r.header)
      some { s with pc := .okSend h code body }
  | .okSend h code body =>
    if validStatus code then some { s with sent := s.sent ++ [⟨code, h, body⟩], pc := .log1 }
    else some { s with pc := .panicked }
  | .sendJson code msg =>
    if validStatus code then
      some { s with sent := s.sent ++ [jsonResponse e.toRespEnv code msg], pc := .log1 }
    else some { s with pc := .panicked }
  | .log1 =>
    if e.sendGzip then some { s with pc := .done }
    else if 0 < s.n ∧ s.curA.resp.isSome ∧ ¬ s.curA.isGzip then some { s with pc := .log2 }
    else some { s with pc := .done }
  | .log2 =>
    match s.curA.resp with
    | none => some { s with pc := .panicked }
    | some _ => some { s with pc := .done }
  | .retry1 =>
    some { s with pc := .retry2 (e.method ∈ repeatableMethods ∧ (s.n : Int) < e.maxAttempts) }
  | .retry2 retry =>
    let s' := s.noteDwn
    if s'.dwnFlag then some { s' with pc := .final1 }
    else if retry then some { s' with pc := .next }
    else some { s' with pc := .final1 }
  | .next =>
    let a : Atmpt := { url := s.curA.url, label := s.curA.label }
    some { s with n := s.n + 1, atmpt := fun k => if k = s.n then a else s.atmpt k, pc := .scaffold }
  | .final1 =>
    let s' := s.noteDwn
    if s'.dwnFlag then
      some { s' with pc := .sendJson 504 "gateway timeout triggered by downstream event".toList }
    else some { s' with pc := .final2 }
  | .final2 =>
    let s' := s.noteUp
    if s'.curA.abortedFlag then
      some { s' with pc := .sendJson 504 "gateway timeout triggered by upstream attempt".toList }
    else
      some { s' with
        pc := .sendJson 502 "bad gateway triggered. unable to process upstream response".toList }
  | .done => none
  | .panicked => none

/-- One step of another goroutine or timer. Goroutines exist only for attempts `i < n`. -/
def stepOther (s : St) : Act → Option St
  | .dwnTimer => some { s with dwnFired := true }
  | .atmptTimer i =>
    if i < s.n ∧ (s.atmpt i).hasCancel then some (s.upd i fun a => { a with ctxDone := true })
    else none
  | .hgCall i =>
    match (s.atmpt i).hg with
    | .started req =>
      if i < s.n then
        some { s.upd i (fun a => { a with hg := .calling }) with calls := s.calls ++ [(i, req)] }
      else none
    | _ => none
  | .hgReturn i r =>
    match (s.atmpt i).hg with
    | .calling =>
      if i < s.n then some (s.upd i fun a => { a with hg := .returned, vResp := r, vErr := r.isNone })
      else none
    | _ => none
  | .hgWrite i =>
    match (s.atmpt i).hg with
    | .returned =>
      if i < s.n then
        some ((s.upd s.cur fun a => { a with resp := (s.atmpt i).vResp }).upd i
          fun a => { a with hg := .wrote })
      else none
    | _ => none
  | .hgClose i =>
    match (s.atmpt i).hg with
    | .wrote =>
      if i < s.n then
        if ¬ (s.atmpt i).abortedFlag ∧ ¬ s.dwnFlag then
          some (s.upd i fun a => { a with hg := .finished, hdrClosed := a.hdrClosed + 1 })
        else some (s.upd i fun a => { a with hg := .finished })
      else none
    | _ => none
  | .bgStatus i =>
    match (s.atmpt i).bg with
    | .started r =>
      if i < s.n then
        some ((s.upd s.cur fun a => { a with statusCode := r.status }).upd i
          fun a => { a with bg := .reading r })
      else none
    | _ => none
  | .bgRead i fail =>
    match (s.atmpt i).bg with
    | .reading r =>
      if i < s.n then
        match fail with
        | none => some (s.upd i fun a => { a with bg := .read r, vBody := some r.body })
        | some k =>
          some (s.upd i fun a => { a with bg := .read r, vBody := some (r.body.take k), vBodyErr := true })
      else none
    | _ => none
  | .bgGzip i =>
    match (s.atmpt i).bg with
    | .read r =>
      if i < s.n then
        some ((s.upd s.cur fun a =>
          { a with isGzip := a.isGzip || hasGzipMagic ((s.atmpt i).vBody.getD []) }).upd i
            fun a => { a with bg := .tested r })
      else none
    | _ => none
  | .bgClose i =>
    match (s.atmpt i).bg with
    | .tested r =>
      if i < s.n then
        if ¬ s.curA.abortedFlag ∧ ¬ s.dwnFlag then
          some (s.upd i fun a => { a with bg := .finished r, bodyClosed := a.bodyClosed + 1 })
        else some (s.upd i fun a => { a with bg := .finished r })
      else none
    | _ => none
  | .main _ => none

/-- One action; `none` if it is not possible in this state. -/
def step (e : Env) (s : St) : Act → Option St
  | .main c => stepMain e s c
  | a => stepOther s a

/-- Executions. -/
def run (e : Env) (s : St) : List Act → Option St
  | [] => some s
  | a :: as => match step e s a with
    | none => none
    | some s' => run e s' as

/-- An attempt that does not exist. -/
def noAtmpt : Atmpt := { url := { scheme := [], host := [], port := 0 }, label := [] }

/-- The state in which the handler starts after its decision (proxyhandler.go:33-76, proxy.go:343-364
`firstAttempt`). -/
def initial : Decision → St
  | .respond code msg => { n := 0, atmpt := fun _ => noAtmpt, pc := .sendJson code msg }
  | .forward _ u l =>
    { n := 1, atmpt := fun k => if k = 0 then { url := u, label := l } else noAtmpt, pc := .scaffold }
  | .panic => { n := 0, atmpt := fun _ => noAtmpt, pc := .panicked }

end J8a

import Verif.Go.ReqRead
/-!
# net/http of Go 1.15: how a client reads a response from a connection

`ReadResponse` (response.go), `fixLength` and `readTransfer` (transfer.go), `persistConn.readResponse` (transport.go); from
the source as remembered. A stream is everything that a server sends on a connection until it ends it. Simplified: as in
`ReqRead`, and no limit on the length of a head (10 MB); `none` stands for an error or a response that is waited for.
-/
namespace J8a.Go

/-- How the body of a response is delimited. -/
inductive RespFraming where
  | sized (n : Nat)
  | chunked
  /-- it ends with the connection -/
  | untilEnd
deriving DecidableEq, Repr

/-- What is known of a response when its head has been read; `length` is `Response.ContentLength`. -/
structure RespHead where
  status : Int
  version : Nat × Nat
  header : Entries
  framing : RespFraming
  length : Int
deriving DecidableEq, Repr

/-- response.go `ReadResponse`: version and status of a status line. -/
def parseStatusLine (line : Str) : Option ((Nat × Nat) × Int) :=
  if ' ' ∈ line then do
    let status := (cutAt ' ' line).2.dropWhile (· = ' ')
    let code := status.takeWhile (· ≠ ' ')
    if code.length ≠ 3 then none
    let n ← atoi code
    if n < 0 then none
    let version ← httpVersion (cutAt ' ' line).1
    some (version, n)
  else none

/-- transfer.go `bodyAllowedForStatus`. -/
def allowsBody (status : Int) : Bool := !((100 ≤ status && status ≤ 199) || status = 204 || status = 304)

/-- transfer.go `fixLength`, of a response: the length, -1 if it is not known, and the header that is left. -/
def fixRespLength (method : Str) (status : Int) (chunked : Bool) (e : Entries) : Option (Int × Entries) :=
  let vs := e.values "Content-Length".toList
  let same := vs.all fun v => trimSpace v = trimSpace (vs.headD [])
  if vs.length > 1 ∧ ¬ same then none
  else
    let one := if vs.length > 1 then [trimSpace (vs.headD [])] else vs
    let e1 := if vs.length > 1 then delKey e "Content-Length" ++ [("Content-Length".toList, one)] else e
    if method = "HEAD".toList then some (0, e1)
    else if !allowsBody status then some (0, e1)
    else if chunked then some (-1, e1)
    else match one with
      | [v] => if trimSpace v = [] then some (-1, delKey e1 "Content-Length")
        else (parseLength (trimSpace v)).map fun n => (Int.ofNat n, e1)
      | _ => some (-1, delKey e1 "Content-Length")

/-- transfer.go `readTransfer`: the length that a response to HEAD announces. -/
def announcedLength (e : Entries) : Option Int :=
  let v := trimSpace (e.get "Content-Length".toList)
  if v = [] then some (-1) else (parseLength v).map Int.ofNat

/-- transfer.go `readTransfer`: `Response.ContentLength`. -/
def respLength (method : Str) (realLength : Int) (e : Entries) : Option Int :=
  if method = "HEAD".toList then announcedLength e else some realLength

/-- transfer.go `readTransfer`: how the body of a response is read. Without a length, and not chunked, `t.Close` is set if
there may be a body, so that it is read up to the end of the connection. -/
def respFraming (method : Str) (status : Int) (chunked : Bool) (realLength : Int) : RespFraming :=
  if chunked then if method = "HEAD".toList || !allowsBody status then .sized 0 else .chunked
  else if 0 ≤ realLength then .sized realLength.toNat
  else .untilEnd

/-- response.go `ReadResponse` with transfer.go `readTransfer`, for a request with this method: the head of a response and
what follows it in the stream. Version 0.0 counts as 1.1. -/
def readRespHead (method s : Str) : Option (RespHead × Str) := do
  let (first, r) ← readLine s
  let (version, status) ← parseStatusLine first
  let (lines, rest) ← headLines (r.length + 1) r
  let kvs ← unfoldLines lines
  let modern : Bool := version.1 > 1 || (version.1 = 1 && version.2 ≥ 1) || version = (0, 0)
  let (chunked, e1) ← fixCoding modern (fixPragma (mimeHeader kvs))
  let (realLength, e2) ← fixRespLength method status chunked e1
  let length ← respLength method realLength e2
  let e3 ← fixTrailer chunked e2
  some (⟨status, version, e3, respFraming method status chunked realLength, length⟩, rest)

/-- transport.go `persistConn.readResponse`: a response that another one will follow. -/
def isInterim (status : Int) : Bool := 100 ≤ status && status ≤ 199 && status ≠ 101

/-- response.go `isProtocolSwitch`. -/
def isSwitch (h : RespHead) : Bool :=
  h.status = 101 && h.header.get "Upgrade".toList ≠ [] &&
    (h.header.values "Connection".toList).any fun v => hasToken v "upgrade".toList

/-- transport.go `persistConn.readResponse`: the first response that is not interim, if there are at most so many before it.
After a switch of protocols the body is the rest of the connection. -/
def readFinal (method : Str) : (interims : Nat) → Str → Option (RespHead × Str)
  | n, s => do
    let (h, r) ← readRespHead method s
    if isInterim h.status then
      match n with
      | 0 => none
      | n + 1 => readFinal method n r
    else if isSwitch h then some ({ h with framing := .untilEnd }, r)
    else some (h, r)

/-- transport.go `max1xxResponses`. -/
def maxInterims : Nat := 5

/-- transfer.go `readTransfer`: the body at the beginning of a stream, and what follows unless reading fails. -/
def readRespBody : RespFraming → Str → Str × Option Str
  | .sized n, s => readBody (.sized n) s
  | .chunked, s => readBody .chunked s
  | .untilEnd, s => (s, some [])

end J8a.Go

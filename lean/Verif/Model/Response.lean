import Verif.Model.Request
/-!
# proxy.go:391-498, server.go:163-173, 214-238 — building the downstream response
-/
namespace J8a
open Go

/-- An upstream response. `body` is what reading the body to the end yields. -/
structure UpResp where
  status : Int
  header : Entries := []
  body : Bytes := []
deriving DecidableEq, Repr

/-- `compress/gzip` as used by gzip.go: `enc` is `Gzip`, `dec` is `Gunzip` (which ignores errors
and returns what could be decoded). -/
structure Codec where
  enc : Bytes → Bytes
  dec : Bytes → Bytes

/-- gzip.go:12 `gzipMagicBytes`, compared with the first two bytes at proxyhandler.go:206. The slice
expression reads up to the capacity (at least 512), so a shorter body is compared with its bytes
followed by zeros, which never equal the magic bytes. -/
def hasGzipMagic (b : Bytes) : Bool := b.take 2 == [0x1f, 0x8b]

/-- Request and server constants the response depends on. -/
structure RespEnv where
  method : Str
  sendGzip : Bool
  tls : Bool
  xrid : Str
  /-- `fmt.Sprintf("j8a %s %s", Version, ID)` -/
  server : Str
  codec : Codec
  /-- the JSON body for a status code and message (responses.go, `Model/Responses.lean`) -/
  json : Int → Str → Bytes

/-- A response handed to net/http: arguments of `WriteHeader` and `Write` and the header map at
that time. -/
structure Sent where
  status : Int
  header : Hdr
  body : Bytes

/-- server.go:163-173 `writeStandardResponseHeaders`. -/
def writeStandardResponseHeaders (e : RespEnv) (h : Hdr) : Hdr :=
  let h := h.set "Server".toList e.server
  let h := if e.tls then h.set "Strict-Transport-Security".toList "max-age=31536000".toList else h
  h.set xRequestID e.xrid

/-- proxy.go:407-432 `encodeUpstreamResponseBody`: `isGzip` and `respBody` are fields of the
current attempt. -/
def encodeUpstreamResponseBody (e : RespEnv) (isGzip : Bool) (respBody : Option Bytes) : Bytes :=
  match respBody with
  | some b =>
    if 0 < b.length then
      if e.sendGzip && !isGzip then e.codec.enc b
      else if !e.sendGzip && isGzip then e.codec.dec b
      else b
    else []
  | none => []

/-- proxy.go:453-479 `setContentLengthHeader`, first alternative: does the length header become
"0" without looking at the upstream? -/
def lengthIsZero (e : RespEnv) (h : Hdr) (status : Int) : Bool :=
  (h.get "Transfer-Encoding".toList).length ≠ 0 || status == 204 ||
  (100 ≤ status && status < 200) || e.method == "CONNECT".toList

/-- proxy.go:453-479 `setContentLengthHeader`; `upHeader` is the header of the current attempt's
response, only evaluated for HEAD. -/
def setContentLengthHeader (e : RespEnv) (h : Hdr) (status : Int) (body : Bytes)
    (upHeader : Entries) : Hdr :=
  if lengthIsZero e h status then h.set "Content-Length".toList "0".toList
  else if e.method = "HEAD".toList then
    let cl := upHeader.get "Content-Length".toList
    if 0 < cl.length ∧ (atoi cl).isSome then h.set "Content-Length".toList cl
    else h.set "Content-Length".toList "0".toList
  else h.set "Content-Length".toList (natToDec body.length)

/-- proxy.go:434-446 `contentEncoding` when an upstream response is there: `isGzip` and `upHeader`
belong to the current attempt. -/
def contentEncoding (e : RespEnv) (isGzip : Bool) (upHeader : Entries) : Str :=
  if e.sendGzip then "gzip".toList
  else if !(!e.sendGzip && isGzip) then
    let ceA := upHeader.values "Content-Encoding".toList
    if 0 < ceA.length then join [' '] ceA else "identity".toList
  else "identity".toList

/-- proxyhandler.go:255-262 without interference from other goroutines: the response for an upstream
response `r` whose body `b` was read. -/
def proxiedResponse (e : RespEnv) (r : UpResp) : Sent :=
  let h := writeStandardResponseHeaders e Hdr.empty
  let h := copyHeaders r.header h
  let body := encodeUpstreamResponseBody e (hasGzipMagic r.body) (some r.body)
  let h := setContentLengthHeader e h r.status body r.header
  let h := if 0 < body.length then
      h.set "Content-Encoding".toList (contentEncoding e (hasGzipMagic r.body) r.header) else h
  { status := r.status, header := h, body := body }

/-- server.go:214-238 `sendStatusCodeAsJSON`. `Resp.ContentLength` is only ever set on the path that
proxies a body, so `writeContentEncodingHeader` does nothing here. -/
def jsonResponse (e : RespEnv) (code : Int) (msg : Str) : Sent :=
  let h := writeStandardResponseHeaders e Hdr.empty
  let h := h.set "Content-Type".toList "application/json".toList
  let body := e.json code msg
  { status := code, header := h, body := if e.sendGzip then e.codec.enc body else body }

/-- net/http `checkWriteHeaderCode`: `WriteHeader` panics outside this range. -/
def validStatus (code : Int) : Bool := 100 ≤ code && code ≤ 999

/-- What net/http lets through of the bytes written: none for HEAD requests and for statuses
without body, at most the declared Content-Length otherwise (net/http/server.go `bodyAllowed`,
`ErrContentLength`). A declared length that does not parse is dropped. -/
def deliveredBody (method : Str) (s : Sent) : Bytes :=
  if method = "HEAD".toList ∨ (100 ≤ s.status ∧ s.status < 200) ∨ s.status = 204 ∨ s.status = 304 then
    []
  else match atoi (s.header.get "Content-Length".toList) with
    | some n => if 0 ≤ n ∧ n < s.body.length then [] else s.body
    | none => s.body

end J8a

import Verif.Go.ReqWrite
import Verif.Go.RespWrite
import Verif.Model.Response
import Verif.Model.WireBytes
/-!
# server.go:214-238, proxyhandler.go:255-262 — the bytes that a client receives

`response.WriteHeader`, `response.Write`, `chunkWriter.writeHeader`, `chunkWriter.Write`, `chunkWriter.close` and
`extraHeader.Write` (net/http/server.go of Go 1.15) for a client that speaks HTTP/1.0 or HTTP/1.1 and a handler that
calls `WriteHeader` once and `Write` once, as all of the gateway's handlers do. The response has no Transfer-Encoding
header and no names with a colon; trailers are left out, the handlers write none.
-/
namespace J8a
open Go

/-- The version in the request line. -/
inductive ClientVersion where
  | v11
  /-- `wantsHttp10KeepAlive`: the client asked for the connection to be kept -/
  | v10 (keep : Bool)
deriving DecidableEq, Repr

/-- What the response depends on besides the handler. -/
structure ReplyConn where
  version : ClientVersion := .v11
  /-- the method of the request -/
  method : Str
  /-- `doKeepAlives`: the server is not shutting down -/
  keepAlives : Bool := true
  /-- `wantsClose`: the client asked for the end of the connection -/
  closing : Bool := false
  /-- the client never got its 100 Continue, or the rest of the request body could not be read -/
  broken : Bool := false
  /-- there is too much of the request body left to be read -/
  unread : Bool := false
  /-- `appendTime` of the current time -/
  date : Str
  /-- `DetectContentType` -/
  sniff : Bytes → Str

/-- `response.WriteHeader`: the declared length. -/
def declaredLength (h : Hdr) : Option Nat :=
  if h.get "Content-Length".toList = [] then none
  else match atoi (h.get "Content-Length".toList) with
    | some n => if 0 ≤ n then some n.toNat else none
    | none => none

/-- `response.Write`: the bytes that are accepted, which go to a buffer of 2048 bytes in front of the
`chunkWriter`. -/
def handedOver (y : Sent) : Bytes :=
  if bodyAllowed y.status then
    match declaredLength y.header with
    | some n => if n < y.body.length then [] else y.body
    | none => y.body
  else []

/-- `chunkWriter.writeHeader`: the length that is determined at the end of the handler, if the body is still in the
buffer. -/
def ownLength (c : ReplyConn) (y : Sent) : Option Nat :=
  if (handedOver y).length ≤ 2048 ∧ y.header "Trailer".toList = [] ∧ bodyAllowed y.status = true ∧
      y.header.get "Content-Length".toList = [] ∧ (c.method ≠ "HEAD".toList ∨ handedOver y ≠ []) then
    some (handedOver y).length
  else none

/-- `ProtoAtLeast(1, 1)`. -/
def ReplyConn.modern (c : ReplyConn) : Bool := c.version = .v11

/-- `chunkWriter.writeHeader`: the client need not see the end of the connection to find the end of the body. -/
def lengthKnown (c : ReplyConn) (y : Sent) : Bool :=
  c.method = "HEAD".toList || !bodyAllowed y.status || (declaredLength y.header).isSome || (ownLength c y).isSome

/-- `chunkWriter.writeHeader`: `cw.chunking`. -/
def chunking (c : ReplyConn) (y : Sent) : Bool := !lengthKnown c y && c.modern

/-- `chunkWriter.writeHeader`: a client that speaks HTTP/1.0 gets what it asked for. -/
def keeps10 (c : ReplyConn) (y : Sent) : Bool := c.version = .v10 true && lengthKnown c y

/-- `chunkWriter.writeHeader`: `closeAfterReply` before the rest of the request body is looked at. -/
def closesEarly (c : ReplyConn) (y : Sent) : Bool :=
  (!keeps10 c y && (!c.modern || c.closing)) || c.broken || !c.keepAlives ||
    y.header.get "Connection".toList = "close".toList

/-- `chunkWriter.writeHeader`: `tooBig`. -/
def tooBig (c : ReplyConn) (y : Sent) : Bool := c.unread && !closesEarly c y

/-- `chunkWriter.writeHeader`: `closeAfterReply`. (A body of unknown length that is not chunked is one for HTTP/1.0, for
which the connection ends anyway.) -/
def closesAfter (c : ReplyConn) (y : Sent) : Bool := closesEarly c y || tooBig c y

/-- `response.shouldReuseConnection`: the bytes that the handler wrote are not those that were declared. -/
def wroteOther (c : ReplyConn) (y : Sent) : Bool :=
  match declaredLength y.header with
  | some n => c.method ≠ "HEAD".toList && bodyAllowed y.status && n ≠ y.body.length
  | none => false

/-- `response.shouldReuseConnection`: the connection ends after the response. (Failing writes and bodies that were closed
early are left out.) -/
def endsAfter (c : ReplyConn) (y : Sent) : Bool := closesAfter c y || wroteOther c y

/-- `isProtocolSwitchResponse`. -/
def switchesProtocol (y : Sent) : Bool :=
  y.status = 101 && y.header.get "Upgrade".toList ≠ [] &&
    (y.header "Connection".toList).any fun v => hasToken v "upgrade".toList

/-- `chunkWriter.writeHeader`: the Connection header is not written. -/
def dropsConnection (c : ReplyConn) (y : Sent) : Bool :=
  tooBig c y || (closesAfter c y && (!c.keepAlives || !hasToken (y.header.get "Connection".toList) "close".toList) &&
    !switchesProtocol y)

/-- `chunkWriter.writeHeader`: `setHeader.connection`. -/
def ownConnection (c : ReplyConn) (y : Sent) : Option Str :=
  if tooBig c y || (dropsConnection c y && c.modern) then some "close".toList
  else if keeps10 c y && y.header "Connection".toList = [] then some "keep-alive".toList
  else none

/-- `delHeader`: the names that are not written. -/
def respExclude (c : ReplyConn) (y : Sent) : List Str :=
  (if bodyAllowed y.status then [] else suppressedHeaders y.status) ++
  (if chunking c y then ["Content-Length".toList] else []) ++
  (if dropsConnection c y then ["Connection".toList] else [])

/-- `extraHeader`: what is added. -/
def extraFields (c : ReplyConn) (y : Sent) : List (Str × Str) :=
  (if y.header "Date".toList = [] then [("Date".toList, c.date)] else []) ++
  (match ownLength c y with | some n => [("Content-Length".toList, natToDec n)] | none => []) ++
  (if bodyAllowed y.status ∧ y.header.get "Content-Encoding".toList = [] ∧ y.header "Content-Type".toList = [] ∧
      handedOver y ≠ [] ∧ c.sniff (handedOver y) ≠ [] then [("Content-Type".toList, c.sniff (handedOver y))] else []) ++
  (match ownConnection c y with | some v => [("Connection".toList, v)] | none => []) ++
  (if chunking c y then [("Transfer-Encoding".toList, "chunked".toList)] else [])

/-- The fields in the order they are written. `keys` are the names in the header map, sorted by
`sortedKeyValues`. -/
def responseFields (c : ReplyConn) (keys : List Str) (y : Sent) : List (Str × Str) :=
  (keys.filter (fun k => k ∉ respExclude c y)).flatMap
    (fun k => (y.header k).map fun v => (k, trimString (newlineToSpace v))) ++ extraFields c y

/-- `chunkWriter.Write` and `chunkWriter.close`. -/
def responseBody (c : ReplyConn) (y : Sent) : Str :=
  if c.method = "HEAD".toList then []
  else if chunking c y then
    (if handedOver y = [] then [] else
      natToHex (handedOver y).length ++ "\r\n".toList ++ bodyText (handedOver y) ++ "\r\n".toList) ++ "0\r\n\r\n".toList
  else bodyText (handedOver y)

/-- What goes over the connection. -/
def writeResponse (c : ReplyConn) (keys : List Str) (y : Sent) : Str :=
  (if c.modern then "HTTP/1.1 ".toList else "HTTP/1.0 ".toList) ++ natToDec y.status.toNat ++ ' ' :: reasonFor y.status.toNat ++ "\r\n".toList ++
    (responseFields c keys y).flatMap (fun f => f.1 ++ ": ".toList ++ f.2 ++ "\r\n".toList) ++ "\r\n".toList ++
    responseBody c y

end J8a

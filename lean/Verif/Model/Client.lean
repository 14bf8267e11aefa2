import Verif.Go.Base64
import Verif.Go.Url
import Verif.Model.Response
/-!
# httpclient.go:19-60 — the upstream client, with the parts of net/http (Go 1.15) below it

`httpClient.Do` of the attempt machine is opened up here: `http.Client.do` (client.go), which decides about
redirections, `http.Transport` (transport.go), which may ask for compression by itself, and
`http.Request.write` (request.go), which puts the header on the wire. The transport has a `DialContext` and a
`TLSClientConfig` of its own, so it speaks HTTP/1.1 only. Not modelled: connections, proxies from the
environment, interim responses (see `Model/Reception`), cookies (the client has no jar),
the header of a request that follows a redirection (beyond method, URI and body).
-/
namespace J8a
open Go

/-- Library functions. -/
structure NetLib where
  /-- `req.URL.Parse(loc)`: the URI a redirection leads to, if the location parses -/
  resolve : (uri loc : Str) → Option Str
  /-- `gzip.Reader` read to its end: the bytes, and whether the end was proper -/
  gunzip : Bytes → Bytes × BodyEnd
  /-- the host of a URI -/
  hostOf : Str → Str

/-- A request on the wire. -/
structure WireReq where
  method : Str
  uri : Str
  header : Hdr
  body : Bytes

/-- A response as read from the wire: the body that arrives, how it ends, and
`Response.ContentLength` (-1 if it is not known beforehand). -/
structure WireResp where
  status : Int
  header : Entries := []
  body : Bytes := []
  ending : BodyEnd := .eof
  contentLength : Int := -1
deriving DecidableEq, Repr

/-- What the handler sees of a response. -/
def WireResp.up (w : WireResp) : UpResp := { status := w.status, header := w.header, body := w.body }

/-- transport.go (`persistConn.roundTrip`): does the transport ask for gzip on its own? -/
def addsGzip (q : UpReq) : Bool :=
  q.header.get "Accept-Encoding".toList = [] && q.header.get "Range".toList = [] &&
    q.method ≠ "HEAD".toList

/-- request.go `Request.write`: User-Agent, the default unless the request has one; a blank one is not
sent. -/
def wireUserAgent (h : Hdr) : List Str :=
  match h "User-Agent".toList with
  | [] => ["Go-http-client/1.1".toList]
  | v :: _ => if v = [] then [] else [v]

/-- transfer.go `shouldSendContentLength` for a body of known length. -/
def wireLength (q : UpReq) : List Str :=
  if 0 < q.body.length ∨ q.method = "POST".toList ∨ q.method = "PUT".toList then [natToDec q.body.length]
  else []

/-- request.go `Request.write`, by header name: Host, User-Agent and framing headers are written by the
library (`reqWriteExcludeHeader`), all others as they are, extra headers last. (Values from a parsed request
need no cleaning.) -/
def wireHeader (T : NetLib) (q : UpReq) : Hdr := fun k =>
  if k = "Host".toList then [T.hostOf q.uri]
  else if k = "User-Agent".toList then wireUserAgent q.header
  else if k = "Content-Length".toList then wireLength q
  else if k = "Transfer-Encoding".toList ∨ k = "Trailer".toList then []
  else if k = "Accept-Encoding".toList ∧ addsGzip q then q.header k ++ ["gzip".toList]
  else q.header k

/-- client.go `basicAuth`. -/
def basicAuth (name password : Str) : Str := b64Encode (name ++ ':' :: password)

/-- client.go `send`: user information in the URL becomes an Authorization header, unless the request has one that is
not blank. -/
def credited (q : UpReq) : UpReq :=
  match (Url.parse q.uri).bind Url.user with
  | some (name, password) =>
    if q.header.get "Authorization".toList = [] then
      { q with header := q.header.set "Authorization".toList ("Basic ".toList ++ basicAuth name password) }
    else q
  | none => q

/-- client.go `send`, request.go `Request.write`. -/
def wireRequest (T : NetLib) (q : UpReq) : WireReq where
  method := q.method
  uri := q.uri
  header := wireHeader T (credited q)
  body := q.body

/-- `Header.Del` for canonical names. -/
def Entries.del (e : Entries) (k : Str) : Entries := e.filter fun kv => kv.1 ≠ k

/-- transport.go (`persistConn.readLoop`): a response with a body that is compressed because the transport
asked for it is decompressed. -/
def decompress (T : NetLib) (q : UpReq) (w : WireResp) : WireResp :=
  if q.method ≠ "HEAD".toList ∧ w.contentLength ≠ 0 ∧ addsGzip q ∧
      equalFold (w.header.get "Content-Encoding".toList) "gzip".toList then
    { status := w.status,
      header := (w.header.del "Content-Encoding".toList).del "Content-Length".toList,
      body := (T.gunzip w.body).1,
      ending := if w.ending = .eof then (T.gunzip w.body).2 else .failed,
      contentLength := -1 }
  else w

/-- What `CheckRedirect` says: no error, `http.ErrUseLastResponse`, another error. -/
inductive Verdict where
  | follow | useLast | stop
deriving DecidableEq, Repr

/-- `http.Client`, as far as it is configured here. -/
structure HttpClient where
  checkRedirect : (req : UpReq) → (via : List UpReq) → Verdict

/-- httpclient.go:26-48 `scaffoldHTTPClient`: redirections are given to the caller. -/
def j8aClient : HttpClient where
  checkRedirect := fun _ _ => .useLast

/-- client.go `redirectBehavior`: is the response a redirection (and with which method and body would it be
followed)? A request made from a byte slice can always repeat its body. -/
def redirectBehavior (q : UpReq) (w : WireResp) : Option (Str × Bytes) :=
  if w.status = 301 ∨ w.status = 302 ∨ w.status = 303 then
    some (if q.method ≠ "GET".toList ∧ q.method ≠ "HEAD".toList then "GET".toList else q.method, [])
  else if w.status = 307 ∨ w.status = 308 then
    if w.header.get "Location".toList = [] then none else some (q.method, q.body)
  else none

/-- client.go `Client.do`: sends the request and looks at redirections. `via` are the requests made so far,
`net` the world on the other side. The first component are the requests put on the wire, the second is the
result; `fuel` bounds the number of hops. -/
def clientDo (C : HttpClient) (T : NetLib) (net : WireReq → Option WireResp) :
    (fuel : Nat) → (via : List UpReq) → UpReq → List WireReq × Option WireResp
  | 0, _, _ => ([], none)
  | fuel + 1, via, q =>
    match net (wireRequest T q) with
    | none => ([wireRequest T q], none)
    | some w =>
      let w := decompress T q w
      match redirectBehavior q w with
      | none => ([wireRequest T q], some w)
      | some (method, body) =>
        let loc := w.header.get "Location".toList
        if loc = [] then ([wireRequest T q], none)
        else match T.resolve q.uri loc with
          | none => ([wireRequest T q], none)
          | some uri =>
            let q' : UpReq := { method := method, uri := uri, header := q.header, body := body }
            match C.checkRedirect q' (via ++ [q]) with
            | .useLast => ([wireRequest T q], some w)
            | .stop => ([wireRequest T q], none)
            | .follow =>
              let (sent, res) := clientDo C T net fuel (via ++ [q]) q'
              (wireRequest T q :: sent, res)

/-- proxyhandler.go:155 `httpClient.Do(req)`. No client makes more than a hundred hops here. -/
def httpDo (T : NetLib) (net : WireReq → Option WireResp) (q : UpReq) : List WireReq × Option WireResp :=
  clientDo j8aClient T net 100 [] q

end J8a

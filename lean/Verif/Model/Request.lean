import Verif.Go.Header
import Verif.Model.JwtAuth
import Verif.Model.Config
/-!
# proxy.go:195-341 — reading the incoming request
-/
namespace J8a
open Go

/-! ## Reading bodies: net/http and io/ioutil -/

/-- How a body ends: properly, or by a failure (client gone, read timeout, bad chunk). -/
inductive BodyEnd where
  | eof | failed
deriving DecidableEq, Repr

/-- A request body as it comes from the connection: pieces as they arrive, then the end. -/
structure Body where
  pieces : List Bytes := []
  ending : BodyEnd := .eof
  /-- does the reader report the end together with the last bytes? -/
  eager : Bool := false
deriving DecidableEq, Repr

/-- `Read` with a buffer of `p` bytes: what it returns, whether with the end, and what is left. -/
def Body.read (b : Body) (p : Nat) : Bytes × Option BodyEnd × Body :=
  match b.pieces with
  | [] => ([], some b.ending, b)
  | c :: cs =>
    if c.length ≤ p then
      (c, if b.eager ∧ cs = [] then some b.ending else none, { b with pieces := cs })
    else (c.take p, none, { b with pieces := c.drop p :: cs })

/-- Why reading stopped. -/
inductive ReadEnd where
  | eof | failed | tooLarge
deriving DecidableEq, Repr

def BodyEnd.toReadEnd : BodyEnd → ReadEnd
  | .eof => .eof
  | .failed => .failed

/-- `ioutil.ReadAll(bufio.NewReader(http.MaxBytesReader(w, body, n)))`, net/http/request.go
(Go 1.15) `maxBytesReader.Read`. `sz i + 1` is the buffer size of the i-th read (chosen by bufio
and ReadAll; arbitrary here); the reader asks for at most one byte more than allowed. -/
def readAllMax (sz : Nat → Nat) : (fuel : Nat) → (i n : Nat) → Body → Bytes → Bytes × ReadEnd
  | 0, _, _, _, acc => (acc, .failed)
  | fuel + 1, i, n, b, acc =>
    let p := min (sz i + 1) (n + 1)
    let (got, e, rest) := b.read p
    if got.length ≤ n then
      match e with
      | some e => (acc ++ got, e.toReadEnd)
      | none => readAllMax sz fuel (i + 1) (n - got.length) rest (acc ++ got)
    else (acc ++ got.take n, .tooLarge)

/-- A number of reads that is always enough. -/
def Body.fuel (b : Body) : Nat := b.pieces.flatten.length + b.pieces.length + 1

/-! ## The request -/

/-- The parts of `*http.Request` used. `requestURI` is the request line's target
(`request.RequestURI`), `uri` is `request.URL.RequestURI()`. -/
structure Request where
  method : Str
  requestURI : Str
  uri : Str
  header : Entries
  contentLength : Int
  body : Body
deriving Repr

/-- What `parseRequestBody` leaves in the proxy object. -/
structure ParsedBody where
  body : Bytes := []
  tooLarge : Bool := false
deriving DecidableEq, Repr

/-- proxy.go:231-282 `parseRequestBody`. -/
def parseRequestBody (sz : Nat → Nat) (max : Int) (rq : Request) : ParsedBody :=
  if rq.contentLength = 0 then {}
  else if rq.contentLength ≥ max then { tooLarge := true }
  else
    let (buf, e) := readAllMax sz rq.body.fuel 0 max.toNat rq.body []
    if (buf.length : Int) > max then { tooLarge := true }
    else if e ≠ .eof then {}
    else { body := buf }

/-- proxy.go:284-286 `parseMethod`. -/
def parseMethod (rq : Request) : Str := toUpper rq.method

/-- proxyhandler.go:16. -/
def xRequestID : Str := "X-Request-Id".toList

/-- proxy.go:319-327 `createXRequestID`. -/
def createXRequestID (id uuid : Str) (rq : Request) : Str :=
  let xr := rq.header.get xRequestID
  if xr.length = 0 then "XR-".toList ++ id ++ "-".toList ++ uuid else xr

/-- proxy.go:219. -/
def sendGzip (rq : Request) : Bool :=
  contains (rq.header.get "Accept-Encoding".toList) "gzip".toList

/-- proxy.go:41, 44-45 `httpRepeatableMethods`. -/
def repeatableMethods : List Str :=
  ["GET", "HEAD", "OPTIONS", "TRACE", "PUT", "DELETE"].map String.toList

/-- proxy.go:48 `httpLegalMethods`. -/
def legalMethods : List Str := repeatableMethods ++ ["POST", "CONNECT"].map String.toList

/-- proxyhandler.go:28 `httpHeadersNoRewrite`. -/
def httpHeadersNoRewrite : List Str :=
  ["Date", "Content-Length", "Transfer-Encoding", "Server"].map String.toList

/-- proxyhandler.go:284-291 `shouldProxyHeader`. -/
def shouldProxyHeader (h : Str) : Bool := httpHeadersNoRewrite.all fun i => !equalFold h i

/-- The loops proxyhandler.go:134-140 and proxy.go:398-404: add all values of all proxied headers
to `dst`. -/
def copyHeaders (src : Entries) (dst : Hdr) : Hdr :=
  src.foldl (fun h (kv : Str × List Str) =>
    if shouldProxyHeader kv.1 then kv.2.foldl (fun h v => h.add kv.1 v) h else h) dst

/-- An upstream request. -/
structure UpReq where
  method : Str
  uri : Str
  header : Hdr
  body : Bytes

/-- proxyhandler.go:105-144 `scaffoldUpstreamRequest` (without the context, see the attempt
machine), proxy.go:336-341 `bodyReader`. The header map of a new request is empty. -/
def scaffoldUpstreamRequest (xrid : Str) (pb : ParsedBody) (rq : Request) (r : Route) (u : URL) :
    UpReq where
  method := parseMethod rq
  uri := resolveUpstreamURI u r rq.uri
  header := (copyHeaders rq.header Hdr.empty).set xRequestID xrid
  body := pb.body

/-! ## The part of the handler before the first upstream attempt -/

/-- What `proxyHandler` decides. -/
inductive Decision where
  | respond (code : Int) (msg : Str)
  | forward (r : Route) (u : URL) (label : Str)
  | panic
deriving DecidableEq, Repr

variable {K : Type}

/-- proxyhandler.go:55: the token check of a route. A route naming an unknown jwt (excluded by boot)
would dereference nil at proxy.go:534, reached with a token in place. -/
def authorise (L : Jwx K) (jwts : List (Str × Jwt K)) (now : Int) (r : Route) (rq : Request) :
    AuthResult :=
  if r.hasJwt then
    let auth := rq.header.get "Authorization".toList
    match jwts.lookup r.jwt with
    | some j => validateToken L j now auth
    | none => if (bearerToken auth).isSome then .panic else .reject
  else .accept

/-- proxyhandler.go:33-76 `proxyHandler` up to `handle`. `pick` is `resolveLabel`. -/
def decision (E : Regexp) (L : Jwx K) (c : Config (Jwt K)) (pick : Policy → Str) (now : Int)
    (pb : ParsedBody) (rq : Request) : Decision :=
  if ¬ (parseMethod rq ∈ legalMethods ∧ pb.tooLarge = false) then
    if pb.tooLarge then
      .respond 413 ("http request entity too large, limit is ".toList ++
        itoa c.connection.downstream.maxBodyBytes ++ " bytes".toList)
    else .respond 400 "bad or malformed request".toList
  else match dispatch E c.routes rq.requestURI with
    | none => .respond 404 "upstream resource not found".toList
    | some r => match authorise L c.jwt now r rq with
      | .panic => .panic
      | .reject =>
        .respond 401 "jwt bearer token missing, invalid, expired or unauthorized".toList
      | .accept => match r.mapURL pick c.policies c.resources with
        | .panics => .panic
        | .notMapped => .respond 503 "unable to map upstream resource".toList
        | .mapped u l => .forward r u l

end J8a

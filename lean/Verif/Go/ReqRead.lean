import Verif.Go.ReqWrite
import Verif.Go.RespWrite
import Verif.Go.Num
/-!
# net/http of Go 1.15: how a server reads a request from a connection

`readRequest`, `ParseHTTPVersion`, `fixPragmaCacheControl` (request.go, header.go), `conn.readRequest`,
`http1ServerSupportsRequest` (server.go), `parseTransferEncoding`, `fixLength`, `fixTrailer`, `readTransfer`,
`body.readTrailer` (transfer.go), `chunkedReader` (internal/chunked.go), `ReadMIMEHeader`, `readContinuedLineSlice`
(net/textproto), `ValidHostHeader` (httpguts); from the source as remembered. A stream is everything that a client sends.
Simplified: no limit on the length of the head (1 MB), of a chunk line (4 KB) or of a trailer; `none` stands for
everything that is not given to a handler: answered with 400, 417, 431, 501 or 505 or waited for.
-/
namespace J8a.Go

/-! ## Lines and header fields -/

/-- bufio `ReadLine`: up to a line feed, without it and without a carriage return before it. -/
def readLine (s : Str) : Option (Str × Str) :=
  if '\n' ∈ s then
    let l := (cutAt '\n' s).1
    some (if l.getLast? = some '\r' then l.dropLast else l, (cutAt '\n' s).2)
  else none

/-- Lines up to an empty one, and what follows it. -/
def headLines : (fuel : Nat) → Str → Option (List Str × Str)
  | 0, _ => none
  | n + 1, s => match readLine s with
    | none => none
    | some ([], r) => some ([], r)
    | some (c :: l, r) => (headLines n r).map fun p => ((c :: l) :: p.1, p.2)

def isBlank (c : Char) : Bool := c = ' ' || c = '\t'

/-- textproto `trim`. -/
def trimBlank (s : Str) : Str := ((s.dropWhile isBlank).reverse.dropWhile isBlank).reverse

/-- Does a line continue the one before? -/
def isFold : Str → Bool
  | [] => false
  | c :: _ => isBlank c

/-- textproto `readContinuedLineSlice`, for all lines after the first, which has been read as `kv`. -/
def joinFolds (kv : Str) : List Str → List Str
  | [] => [kv]
  | l :: ls => if isFold l then joinFolds (kv ++ ' ' :: trimBlank l) ls else kv :: joinFolds (trimBlank l) ls

/-- Lines that are folded become one. The first line begins a field, and there is a colon in each line that does; one in a
continuation does not count. -/
def unfoldLines : List Str → Option (List Str)
  | [] => some []
  | l :: ls => if isFold l then none else if (l :: ls).all (fun l => isFold l || l.contains ':') then
      some (joinFolds (trimBlank l) ls) else none

/-- textproto `ReadMIMEHeader`: name and value. -/
def mimeField (kv : Str) : Str × Str := (canon (cutAt ':' kv).1, (cutAt ':' kv).2.dropWhile isBlank)

/-- `m[key] = append(m[key], value)`. -/
def addField (e : Entries) (f : Str × Str) : Entries :=
  if f.1 ∈ e.map Prod.fst then e.map fun kv => if kv.1 = f.1 then (kv.1, kv.2 ++ [f.2]) else kv
  else e ++ [(f.1, [f.2])]

/-- textproto `ReadMIMEHeader`: fields without name are skipped. -/
def mimeHeader (kvs : List Str) : Entries := ((kvs.map mimeField).filter fun f => f.1 ≠ []).foldl addField []

/-! ## The head of a request -/

/-- request.go `ParseHTTPVersion`. -/
def httpVersion (v : Str) : Option (Nat × Nat) :=
  if v = "HTTP/1.1".toList then some (1, 1)
  else if v = "HTTP/1.0".toList then some (1, 0)
  else if hasPrefix v "HTTP/".toList && v.contains '.' then
    match atoi ((cutAt '.' v).1.drop 5), atoi (cutAt '.' v).2 with
    | some a, some b =>
      if 0 ≤ a ∧ a ≤ 1000000 ∧ 0 ≤ b ∧ b ≤ 1000000 then some (a.toNat, b.toNat) else none
    | _, _ => none
  else none

/-- httpguts `ValidHostHeader`. -/
def validHost (h : Str) : Bool := h.all fun c => c.isAlphanum || c ∈ "!$%&()*+,-.:;=[']_~".toList

def delKey (e : Entries) (k : String) : Entries := e.filter fun kv => kv.1 ≠ k.toList

def hasKey (e : Entries) (k : String) : Bool := e.any fun kv => kv.1 = k.toList

/-- header.go `fixPragmaCacheControl`. -/
def fixPragma (e : Entries) : Entries :=
  if (e.values "Pragma".toList).head? = some "no-cache".toList && !hasKey e "Cache-Control" then
    e ++ [("Cache-Control".toList, ["no-cache".toList])]
  else e

/-- How the body of a request is delimited. -/
inductive Framing where
  | sized (n : Nat)
  | chunked
  /-- Transfer-Encoding is chunked and the method is HEAD: no body is read -/
  | ignored
deriving DecidableEq, Repr

/-- `Request.ContentLength`. -/
def Framing.length : Framing → Int
  | .sized n => n
  | .chunked => -1
  | .ignored => 0

/-- transfer.go `parseContentLength`: digits that fit. -/
def parseLength (s : Str) : Option Nat :=
  if s ≠ [] ∧ s.all Char.isDigit ∧ (digitsVal s : Int) ≤ maxInt64 then some (digitsVal s) else none

/-- The ASCII part of `unicode.IsSpace`. -/
def isSpace (c : Char) : Bool := c = ' ' || (9 ≤ c.toNat && c.toNat ≤ 13)

/-- strings.TrimSpace. Simplified: spaces that are not ASCII stay. -/
def trimSpace (s : Str) : Str := ((s.dropWhile isSpace).reverse.dropWhile isSpace).reverse

/-- transfer.go `fixLength`, of a request: the length and the header that is left. -/
def fixLength (method : Str) (chunked : Bool) (e : Entries) : Option (Framing × Entries) :=
  let vs := e.values "Content-Length".toList
  let same := vs.all fun v => trimSpace v = trimSpace (vs.headD [])
  if vs.length > 1 ∧ ¬ same then none
  else
    let one := if vs.length > 1 then [trimSpace (vs.headD [])] else vs
    let e1 := if vs.length > 1 then delKey e "Content-Length" ++ [("Content-Length".toList, one)] else e
    if method = "HEAD".toList then
      if one = [] ∨ one = ["0".toList] then some (if chunked then .ignored else .sized 0, e1) else none
    else if chunked then some (.chunked, e1)
    else match one with
      | [v] => if trimSpace v = [] then some (.sized 0, delKey e1 "Content-Length")
        else (parseLength (trimSpace v)).map fun n => (.sized n, e1)
      | _ => some (.sized 0, delKey e1 "Content-Length")

/-- transfer.go `parseTransferEncoding`: is it chunked, and the header that is left. -/
def fixCoding (atLeast11 : Bool) (e : Entries) : Option (Bool × Entries) :=
  if hasKey e "Transfer-Encoding" then
    let e1 := delKey e "Transfer-Encoding"
    if !atLeast11 then some (false, e1)
    else match e.values "Transfer-Encoding".toList with
      | [v] => if toLower (trimString v) = "chunked".toList then some (true, delKey e1 "Content-Length") else none
      | _ => none
  else some (false, e)

/-- transfer.go `fixTrailer`. -/
def fixTrailer (chunked : Bool) (e : Entries) : Option Entries :=
  if chunked && hasKey e "Trailer" then
    let names := (e.values "Trailer".toList).flatMap fun v => (split ',' v).map trimString
    if names.any fun k => canon k ∈ ["Transfer-Encoding", "Trailer", "Content-Length"].map String.toList then none
    else some (delKey e "Trailer")
  else some e

/-- What is known of a request when its head has been read. -/
structure Head where
  method : Str
  target : Str
  version : Nat × Nat
  header : Entries
  framing : Framing
deriving DecidableEq, Repr

/-- server.go `conn.readRequest`, the checks that need the header as it was sent. -/
def headerOk (method : Str) (version : Nat × Nat) (e : Entries) : Bool :=
  let hosts := e.values "Host".toList
  (version.2 = 0 || hosts ≠ [] || method = "CONNECT".toList) &&
    hosts.length ≤ 1 && hosts.all validHost &&
    e.all (fun kv => validFieldName kv.1 && kv.2.all validFieldValue)

/-- request.go `expectsContinue`, server.go `conn.serve`: every other expectation is refused with 417. -/
def expectOk (e : Entries) : Bool :=
  e.get "Expect".toList = [] || hasToken (e.get "Expect".toList) "100-continue".toList

/-- server.go `conn.readRequest` with request.go `readRequest` and transfer.go `readTransfer`: the head of a request and
what follows it in the stream. The target has yet to be parsed. A request with another major version than 1 is
refused; the one exception, PRI with HTTP/2.0, does not get to a handler. -/
def readHead (s : Str) : Option (Head × Str) := do
  let (first, r) ← readLine s
  let (method, target, proto) ← parseRequestLine first
  if !validFieldName method then none
  let version ← httpVersion proto
  if version.1 ≠ 1 then none
  let (lines, rest) ← headLines (r.length + 1) r
  let kvs ← unfoldLines lines
  let sent := mimeHeader kvs
  let (chunked, e1) ← fixCoding (version.2 ≥ 1) (fixPragma sent)
  let (framing, e2) ← fixLength method chunked e1
  let e3 ← fixTrailer chunked e2
  if headerOk method version e3 && expectOk e3 then
    some (⟨method, target, version, delKey e3 "Host", framing⟩, rest)
  else none

/-! ## The body -/

/-- chunked.go `parseHexUint`: at most sixteen digits; no digit at all is read as 0. -/
def parseHexUint (s : Str) : Option Nat :=
  if s.length ≤ 16 ∧ s.all (fun c => c.isDigit || (c.toNat ≥ 97 && c.toNat ≤ 102) || (c.toNat ≥ 65 && c.toNat ≤ 70)) then
    some (s.foldl (fun n c => 16 * n + (if c.isDigit then c.toNat - 48 else if c.toNat ≥ 97 then c.toNat - 87 else c.toNat - 55)) 0)
  else none

/-- chunked.go `readChunkLine`: without white space at the end and without an extension. -/
def chunkSize (line : Str) : Option Nat :=
  parseHexUint (cutAt ';' (line.reverse.dropWhile isASCIISpace).reverse).1

/-- transfer.go `body.readTrailer`: what follows the trailer. -/
def readTrailer (s : Str) : Option Str :=
  if s.take 2 = ['\r', '\n'] then some (s.drop 2)
  else if !contains s "\r\n\r\n".toList then none
  else do
    let (lines, rest) ← headLines (s.length + 1) s
    let _ ← unfoldLines lines
    some rest

/-- chunked.go `chunkedReader`: what is read, and what follows unless reading fails. -/
def readChunks : (fuel : Nat) → Str → Str × Option Str
  | 0, _ => ([], none)
  | n + 1, s =>
    if '\n' ∈ s then
      match chunkSize (cutAt '\n' s).1 with
      | none => ([], none)
      | some 0 => ([], readTrailer (cutAt '\n' s).2)
      | some (k + 1) =>
        let r := (cutAt '\n' s).2
        if r.length ≤ k then (r, none)
        else if (r.drop (k + 1)).take 2 = ['\r', '\n'] then
          let (b, e) := readChunks n (r.drop (k + 3))
          (r.take (k + 1) ++ b, e)
        else (r.take (k + 1), none)
    else ([], none)

/-- transfer.go `readTransfer`: the body at the beginning of a stream, and what follows unless reading fails. -/
def readBody : Framing → Str → Str × Option Str
  | .sized n, s => if n ≤ s.length then (s.take n, some (s.drop n)) else (s, none)
  | .chunked, s => readChunks (s.length + 1) s
  | .ignored, s => ([], some s)

end J8a.Go

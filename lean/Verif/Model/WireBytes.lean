import Verif.Go.ReqWrite
import Verif.Model.Client
import Verif.Model.Target
/-!
# proxyhandler.go:105-156 — the bytes that are sent to an upstream

`Transport.roundTrip` (transport.go), which refuses some requests, and `Request.write` (request.go) of Go 1.15. The
request has no transfer coding and no trailer and is not to close the connection; the body is in memory, its
length is known (proxy.go:336-341).
-/
namespace J8a
open Go

/-- request.go `reqWriteExcludeHeader`. -/
def reqWriteExclude : List Str :=
  ["Host", "User-Agent", "Content-Length", "Transfer-Encoding", "Trailer"].map String.toList

/-- The header fields in the order they are written. `keys` are the names in the header map; `sortedKeyValues` sorts
them. -/
def requestFields (host : Str) (keys : List Str) (q : UpReq) : List (Str × Str) :=
  ("Host".toList, host) :: (wireUserAgent q.header).map (fun v => ("User-Agent".toList, v)) ++
  (wireLength q).map (fun v => ("Content-Length".toList, v)) ++
  (keys.filter (fun k => k ∉ reqWriteExclude)).flatMap
    (fun k => (q.header k).map fun v => (k, trimString (newlineToSpace v))) ++
  (if addsGzip q then [("Accept-Encoding".toList, "gzip".toList)] else [])

/-- Bytes of a body as characters. -/
def bodyText (b : Bytes) : Str := b.map fun x => Char.ofNat x.toNat

/-- What goes over the connection, if anything does: `roundTrip` checks names, values, method and host;
`Request.write` checks the target. -/
def writeRequest (keys : List Str) (q : UpReq) : Option Str :=
  match wireTarget q, sentHost q, Url.parse q.uri with
  | some t, some h, some u =>
    if keys.all (fun k => validFieldName k && (q.header k).all validFieldValue) && validFieldName q.method &&
        u.host ≠ [] && !containsCTL t then
      some (q.method ++ ' ' :: t ++ " HTTP/1.1\r\n".toList ++
        (requestFields h keys q).flatMap (fun f => f.1 ++ ": ".toList ++ f.2 ++ "\r\n".toList) ++
        "\r\n".toList ++ bodyText q.body)
    else none
  | _, _, _ => none

end J8a

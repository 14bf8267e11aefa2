import Verif.Go.ReqRead
import Verif.Model.WireBytes
/-!
# server.go:132-147, proxy.go:195-220 — requests as they arrive on a connection

`conn.serve` of Go 1.15 gives the handler a request that it has read from the connection. The handler sees it in pieces as
they come, with its header map in some order.
-/
namespace J8a
open Go

/-- A client sends `stream` (bytes as characters), and this is the request that is made of it. `rest` is what follows, if the
body is read to its end. -/
structure Delivers (stream : Str) (rq : Request) (rest : Option Str) (h : Head) (after : Str) : Prop where
  head : readHead stream = some (h, after)
  method : rq.method = h.method
  requestURI : rq.requestURI = h.target
  url : ∃ u, requestUrl h.method h.target = some u ∧ rq.uri = u.requestURI
  header : h.header.Perm rq.header
  length : rq.contentLength = h.framing.length
  body : bodyText rq.body.pieces.flatten = (readBody h.framing after).1
  ending : rq.body.ending = .eof ↔ ∃ r, (readBody h.framing after).2 = some r
  rest : rest = (readBody h.framing after).2

/-- The same, without what only the library knows. -/
def Arrives (stream : Str) (rq : Request) (rest : Option Str) : Prop := ∃ h after, Delivers stream rq rest h after

end J8a

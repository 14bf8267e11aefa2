import Verif.Go.RespRead
import Verif.Model.Client
import Verif.Model.WireBytes
/-!
# httpclient.go:26-48, proxyhandler.go:155 — responses as they arrive from an upstream

`Transport.RoundTrip` of Go 1.15 returns a response that it has read from the connection to the upstream; its header map has
some order. What the transport does with a compressed body comes after that (`decompress` of `Model/Client`).
-/
namespace J8a
open Go

/-- An upstream sends `stream` (bytes as characters) after a request with this method, and this is the response that is made
of it. `rest` is what follows, if the body is read to its end. -/
structure Receives (method stream : Str) (w : WireResp) (rest : Option Str) (h : RespHead) (after : Str) : Prop where
  head : readFinal method maxInterims stream = some (h, after)
  status : w.status = h.status
  header : h.header.Perm w.header
  length : w.contentLength = h.length
  body : bodyText w.body = (readRespBody h.framing after).1
  ending : w.ending = .eof ↔ ∃ r, (readRespBody h.framing after).2 = some r
  rest : rest = (readRespBody h.framing after).2

/-- The same, without what only the library knows. -/
def Received (method stream : Str) (w : WireResp) (rest : Option Str) : Prop :=
  ∃ h after, Receives method stream w rest h after

end J8a

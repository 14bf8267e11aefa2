import Verif.Model.Arrival
import Verif.Model.RespBytes
/-!
# server.go:132-147 — what a client asks about its connection

`shouldClose` (transfer.go), `Request.wantsClose`, `Request.wantsHttp10KeepAlive` (request.go) of Go 1.15 and
`HeaderValuesContainsToken` (httpguts), from the source as remembered.
-/
namespace J8a
open Go

/-- httpguts `headerValueContainsToken`; the first argument bounds the number of commas. -/
def valueHasToken (token : Str) : Nat → Str → Bool
  | 0, _ => false
  | n + 1, v =>
    let v := trimBlank v
    if ',' ∈ v then equalFold (trimBlank (cutAt ',' v).1) token || valueHasToken token n (cutAt ',' v).2
    else equalFold v token

/-- httpguts `HeaderValuesContainsToken`. -/
def valuesHaveToken (vs : List Str) (token : Str) : Bool := vs.any fun v => valueHasToken token (v.length + 1) v

/-- transfer.go `shouldClose`. Versions below 1 do not get here. -/
def shouldClose (version : Nat × Nat) (e : Entries) : Bool :=
  let conv := e.values "Connection".toList
  let hasClose := valuesHaveToken conv "close".toList
  if version = (1, 0) then hasClose || !valuesHaveToken conv "keep-alive".toList else hasClose

/-- request.go `wantsClose`: the header is that of the request as it was read. -/
def wantsClose (h : Head) : Bool :=
  shouldClose h.version h.header || hasToken (h.header.get "Connection".toList) "close".toList

/-- request.go `wantsHttp10KeepAlive`. -/
def wants10KeepAlive (h : Head) : Bool :=
  h.version = (1, 0) && hasToken (h.header.get "Connection".toList) "keep-alive".toList

/-- server.go `conn.readRequest`: what the head says about the connection of its response. -/
structure ConnFrom (h : Head) (c : ReplyConn) : Prop where
  method : c.method = h.method
  version : c.version = if h.version.2 = 0 then .v10 (wants10KeepAlive h) else .v11
  closing : c.closing = wantsClose h

end J8a

import Verif.Model.Response
import Verif.Model.Responses
/-!
# responses.go:154-185 — the about handler
-/
namespace J8a
open Go

/-- responses.go:154-185 `aboutHandler`: `ae` are the values of Accept-Encoding. The status is 200:
`WriteHeader` is not called. (The request body is read and ignored; the handler runs for every method.) -/
def aboutHandler (e : RespEnv) (id version : Str) (seed : Nat) (ae : List Str) : Sent :=
  let h := writeStandardResponseHeaders e Hdr.empty
  let res := strBytes (aboutJson id version seed)
  let h := h.set "Content-Type".toList "application/json".toList
  if 0 < ae.length then
    if contains (join [' '] ae) "gzip".toList then
      let h := h.set "Content-Encoding".toList "gzip".toList
      let res := e.codec.enc res
      { status := 200, header := h.set "Content-Length".toList (natToDec res.length), body := res }
    else
      let h := h.set "Content-Encoding".toList "identity".toList
      { status := 200, header := h.set "Content-Length".toList (natToDec res.length), body := res }
  else
    let h := h.set "Content-Encoding".toList "identity".toList
    { status := 200, header := h.set "Content-Length".toList (natToDec res.length), body := res }

end J8a

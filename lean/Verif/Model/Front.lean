import Verif.Go.Header
import Verif.Model.Redirect
/-!
# server.go:132-147 — from the request line to the handler, and what is answered without one

`conn.serve` and `ServeMux.ServeHTTP` of Go 1.15, from the source as remembered. Only the headers that the code sets are told:
`net/http` adds Date, Content-Length and Connection. Left out: requests that are refused because of their version, method,
headers or Host.
-/
namespace J8a
open Go

inductive FrontAnswer where
  /-- written by `net/http` itself -/
  | library (status : Nat) (header : Hdr)
  /-- the gateway's handler for about -/
  | about
  /-- the gateway's handler for everything else -/
  | proxy

/-- `http.Error`. -/
def errorHeader : Hdr :=
  (Hdr.empty.set "Content-Type".toList "text/plain; charset=utf-8".toList).set "X-Content-Type-Options".toList "nosniff".toList

/-- `http.Redirect`. -/
def redirectHeader (method loc : Str) : Hdr :=
  let h := Hdr.empty.set "Location".toList loc
  if method = "GET".toList ∨ method = "HEAD".toList then h.set "Content-Type".toList "text/html; charset=utf-8".toList else h

/-- Who answers a request with this request line. -/
def front (x : Mux) (method target user : Str) : FrontAnswer :=
  match requestUrl method target with
  -- badRequestError: written to the connection as it is
  | none => .library 400 (Hdr.empty.set "Content-Type".toList "text/plain; charset=utf-8".toList)
  | some u =>
    match x.serve method target u.path with
    | .badRequest => .library 400 Hdr.empty
    | .notFound => .library 404 errorHeader
    | .moved p => .library 301 (redirectHeader method (redirectLocation [] ((movedUrl x u p).string user)))
    | .served .about => .about
    | .served .proxy => .proxy

end J8a

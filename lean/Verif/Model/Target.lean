import Verif.Go.ReqWrite
import Verif.Go.Url
import Verif.Model.Request
/-!
# Request targets: from the client's request line to the upstream's

`net/http` of Go 1.15 around proxy.go:208-209 and proxyhandler.go:118-121.
-/
namespace J8a
open Go

/-- request.go `readRequest`: the URL of a request line. A target that does not parse is answered with 400
by `net/http`. -/
def requestUrl (method target : Str) : Option Url :=
  if method = "CONNECT".toList ∧ target.head? ≠ some '/' then
    (parseRequestURI ("http://".toList ++ target)).map fun u => { u with scheme := [] }
  else parseRequestURI target

/-- proxy.go:209: the request as made by `net/http` from its request line, with this URL. -/
structure Request.From (rq : Request) (u : Url) : Prop where
  url : requestUrl rq.method rq.requestURI = some u
  uri : rq.uri = u.requestURI

/-- request.go `NewRequestWithContext` succeeds (proxyhandler.go:118). The methods that get here are all
valid and there is a context, so only the URL counts. -/
def newRequestOk (uri : Str) : Bool := (Url.parse uri).isSome

/-- request.go `NewRequestWithContext`: `Request.Host`, with `removeEmptyPort`. -/
def wireHost (q : UpReq) : Option Str :=
  (Url.parse q.uri).map fun u => if u.host.getLast? = some ':' then u.host.dropLast else u.host

/-- request.go `Request.write`: the value of Host. -/
def sentHost (q : UpReq) : Option Str := (wireHost q).map fun h => removeZone (cleanHost h)

/-- request.go `Request.write`: the target in the request line sent to the upstream. -/
def wireTarget (q : UpReq) : Option Str :=
  (Url.parse q.uri).map fun u =>
    if q.method = "CONNECT".toList ∧ u.path = [] then if u.opaq ≠ [] then u.opaq else (sentHost q).getD []
    else u.requestURI

end J8a

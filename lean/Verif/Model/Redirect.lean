import Verif.Go.Redirect
import Verif.Model.Mux
import Verif.Model.Target
/-!
# server.go:132-147 — where the mux sends a client whose path is not clean

`ServeMux.Handler` of Go 1.15, with the URL that it redirects to. Methods other than CONNECT.
-/
namespace J8a
open Go

/-- `ServeMux.Handler` and `redirectToPathSlash`: the URL of the redirection to path `p`. Adding a slash keeps nothing but
the query; cleaning keeps the rest of the URL. -/
def movedUrl (x : Mux) (u : Url) (p : Str) : Url :=
  if x.shouldRedirect (cleanPath u.path) then { path := p, rawQuery := u.rawQuery } else { u with path := p }

/-- `Location` of the response to a request with URL `u`, if it is a redirection. `user` is the user information of the URL.
`path.Split` of the path of the request is not needed: if there is no opaque part, what is redirected to has a slash or a
host, so the directory is left empty. -/
def Mux.location (x : Mux) (method target user : Str) (u : Url) : Option Str :=
  match x.serve method target u.path with
  | .moved p => some (redirectLocation [] ((movedUrl x u p).string user))
  | _ => none

end J8a

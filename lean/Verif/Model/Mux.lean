import Verif.Go.Path
import Verif.Model.Config
/-!
# server.go:132-147 — which handler gets a request

`net/http.ServeMux` of Go 1.15. Patterns with a host are left out: every route path starts with a slash
when `mapPathsToHandler` runs (config.go:111-114), and a `Host` header cannot contain one.
-/
namespace J8a
open Go

inductive Served where
  | about
  | proxy
deriving DecidableEq, Repr

/-- `ServeMux`: the map `m` and the sorted list `es` of patterns that end in a slash. -/
structure Mux where
  m : List (Str × Served) := []
  es : List (Str × Served) := []

/-- net/http `appendSorted`: behind all patterns that are not shorter. -/
def appendSorted (e : Str × Served) : List (Str × Served) → List (Str × Served)
  | [] => [e]
  | x :: es => if x.1.length < e.1.length then e :: x :: es else x :: appendSorted e es

/-- `ServeMux.Handle`; `none` for a panic. -/
def Mux.handle (x : Mux) (p : Str) (h : Served) : Option Mux :=
  if p = [] then none
  else if (x.m.lookup p).isSome then none
  else some { m := (p, h) :: x.m, es := if p.getLast? = some '/' then appendSorted (p, h) x.es else x.es }

/-- server.go:137-142, the loop over the routes. -/
def Mux.addAbout : List Route → Mux → Option Mux
  | [], x => some x
  | r :: rs, x =>
    if r.resource = "about".toList then
      match x.handle r.path .about with
      | some x => addAbout rs x
      | none => none
    else addAbout rs x

/-- server.go:132-147 `mapPathsToHandler`. -/
def mapPathsToHandler (routes : List Route) : Option Mux :=
  match Mux.addAbout routes {} with
  | some x => x.handle ['/'] .proxy
  | none => none

/-- `ServeMux.match`. -/
def Mux.match (x : Mux) (path : Str) : Option Served :=
  match x.m.lookup path with
  | some h => some h
  | none => (x.es.find? fun e => hasPrefix path e.1).map (·.2)

/-- `ServeMux.shouldRedirectRLocked`. -/
def Mux.shouldRedirect (x : Mux) (path : Str) : Bool :=
  if (x.m.lookup path).isSome then false
  else if path = [] then false
  else if (x.m.lookup (path ++ ['/'])).isSome then path.getLast? ≠ some '/' else false

inductive MuxAnswer where
  /-- `400`, written by the mux -/
  | badRequest
  /-- `404`, written by net/http -/
  | notFound
  /-- `301` to this path -/
  | moved (path : Str)
  | served (h : Served)
deriving DecidableEq, Repr

/-- `ServeMux.handler`. -/
def Mux.handler (x : Mux) (path : Str) : MuxAnswer :=
  match x.match path with
  | some h => .served h
  | none => .notFound

/-- `ServeMux.ServeHTTP` and `ServeMux.Handler`: `path` is the decoded path, `URL.Path`. -/
def Mux.serve (x : Mux) (method requestURI path : Str) : MuxAnswer :=
  if requestURI = ['*'] then .badRequest
  else if method = "CONNECT".toList then
    if x.shouldRedirect path then .moved (path ++ ['/']) else x.handler path
  else
    let p := cleanPath path
    if x.shouldRedirect p then .moved (p ++ ['/'])
    else if p ≠ path then .moved p
    else x.handler path

end J8a

import Verif.Model.Policy
/-!
# route.go, resource.go, upstream.go — routes, resources, upstream URLs
-/
namespace J8a
open Go

/-- Package `regexp`, as used for route paths: does a pattern compile, and does it match
somewhere in a string. Left abstract; `isMatch` is only consulted for compilable patterns. -/
structure Regexp where
  compiles : Str → Bool
  isMatch : Str → Str → Bool

/-- upstream.go:8-12 `URL`. -/
structure URL where
  scheme : Str
  host : Str
  port : Nat
deriving DecidableEq, Repr

/-- upstream.go:15-17 `URL.String`. -/
def URL.str (u : URL) : Str :=
  u.scheme ++ "://".toList ++ u.host ++ ":".toList ++ natToDec u.port

/-- resource.go:4-8 `ResourceMapping`. -/
structure ResourceMapping where
  name : Str
  labels : List Str
  url : URL
deriving DecidableEq, Repr

/-- route.go:26-33 `Route`. The compiled expression `PathRegex` is represented by its source;
`none` is the nil pointer. -/
structure Route where
  path : Str
  pathRegex : Option Str := none
  transform : Str := []
  resource : Str := []
  policy : Str := []
  jwt : Str := []
deriving DecidableEq, Repr

/-- route.go:35-44 `matchURI`, on the request's `RequestURI`. -/
def Route.matchURI (E : Regexp) (r : Route) (uri : Str) : Bool :=
  match r.pathRegex with
  | some src => E.isMatch src uri
  | none => E.compiles ('^' :: r.path) && E.isMatch ('^' :: r.path) uri

/-- route.go:94-96 `hasJwt`. -/
def Route.hasJwt (r : Route) : Bool := 0 < r.jwt.length

/-- Result of `mapURL`. `panics` is the index expression `resource[0]` (route.go:81,83) on an
empty slice. -/
inductive MapResult where
  | notMapped
  | mapped (url : URL) (label : Str)
  | panics
deriving DecidableEq, Repr

/-- route.go:61-75: first mapping carrying the label. -/
def findLabelled (label : Str) : List ResourceMapping → Option URL
  | [] => none
  | m :: ms => if m.labels.any (label == ·) then some m.url else findLabelled label ms

/-- route.go:47-92 `mapURL`. `pick` stands for `resolveLabel` on the policy (which draws the
dice). A policy name without entry reads as the nil policy. A nil slice of mappings is the
same as a missing resource. -/
def Route.mapURL (pick : Policy → Str) (policies : Str → Option Policy)
    (resources : Str → Option (List ResourceMapping)) (r : Route) : MapResult :=
  match resources r.resource with
  | none => .notMapped
  | some res =>
    if 0 < r.policy.length then
      let label := pick ((policies r.policy).getD [])
      match findLabelled label res with
      | some u => .mapped u label
      | none => .notMapped
    else
      match res with
      | [] => .panics
      | m :: _ => .mapped m.url "default".toList

/-- proxyhandler.go:52-70: the route loop stops at the first route that matches. -/
def dispatch (E : Regexp) (routes : List Route) (uri : Str) : Option Route :=
  routes.find? (fun r => r.matchURI E uri)

/-- proxy.go:129-139 `resolveUpstreamURI`. -/
def resolveUpstreamURI (u : URL) (r : Route) (uri : Str) : Str :=
  if 0 < r.transform.length then
    let t := if r.transform = ['/'] then [] else r.transform
    u.str ++ replace1 uri r.path t
  else u.str ++ uri

end J8a

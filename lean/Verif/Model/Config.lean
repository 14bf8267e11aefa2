import Verif.Model.Route
/-!
# config.go, connection.go, server.go (boot pipeline)

`J` is the type of JWT configurations (modelled in `Model/Jwt.lean`).
-/
namespace J8a
open Go

/-- connection.go:10-38 `Downstream`. -/
@[ext] structure Downstream where
  readTimeoutSeconds : Int := 0
  roundTripTimeoutSeconds : Int := 0
  idleTimeoutSeconds : Int := 0
  maxBodyBytes : Int := 0
  mode : Str := []
  port : Int := 0
  cert : Str := []
  key : Str := []
deriving DecidableEq, Repr

/-- connection.go:41-65 `Upstream`. -/
@[ext] structure Upstream where
  poolSize : Int := 0
  idleTimeoutSeconds : Int := 0
  socketTimeoutSeconds : Int := 0
  readTimeoutSeconds : Int := 0
  maxAttempts : Int := 0
  tlsInsecureSkipVerify : Bool := false
deriving DecidableEq, Repr

/-- connection.go:4-7 `Connection`. -/
structure Connection where
  downstream : Downstream := {}
  upstream : Upstream := {}
deriving DecidableEq, Repr

/-- config.go:18-24 `Config`. A map is a lookup function, except `Jwt`, whose entries are
iterated: an association list in some iteration order. -/
structure Config (J : Type) where
  policies : Str → Option Policy := fun _ => none
  routes : List Route := []
  jwt : List (Str × J) := []
  resources : Str → Option (List ResourceMapping) := fun _ => none
  connection : Connection := {}

variable {J : Type}

/-- config.go:151-160: one scheme. -/
def normScheme (s : Str) : Str :=
  if s.length = 0 then "http".toList
  else if contains s "https".toList then "https".toList
  else if contains s "http".toList then "http".toList
  else s

/-- config.go:145-165 `reApplyResourceSchemes`. -/
def Config.reApplyResourceSchemes (c : Config J) : Config J :=
  let norm := fun (m : ResourceMapping) =>
    { m with url := { m.url with scheme := normScheme m.url.scheme } }
  { c with resources := fun n => (c.resources n).map (List.map norm) }

/-- config.go:98-107 `reApplyResourceNames`. -/
def Config.reApplyResourceNames (c : Config J) : Config J :=
  { c with resources := fun n => (c.resources n).map (List.map fun m => { m with name := n }) }

/-- config.go:243-258 `validateJwt`: every entry is initialised and validated (`validate`
returns the initialised entry, or `none` when validation fails and boot is refused). -/
def Config.validateJwt (validate : Str → J → Option J) (c : Config J) : Option (Config J) :=
  (c.jwt.mapM fun (n, j) => (validate n j).map fun j' => (n, j')).map fun js => { c with jwt := js }

/-- config.go:125-134 `compileRoutePaths`: the expression is `"^" + Path`. -/
def Config.compileRoutePaths (E : Regexp) (c : Config J) : Option (Config J) :=
  if c.routes.all (fun r => E.compiles ('^' :: r.path)) then
    some { c with routes := c.routes.map fun r => { r with pathRegex := some ('^' :: r.path) } }
  else none

/-- config.go:136-143 `compileRouteTransforms`. -/
def Config.compileRouteTransforms (c : Config J) : Option (Config J) :=
  if c.routes.all (fun r => !(0 < r.transform.length && !(r.transform.take 1 == ['/']))) then
    some c
  else none

/-- config.go:112-114: prepend a slash unless `strings.Index(path, "/") == 0`. -/
def addSlash (p : Str) : Str :=
  if index p ['/'] = some 0 then p else '/' :: p

/-- config.go:109-123 `validateRoutes`. `srt` is what `sort.Sort` does (see `IsRouteSort`). -/
def Config.validateRoutes (srt : List Route → List Route) (c : Config J) : Option (Config J) :=
  if c.routes.all (fun r => !r.hasJwt || (c.jwt.lookup r.jwt).isSome) then
    some { c with routes := srt (c.routes.map fun r => { r with path := addSlash r.path }) }
  else none

/-- route.go:21-23 `Routes.Less`. -/
def routesLess (a b : Route) : Bool := b.path.length < a.path.length

/-- What is known about `sort.Sort(Routes(...))`: the result is a permutation in which no
element is less than an earlier one; the order of equally long paths is unspecified. -/
def IsRouteSort (srt : List Route → List Route) : Prop :=
  ∀ l, (srt l).Perm l ∧ (srt l).Pairwise (fun a b => routesLess b a = false)

/-- config.go:167-181 `addDefaultPolicy` (overwrites a configured policy of that name). -/
def Config.addDefaultPolicy (c : Config J) : Config J :=
  { c with policies := fun n => if n = "default".toList then some [⟨"default".toList, F64.one⟩]
                                else c.policies n }

/-- config.go:219-221 `isTLSMode`. -/
def Downstream.isTLSMode (d : Downstream) : Bool := toUpper d.mode == "TLS".toList

/-- config.go:183-217 `setDefaultDownstreamParams`, statement by statement. -/
def Downstream.setDefaults (d : Downstream) : Downstream :=
  let d := if d.readTimeoutSeconds = 0 then { d with readTimeoutSeconds := 120 } else d
  let d := if d.roundTripTimeoutSeconds = 0 then { d with roundTripTimeoutSeconds := 240 } else d
  let d := if d.idleTimeoutSeconds = 0 then { d with idleTimeoutSeconds := 120 } else d
  let d := if d.maxBodyBytes = 0 then { d with maxBodyBytes := 2 * 2 ^ 20 } else d
  let d := if d.mode.length = 0 then { d with mode := "HTTP".toList }
           else { d with mode := toUpper d.mode }
  if d.port = 0 then
    if d.isTLSMode then { d with port := 443 } else { d with port := 8080 }
  else d

/-- config.go:223-241 `setDefaultUpstreamParams`. -/
def Upstream.setDefaults (u : Upstream) : Upstream :=
  let u := if u.socketTimeoutSeconds = 0 then { u with socketTimeoutSeconds := 3 } else u
  let u := if u.readTimeoutSeconds = 0 then { u with readTimeoutSeconds := 120 } else u
  let u := if u.idleTimeoutSeconds = 0 then { u with idleTimeoutSeconds := 120 } else u
  let u := if u.poolSize = 0 then { u with poolSize := 32768 } else u
  if u.maxAttempts = 0 then { u with maxAttempts := 1 } else u

/-- config.go:223-241. -/
def Config.setDefaultUpstreamParams (c : Config J) : Config J :=
  { c with connection := { c.connection with upstream := c.connection.upstream.setDefaults } }

/-- config.go:183-217. -/
def Config.setDefaultDownstreamParams (c : Config J) : Config J :=
  { c with connection := { c.connection with downstream := c.connection.downstream.setDefaults } }

/-- server.go:62-72 `BootStrap`, everything between `load` and the listener. `none` means the
process exits. -/
def boot (E : Regexp) (validate : Str → J → Option J) (srt : List Route → List Route)
    (c : Config J) : Option (Config J) := do
  let c := c.reApplyResourceSchemes
  let c := c.reApplyResourceNames
  let c ← c.validateJwt validate
  let c ← c.compileRoutePaths E
  let c ← c.compileRouteTransforms
  let c ← c.validateRoutes srt
  let c := c.addDefaultPolicy
  let c := c.setDefaultUpstreamParams
  return c.setDefaultDownstreamParams

end J8a

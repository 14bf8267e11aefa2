import Verif.Go.Unmarshal
import Verif.Model.Boot
import Verif.Model.Source
/-!
# config.go:92-96 — from the text of a configuration to a `Config`

`yaml.YAMLToJSON` is a parameter (`none` for an error, which config.go:93 ignores). The structures have no json
tags, so their field names are the keys. The key sets inside a jwt entry are left out: what a document can put
there is no key.
-/
namespace J8a
open Go

variable {K : Type}

/-- policy.go:9-12. -/
def labelWeightFields : List (Str × Dec LabelWeight) :=
  [field "Label" (·.label) (fun s a => { s with label := a }) decString,
   field "Weight" (·.weight) (fun s a => { s with weight := a }) decFloat]

/-- policy.go:15; an element of the map of policies. A nil slice reads like a missing element. -/
def decPolicy : JVal → Option Policy
  | .arr l => some (decElems ⟨[], 0⟩ (decStruct labelWeightFields) [] l)
  | _ => none

/-- A pointer to a struct without exported fields; boot overwrites it. -/
def decRegexp : Dec (Option Str)
  | _, .null => none
  | old, _ => some (old.getD [])

/-- route.go:26-33. -/
def routeFields : List (Str × Dec Route) :=
  [field "Path" (·.path) (fun s a => { s with path := a }) decString,
   field "PathRegex" (·.pathRegex) (fun s a => { s with pathRegex := a }) decRegexp,
   field "Transform" (·.transform) (fun s a => { s with transform := a }) decString,
   field "Resource" (·.resource) (fun s a => { s with resource := a }) decString,
   field "Policy" (·.policy) (fun s a => { s with policy := a }) decString,
   field "Jwt" (·.jwt) (fun s a => { s with jwt := a }) decString]

/-- upstream.go:8-12. -/
def urlFields : List (Str × Dec URL) :=
  [field "Scheme" (·.scheme) (fun s a => { s with scheme := a }) decString,
   field "Host" (·.host) (fun s a => { s with host := a }) decString,
   field "Port" (·.port) (fun s a => { s with port := a }) decUint16]

/-- resource.go:4-8. -/
def mappingFields : List (Str × Dec ResourceMapping) :=
  [field "Name" (·.name) (fun s a => { s with name := a }) decString,
   field "Labels" (·.labels) (fun s a => { s with labels := a }) (decSlice [] decString),
   field "URL" (·.url) (fun s a => { s with url := a }) (decStruct urlFields)]

/-- config.go:22; an element of the map of resources. A nil slice reads like a missing element. -/
def decResource : JVal → Option (List ResourceMapping)
  | .arr l => some (decElems ⟨[], [], ⟨[], [], 0⟩⟩ (decStruct mappingFields) [] l)
  | _ => none

/-- jwt.go:48-61. -/
def jwtFields : List (Str × Dec (Jwt K)) :=
  [field "Name" (·.name) (fun s a => { s with name := a }) decString,
   field "Alg" (·.alg) (fun s a => { s with alg := a }) decString,
   field "Key" (·.key) (fun s a => { s with key := a }) decString,
   field "JwksUrl" (·.jwksUrl) (fun s a => { s with jwksUrl := a }) decString,
   field "AcceptableSkewSeconds" (·.acceptableSkewSeconds)
     (fun s a => { s with acceptableSkewSeconds := a }) decString]

/-- config.go:21, an element of the map: a pointer. Null is the nil pointer; anything else makes a new
struct, which stays empty if it is not an object. -/
def decJwt : JVal → Option (Jwt K)
  | .null => none
  | v => some (decStruct jwtFields {} v)

/-- connection.go:10-38. -/
def downstreamFields : List (Str × Dec Downstream) :=
  [field "ReadTimeoutSeconds" (·.readTimeoutSeconds) (fun s a => { s with readTimeoutSeconds := a }) decInt64,
   field "RoundTripTimeoutSeconds" (·.roundTripTimeoutSeconds)
     (fun s a => { s with roundTripTimeoutSeconds := a }) decInt64,
   field "IdleTimeoutSeconds" (·.idleTimeoutSeconds) (fun s a => { s with idleTimeoutSeconds := a }) decInt64,
   field "MaxBodyBytes" (·.maxBodyBytes) (fun s a => { s with maxBodyBytes := a }) decInt64,
   field "Mode" (·.mode) (fun s a => { s with mode := a }) decString,
   field "Port" (·.port) (fun s a => { s with port := a }) decInt64,
   field "Cert" (·.cert) (fun s a => { s with cert := a }) decString,
   field "Key" (·.key) (fun s a => { s with key := a }) decString]

/-- connection.go:41-65. -/
def upstreamFields : List (Str × Dec Upstream) :=
  [field "PoolSize" (·.poolSize) (fun s a => { s with poolSize := a }) decInt64,
   field "IdleTimeoutSeconds" (·.idleTimeoutSeconds) (fun s a => { s with idleTimeoutSeconds := a }) decInt64,
   field "SocketTimeoutSeconds" (·.socketTimeoutSeconds)
     (fun s a => { s with socketTimeoutSeconds := a }) decInt64,
   field "ReadTimeoutSeconds" (·.readTimeoutSeconds) (fun s a => { s with readTimeoutSeconds := a }) decInt64,
   field "MaxAttempts" (·.maxAttempts) (fun s a => { s with maxAttempts := a }) decInt64,
   field "TlsInsecureSkipVerify" (·.tlsInsecureSkipVerify)
     (fun s a => { s with tlsInsecureSkipVerify := a }) decBool]

/-- connection.go:4-7. -/
def connectionFields : List (Str × Dec Connection) :=
  [field "Downstream" (·.downstream) (fun s a => { s with downstream := a }) (decStruct downstreamFields),
   field "Upstream" (·.upstream) (fun s a => { s with upstream := a }) (decStruct upstreamFields)]

/-- config.go:18-24; a jwt entry may be the nil pointer. -/
def configFields : List (Str × Dec (Config (Option (Jwt K)))) :=
  [field "Policies" (·.policies) (fun s a => { s with policies := a }) (decMap decPolicy),
   field "Routes" (·.routes) (fun s a => { s with routes := a })
     (decSlice { path := [] } (decStruct routeFields)),
   field "Jwt" (·.jwt) (fun s a => { s with jwt := a }) (decEntries decJwt),
   field "Resources" (·.resources) (fun s a => { s with resources := a }) (decMap decResource),
   field "Connection" (·.connection) (fun s a => { s with connection := a }) (decStruct connectionFields)]

/-- `json.Unmarshal` into an empty `Config`. -/
def decConfig (v : JVal) : Config (Option (Jwt K)) := decStruct configFields {} v

/-- config.go:92-96 `parse`. A text that is not YAML leaves the configuration empty. -/
def parseConfig (yamlToJson : Str → Option JVal) (text : Str) : Config (Option (Jwt K)) :=
  match yamlToJson text with
  | some v => decConfig v
  | none => {}

/-- config.go:247 dereferences every jwt entry: `none` if one of them is nil. -/
def Config.jwtPresent (c : Config (Option (Jwt K))) : Option (Config (Jwt K)) :=
  (c.jwt.mapM fun (e : Str × Option (Jwt K)) => e.2.map fun j => (e.1, j)).map fun js =>
    { policies := c.policies, routes := c.routes, jwt := js, resources := c.resources,
      connection := c.connection }

/-- server.go:62-72 `BootStrap` from the sources to the configuration served. `none`: the process ends. -/
def bootFrom (yamlToJson : Str → Option JVal) (E : Regexp) (validate : Str → Jwt K → Option (Jwt K))
    (srt : List Route → List Route) (s : Sources) : Option (Config (Jwt K)) :=
  ((load (parseConfig yamlToJson) (·.routes.length) s).bind Config.jwtPresent).bind
    (boot E validate srt)

end J8a

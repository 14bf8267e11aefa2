import Verif.Go.Time
import Verif.Model.Logger
import Verif.Model.Handler
/-!
# proxy.go:518-661 — what is logged while a token is checked

The library gives the date claims as times in UTC (`NumericDate` of jwx 1.0.6, as remembered), and the zero time for a
claim that is absent. Texts of its errors, the local time zone and the time elapsed are parameters.
-/
namespace J8a
open Go

variable {K : Type}

/-- What the lines depend on besides the request and the keys. -/
structure TokenLogEnv where
  /-- proxy.go:524-525 -/
  path : Str
  xrid : Str
  /-- proxy.go:566, 569 -/
  micros : Int
  /-- seconds that `time.Local` is east of UTC at an instant -/
  zone : Int → Int
  /-- the text of the error with which the library rejects a token -/
  cause : Str → Str

/-- proxy.go:635-642, 644-651, 653-660: the fields about one date claim. -/
def claimFields (zone : Int → Int) (claims utc lcl unix : Str) (t : Int) : List (Str × ZVal) :=
  if 1 < t then
    [(claims, .bool true), (utc, .str (formatRFC3339 t 0)), (lcl, .str (formatRFC3339 t (zone t))), (unix, .int t)]
  else [(claims, .bool false)]

/-- proxy.go:634-661 `logDateClaims`. -/
def dateClaimFields (zone : Int → Int) (c : Claims) : List (Str × ZVal) :=
  claimFields zone "jwtClaimsIat".toList "jwtIatUtcIso".toList "jwtIatLclIso".toList "jwtIatUnix".toList
    (c.iat.getD zeroUnix) ++
  claimFields zone "jwtClaimsNbf".toList "jwtNbfUtcIso".toList "jwtNbfLclIso".toList "jwtNbfUnix".toList
    (c.nbf.getD zeroUnix) ++
  claimFields zone "jwtClaimsExp".toList "jwtExpUtcIso".toList "jwtExpLclIso".toList "jwtExpUnix".toList
    (c.exp.getD zeroUnix)

/-- proxy.go:523-525, 565-571: the event, with what was added in between. -/
def tokenEvent (e : TokenLogEnv) (fields : List (Str × ZVal)) (msg : Str) : ZEvent where
  level := .trace
  fields := [("dwnReqPath".toList, .str e.path), ("X-Request-Id".toList, .str e.xrid)] ++ fields ++
    [("dwnElapsedMicros".toList, .int e.micros)]
  msg := msg

def validatedMsg : Str := "jwt token validated".toList

/-- proxy.go:570, with `%v` of the error. -/
def rejectedMsg (cause : Str) : Str := "jwt token rejected, cause: ".toList ++ cause

/-- proxy.go:581-586: the field about the key id, if the token is verified and has signatures and a key id. -/
def kidFields (L : Jwx K) (j : Jwt K) (token : Str) : List (Str × ZVal) :=
  match j.keySet, L.signatures token with
  | some _, some n => if 0 < n ∧ 0 < (L.kid token).length then [("jwtKid".toList, .str (L.kid token))] else []
  | _, _ => []

/-- proxy.go:580-617: the error with which `verifySignature` or `jwt.Parse` leaves a token that is nil. It is nil itself
if the token has signatures and there are no keys. -/
def parseCause (L : Jwx K) (e : TokenLogEnv) (j : Jwt K) (token : Str) : Str :=
  match j.keySet, L.signatures token with
  | some ks, some n =>
    if n = 0 then "no signature found on jwt token".toList
    else if ks.length = 0 then "<nil>".toList else e.cause token
  | _, _ => e.cause token

/-- proxy.go:518-574, 620-632: the lines about a token, in order. Nothing is written about a check that panics but the
line about the search for keys, if it came first. -/
def tokenEvents (L : Jwx K) (e : TokenLogEnv) (r : Route) (j : Jwt K) (now : Int) (auth : Str) : List ZEvent :=
  match bearerToken auth with
  | none => [tokenEvent e [] (rejectedMsg "jwt bearer token not present".toList)]
  | some token =>
    let parsed := match j.keySet with
      | some ks => verifySignature L j.alg token ks
      | none => .ok (L.parse token)
    let rotation := match j.keySet with
      | some ks => if triggersRefresh L j token ks then [rotationEvent (L.kid token) r.path r.jwt e.xrid] else []
      | none => []
    match parsed with
    | .panic => rotation
    | .ok none => rotation ++ [tokenEvent e (kidFields L j token) (rejectedMsg (parseCause L e j token))]
    | .ok (some p) =>
      match L.parse token with
      | none => rotation
      | some c =>
        let fields := kidFields L j token ++ dateClaimFields e.zone p
        if dateClaimsOk L.skipsEpoch L.nbfStrict (skewOf j) now c then rotation ++ [tokenEvent e fields validatedMsg]
        else rotation ++ [tokenEvent e fields (rejectedMsg (e.cause token))]

end J8a

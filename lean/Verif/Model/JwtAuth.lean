import Verif.Model.Jwt
/-!
# proxy.go:517-702 — validation of bearer tokens

Times are whole seconds since the Unix epoch (the library truncates to seconds before comparing).
-/
namespace J8a
open Go

/-- The date claims of a token, `none` for a claim that is absent. -/
structure Claims where
  iat : Option Int := none
  nbf : Option Int := none
  exp : Option Int := none
deriving DecidableEq, Repr

/-- The parts of the jwx library used, as arbitrary functions.
* `signatures`: number of signatures found by `jws.Parse`; `none` if it fails.
* `parseVerify alg key token`: `jwt.Parse(token, WithVerify(alg, key))`; `none` if it fails.
* `parse token`: `jwt.Parse(token)` without verification.
* `kid token`: `extractKid` (proxy.go:680-702), base64 and JSON decoding of the token header.
* `nbfStrict`: whether `jwt.Verify` demands `now > nbf` rather than `now ≥ nbf`.
* `skipsEpoch`: whether `jwt.Verify` takes a claim of Unix second 0 for an absent one. -/
structure Jwx (K : Type) where
  signatures : Str → Option Nat
  parseVerify : Str → K → Str → Option Claims
  parse : Str → Option Claims
  kid : Str → Str
  nbfStrict : Bool
  skipsEpoch : Bool

variable {K : Type}

/-- `Unix()` of the zero `time.Time`, which the library returns for an absent claim. -/
def zeroUnix : Int := -62135596800

/-- `t.Add(d)` truncated to seconds: `t` in seconds, `d` a `time.Duration` in nanoseconds. -/
def addDuration (t d : Int) : Int := (t * 10 ^ 9 + d) / 10 ^ 9

/-- `time.Second * time.Duration(skew)` in 64 bit arithmetic. -/
def secondsDuration (skew : Int) : Int := wrap64 (10 ^ 9 * skew)

/-- proxy.go:668-670, 671-673: the claim moved back by the skew, if later than `int64(skew*1000)`.
`-time.Second*time.Duration(skew)` is the product of `-time.Second` and the skew. -/
def shiftBack (skew t : Int) : Int :=
  if t > wrap64 (skew * 1000) then addDuration t (wrap64 (-(10 ^ 9) * skew)) else t

/-- proxy.go:674-676: the expiry moved forward by the skew. -/
def shiftForward (skew t : Int) : Int :=
  if t > 1 then addDuration t (secondsDuration skew) else t

/-- Which claims `jwt.Verify` leaves unchecked: the zero time, and perhaps second 0. -/
def unchecked (skipsEpoch : Bool) (t : Int) : Bool := t == zeroUnix || (skipsEpoch && t == 0)

/-- `jwt.Verify` without options. -/
def verifyClaims (skipsEpoch nbfStrict : Bool) (now iat nbf exp : Int) : Bool :=
  (unchecked skipsEpoch exp || now < exp) &&
  (unchecked skipsEpoch iat || iat ≤ now) &&
  (unchecked skipsEpoch nbf || (if nbfStrict then nbf < now else nbf ≤ now))

/-- proxy.go:663-678 `verifyDateClaims` on the re-parsed token's claims: true when no error. -/
def dateClaimsOk (skipsEpoch nbfStrict : Bool) (skew now : Int) (c : Claims) : Bool :=
  verifyClaims skipsEpoch nbfStrict now
    (shiftBack skew (c.iat.getD zeroUnix))
    (shiftBack skew (c.nbf.getD zeroUnix))
    (shiftForward skew (c.exp.getD zeroUnix))

/-- proxy.go:606-612: the loop over all keys; stops at the first success. `last` is the value of
`parsed` before the iteration (`none` for a nil token or an error). -/
def tryKeys (L : Jwx K) (alg : Str) (token : Str) (last : Option Claims) : KeySet K → Option Claims
  | [] => last
  | kp :: ks => match L.parseVerify alg kp.key token with
    | some c => some c
    | none => tryKeys L alg token none ks

/-- Result of the functions that may crash on a token: `panic`, or a token with a nil error
(`some`), or no token or an error (`none`). -/
inductive TokenResult where
  | panic
  | ok (c : Option Claims)
deriving DecidableEq, Repr

/-- proxy.go:576-618 `verifySignature`. When `jws.Parse` fails the message is nil and
`msg.Signatures()` dereferences it (proxy.go:581-582). -/
def verifySignature (L : Jwx K) (alg : Str) (token : Str) (ks : KeySet K) : TokenResult :=
  match L.signatures token with
  | none => .panic
  | some n =>
    if 0 < n then
      let kid := L.kid token
      let key := if 0 < kid.length then ks.find kid else none
      let first := match key with
        | some k => L.parseVerify alg k token
        | none => none
      if kid.length = 0 ∨ key.isNone ∨ (first.isNone ∧ 1 < ks.length) then
        .ok (tryKeys L alg token first ks)
      else .ok first
    else .ok none

/-- proxy.go:589-595, 620-632: does this token start a background refresh of the key set? -/
def triggersRefresh (L : Jwx K) (j : Jwt K) (token : Str) (ks : KeySet K) : Bool :=
  match L.signatures token with
  | none => false
  | some n => 0 < n && 0 < (L.kid token).length && (ks.find (L.kid token)).isNone &&
      0 < j.jwksUrl.length

/-- proxy.go:538-549: key set by algorithm; `none` when the token is only parsed. -/
def Jwt.keySet (j : Jwt K) : Option (KeySet K) :=
  match family j.alg with
  | .rsa => some j.rsaPublic
  | .ec => some j.ecdsaPublic
  | .hmac => some j.secret
  | .none => none
  | .other => none

/-- proxy.go:527-531: the token is the second of the parts separated by spaces. -/
def bearerToken (auth : Str) : Option Str :=
  match split ' ' auth with
  | _ :: t :: _ => some t
  | _ => none

/-- `strconv.Atoi` with the error ignored (proxy.go:552). For strings that passed `Validate` it
does not fail. -/
def skewOf (j : Jwt K) : Int := (atoi j.acceptableSkewSeconds).getD 0

/-- Outcome of the token check. -/
inductive AuthResult where
  | accept | reject | panic
deriving DecidableEq, Repr

/-- proxy.go:518-574 `validateJwt`, on the value of the Authorization header, at time `now`. -/
def validateToken (L : Jwx K) (j : Jwt K) (now : Int) (auth : Str) : AuthResult :=
  match bearerToken auth with
  | none => .reject
  | some token =>
    let parsed := match j.keySet with
      | some ks => verifySignature L j.alg token ks
      | none => .ok (L.parse token)
    match parsed with
    | .panic => .panic
    | .ok none => .reject
    | .ok (some _) =>
      match L.parse token with
      | none => .panic
      | some c => if dateClaimsOk L.skipsEpoch L.nbfStrict (skewOf j) now c then .accept else .reject

end J8a

import Verif.Model.JwtAuth
/-!
# Independent notions used by the statements about tokens and keys
-/
namespace J8a
open Go

/-- RFC 6750: the Authorization header is the scheme `Bearer` (schemes are compared without
case), a space, and the token. -/
def IsBearer (auth token : Str) : Prop :=
  ∃ scheme rest, toLower scheme = "bearer".toList ∧ auth = scheme ++ ' ' :: token ++ rest ∧
    (rest = [] ∨ ∃ r, rest = ' ' :: r)

/-- Within tolerance: a claim of the token passes at `now` with tolerance `skew` (RFC 7519,
sections 4.1.4 to 4.1.6). `strict` settles the boundary of `nbf`. -/
structure DatesOk (strict : Bool) (skew now : Int) (c : Claims) : Prop where
  exp : ∀ t, c.exp = some t → now - skew < t
  iat : ∀ t, c.iat = some t → t ≤ now + skew
  nbf : ∀ t, c.nbf = some t → if strict then t < now + skew else t ≤ now + skew

/-- Claims as far as the library can represent them: the zero `time.Time` (1 January of the
year 1) is not a date claim. -/
def Claims.Present (c : Claims) : Prop :=
  c.exp ≠ some zeroUnix ∧ c.iat ≠ some zeroUnix ∧ c.nbf ≠ some zeroUnix

instance (c : Claims) : Decidable c.Present := inferInstanceAs (Decidable (_ ∧ _))

/-- The token does not expire at second 0, the beginning of 1970. -/
def Claims.NotEpoch (c : Claims) : Prop := c.exp ≠ some 0

instance (c : Claims) : Decidable c.NotEpoch := inferInstanceAs (Decidable (_ ≠ _))

/-- The thirteen algorithm names of the documentation, by kind. -/
def rsaAlgs : List Str := ["RS256", "RS384", "RS512", "PS256", "PS384", "PS512"].map String.toList
def ecAlgs : List Str := ["ES256", "ES384", "ES512"].map String.toList
def hmacAlgs : List Str := ["HS256", "HS384", "HS512"].map String.toList

/-- RFC 7518, section 3.4: size in bits of the curve of an EC algorithm. -/
inductive CurveSize : Str → Nat → Prop where
  | es256 : CurveSize "ES256".toList 256
  | es384 : CurveSize "ES384".toList 384
  | es512 : CurveSize "ES512".toList 521

end J8a

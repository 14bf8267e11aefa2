import Verif.Go.Num
/-!
# jwt.go — key sets, validation of jwt configurations, loading keys

`K` is the type of verification keys (RSA, EC or HMAC).
-/
namespace J8a
open Go

/-- jwt.go:43-46 `KidPair`. -/
structure KidPair (K : Type) where
  kid : Str
  key : K
deriving DecidableEq, Repr

/-- jwt.go:19 `KeySet`. -/
abbrev KeySet (K : Type) := List (KidPair K)

variable {K : Type}

/-- jwt.go:21-32 `Upsert`. The assignment `k.Key = kp.Key` goes to the loop variable, a copy, so an
entry with the same kid is left as it is. -/
def KeySet.upsert (ks : KeySet K) (kp : KidPair K) : KeySet K :=
  let updated := ks.any (fun k => k.kid == kp.kid)
  if updated then ks else ks ++ [kp]

/-- jwt.go:34-41 `Find`. -/
def KeySet.find (ks : KeySet K) (kid : Str) : Option K :=
  (List.find? (fun k => k.kid == kid) ks).map KidPair.key

/-- jwt.go:48-61 `Jwt`, without the lock (see `Model/JwksTimed.lean`) and the update counter. -/
structure Jwt (K : Type) where
  name : Str := []
  alg : Str := []
  key : Str := []
  jwksUrl : Str := []
  rsaPublic : KeySet K := []
  ecdsaPublic : KeySet K := []
  secret : KeySet K := []
  acceptableSkewSeconds : Str := []

/-- jwt.go:63. -/
def validAlgNoNone : List Str :=
  ["RS256", "RS384", "RS512", "PS256", "PS384", "PS512", "HS256", "HS384", "HS512",
   "ES256", "ES384", "ES512"].map String.toList

/-- jwt.go:64. -/
def validAlg : List Str := validAlgNoNone ++ ["none".toList]

/-- The case split on the algorithm made by jwt.go:203-233, 262-377 and proxy.go:538-549. `other` is
the default case (not reached with an algorithm that passed `Validate`). -/
inductive Family where
  | rsa | ec | hmac | none | other
deriving DecidableEq, Repr

/-- The case labels of the switches cited at `Family`. `alg.Accept` (jwx) turns a supported name into
the constant of the same name and leaves the empty algorithm otherwise. -/
def family (alg : Str) : Family :=
  if alg ∈ ["RS256", "RS384", "RS512", "PS256", "PS384", "PS512"].map String.toList then .rsa
  else if alg ∈ ["ES256", "ES384", "ES512"].map String.toList then .ec
  else if alg ∈ ["HS256", "HS384", "HS512"].map String.toList then .hmac
  else if alg = "none".toList then .none
  else .other

/-- jwt.go:384-396 `checkECDSABitSize`: true when no error is returned. -/
def checkECDSABitSize (alg : Str) (bits : Nat) : Bool :=
  if alg = "ES256".toList ∧ bits ≠ 256 then false
  else if alg = "ES384".toList ∧ bits ≠ 384 then false
  else if alg = "ES512".toList ∧ bits ≠ 521 then false
  else true

/-- What `key.Raw` can extract from a JWK (jwt.go:212, 226). -/
inductive RawKey (K : Type) where
  | rsa (key : K)
  | ec (key : K) (bits : Nat)
  /-- `Raw` fails for both kinds of target (symmetric key, unknown curve, …). -/
  | neither
deriving DecidableEq, Repr

/-- One key of a JWKS document. -/
structure Jwk (K : Type) where
  kid : Str
  alg : Str
  raw : RawKey K
deriving DecidableEq, Repr

/-- Outcome of `LoadJwks` / `parseKey` / `Validate`: a panic, or return with the updated
configuration and whether an error was returned. -/
inductive Outcome (K : Type) where
  | panic
  | done (j : Jwt K) (err : Bool)

/-- jwt.go:187-238: the loop over the keys; `err` is the value of the variable `err` before the
iteration. A key of another algorithm stops the loop. For EC the error of `Raw` is overwritten by
`checkECDSABitSize`, which dereferences the nil curve when `Raw` failed (jwt.go:226-227, 385). -/
def loadLoop (j : Jwt K) (err : Bool) : List (Jwk K) → Outcome K
  | [] => .done j err
  | k :: ks =>
    if k.alg ∉ validAlg ∨ j.alg ≠ k.alg then .done j true
    else match family k.alg with
      | .rsa => match k.raw with
        | .rsa key => loadLoop { j with rsaPublic := j.rsaPublic.upsert ⟨k.kid, key⟩ } false ks
        | _ => loadLoop j true ks
      | .ec => match k.raw with
        | .ec key bits =>
          if checkECDSABitSize k.alg bits then
            loadLoop { j with ecdsaPublic := j.ecdsaPublic.upsert ⟨k.kid, key⟩ } false ks
          else loadLoop j true ks
        | _ => .panic
      | _ => loadLoop j true ks

/-- jwt.go:175-239: what `LoadJwks` does while it holds the lock. `doc` is the result of
`jwk.Fetch`; `none` for a failed fetch, and a document without keys is treated like one. -/
def loadJwks (j : Jwt K) (doc : Option (List (Jwk K))) : Outcome K :=
  match doc with
  | none => .done j true
  | some [] => .done j true
  | some ks => loadLoop j false ks

/-- Result of `x509.ParsePKIXPublicKey`, or the public key inside a certificate. -/
inductive PubKey (K : Type) where
  | rsa (key : K)
  | ec (key : K) (bits : Nat)
  | other

/-- The parts of `encoding/pem` and `crypto/x509` used: decode the first PEM block of a string
(its type, its content, and whether bytes are left over), parse a PKIX public key, parse a
certificate (`none` on error). -/
structure X509 (K : Type) where
  Content : Type
  pemDecode : Str → Option (Str × Content) × Bool
  parsePKIX : Content → Option (PubKey K)
  parseCertificate : Content → Option (PubKey K)

/-- jwt.go:257-382 `parseKey`. `uuid` is the random part of the generated kid, `hmacKey` the conversion
`[]byte(jwt.Key)`. A certificate that does not parse is a nil `*x509.Certificate` in a non-nil
interface, so the type switch enters the certificate case and dereferences it (jwt.go:288-291,
347-350). -/
def parseKey (X : X509 K) (hmacKey : Str → K) (uuid : Str) (j : Jwt K) : Outcome K :=
  let kid := j.alg ++ "-".toList ++ uuid
  match family j.alg with
  | .rsa => match X.pemDecode j.key with
    | (_, true) => .done j true
    | (none, false) => .panic
    | (some (typ, content), false) =>
      if typ = "PUBLIC KEY".toList ∨ typ = "RSA PUBLIC KEY".toList then
        match X.parsePKIX content with
        | some (.rsa key) => .done { j with rsaPublic := j.rsaPublic.upsert ⟨kid, key⟩ } false
        | _ => .done j true
      else if typ = "CERTIFICATE".toList then
        match X.parseCertificate content with
        | none => .panic
        | some (.rsa key) => .done { j with rsaPublic := j.rsaPublic.upsert ⟨kid, key⟩ } false
        | some _ => .done j true
      else .done j true
  | .hmac =>
    if 0 < j.key.length then
      .done { j with secret := j.secret.upsert ⟨kid, hmacKey j.key⟩ } false
    else .done j true
  | .ec => match X.pemDecode j.key with
    | (_, true) => .done j true
    | (none, false) => .panic
    | (some (typ, content), false) =>
      if typ = "PUBLIC KEY".toList then
        match X.parsePKIX content with
        | some (.ec key bits) =>
          if checkECDSABitSize j.alg bits then
            .done { j with ecdsaPublic := j.ecdsaPublic.upsert ⟨kid, key⟩ } false
          else .done j true
        | _ => .done j true
      else if typ = "CERTIFICATE".toList then
        match X.parseCertificate content with
        | none => .panic
        | some (.ec key bits) =>
          if checkECDSABitSize j.alg bits then
            .done { j with ecdsaPublic := j.ecdsaPublic.upsert ⟨kid, key⟩ } false
          else .done j true
        | some _ => .done j true
      else .done j true
  | .none => if 0 < j.key.length then .done j true else .done j false
  | .other => .done j true

/-- jwt.go:81. -/
def defaultSkew : Str := "120".toList

/-- jwt.go:113-167 `Validate`. The lock is free when it runs at boot, so `LoadJwks` acquires it. -/
def Jwt.validate (X : X509 K) (hmacKey : Str → K) (uuid : Str) (fetch : Str → Option (List (Jwk K)))
    (j : Jwt K) : Outcome K :=
  let err0 : Bool := j.alg ∉ validAlg
  if j.name.length = 0 then .done j true
  else if 0 < j.alg.length ∧ j.alg ∉ validAlg then .done j true
  else if j.alg.length = 0 ∧ 0 < j.jwksUrl.length then .done j true
  else if j.alg.length = 0 ∧ 0 < j.key.length then .done j true
  else if family j.alg = .none ∧ 0 < j.key.length then .done j true
  else
    let err1 : Bool :=
      if family j.alg ≠ .none ∧ j.key.length = 0 ∧ j.jwksUrl.length = 0 then true else err0
    let rest := fun (j : Jwt K) =>
      if 0 < j.key.length then parseKey X hmacKey uuid j
      else if 0 < j.jwksUrl.length then loadJwks j (fetch j.jwksUrl)
      else .done j err1
    if 0 < j.acceptableSkewSeconds.length then
      match atoi j.acceptableSkewSeconds with
      | none => .done j true
      | some secs => if secs < 0 then .done j true else rest j
    else rest { j with acceptableSkewSeconds := defaultSkew }

end J8a

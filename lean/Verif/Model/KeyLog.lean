import Verif.Go.Zerolog
import Verif.Model.Boot
/-!
# jwt.go:113-396, config.go:61-68, 243-258 — what is logged about keys, and the texts of errors

The functions of `Model/Jwt.lean` once more, with every line they log and the error they return. Texts of the errors of
libraries are parameters.
-/
namespace J8a
open Go

variable {K : Type}

/-- Texts of errors of libraries. -/
structure KeyTexts (K : Type) where
  /-- `alg.Accept` of an unknown algorithm -/
  accept : Str → Str
  /-- `key.Raw` -/
  raw : Jwk K → Str
  /-- `jwk.Fetch`, by URL -/
  fetch : Str → Str

/-- Outcome with the error. -/
inductive Ended (K : Type) where
  | panic
  | done (j : Jwt K) (err : Option Str)

/-- Without the text. -/
def Ended.outcome : Ended K → Outcome K
  | .panic => .panic
  | .done j err => .done j err.isSome

/-- `%s` of a slice of strings. -/
def sprintStrs (l : List Str) : Str := '[' :: join [' '] l ++ [']']

/-- `jwt [%s] `. -/
def jwtTag (name : Str) : Str := "jwt [".toList ++ name ++ "] ".toList

/-- `jwt key [%s] `. -/
def jwtKeyTag (name : Str) : Str := "jwt key [".toList ++ name ++ "] ".toList

/-- A line at level debug without fields. -/
def debugLine (msg : Str) : ZEvent := ⟨.debug, [], msg⟩

/-- jwt.go:195. -/
def algMismatch (name keyAlg alg : Str) : Str :=
  jwtTag name ++ "key algorithm [".toList ++ keyAlg ++ "] in jwks keyset does not match configured alg [".toList ++ alg ++
    "].".toList

/-- jwt.go:79, the error of `checkECDSABitSize` (jwt.go:384-396). -/
def ecdsaKeySizeBad (name alg : Str) (bits : Nat) : Str :=
  jwtTag name ++ "invalid key size for alg [".toList ++ alg ++ "], parsed bitsize ".toList ++ natToDec bits ++
    ", check your configuration".toList

/-- jwt.go:234. -/
def parsedRemote (name alg : Str) : ZEvent :=
  debugLine (jwtTag name ++ "successfully parsed ".toList ++ alg ++ " key from remote jwk".toList)

/-- jwt.go:379. -/
def parsedStatic (name alg : Str) : ZEvent :=
  debugLine (jwtTag name ++ "successfully parsed ".toList ++ alg ++ " key".toList)

/-- jwt.go:187-238, as `loadLoop`. The line of jwt.go:234 is behind the switch: it is written whatever the case did. -/
def loadLoopLogged (T : KeyTexts K) (j : Jwt K) (err : Option Str) : List (Jwk K) → Ended K × List ZEvent
  | [] => (.done j err, [])
  | k :: ks =>
    if j.alg ≠ k.alg then
      (.done j (some (algMismatch j.name k.alg j.alg)),
       [⟨.warn, [("jwt".toList, .str j.name), ("jwtAlg".toList, .str j.alg), ("keyAlg".toList, .str k.alg)],
         algMismatch j.name k.alg j.alg⟩])
    else if k.alg ∉ validAlg then (.done j (some (T.accept k.alg)), [])
    else
      let go := fun (j : Jwt K) (err : Option Str) =>
        let r := loadLoopLogged T j err ks
        (r.1, parsedRemote j.name k.alg :: r.2)
      match family k.alg with
      | .rsa => match k.raw with
        | .rsa key => go { j with rsaPublic := j.rsaPublic.upsert ⟨k.kid, key⟩ } none
        | _ => go j (some (T.raw k))
      | .ec => match k.raw with
        | .ec key bits =>
          if checkECDSABitSize k.alg bits then
            go { j with ecdsaPublic := j.ecdsaPublic.upsert ⟨k.kid, key⟩ } none
          else go j (some (ecdsaKeySizeBad j.name k.alg bits))
        | _ => (.panic, [])
      | _ => go j (some ("unknown key type in Jwks ".toList ++ k.alg))

/-- jwt.go:176-239, as `loadJwks`. -/
def loadJwksLogged (T : KeyTexts K) (j : Jwt K) (doc : Option (List (Jwk K))) : Ended K × List ZEvent :=
  let bad := some (jwtTag j.name ++ "unable to parse keys in keyset".toList)
  match doc with
  | none => (.done j bad, [⟨.warn, [], jwtTag j.name ++ "unable to fetch jwk from jwks URL ".toList ++ j.jwksUrl ++
      ", cause: ".toList ++ T.fetch j.jwksUrl⟩])
  | some ks =>
    let line := debugLine (jwtTag j.name ++ "fetched ".toList ++ natToDec ks.length ++ " jwk from jwks URL ".toList ++ j.jwksUrl)
    match ks with
    | [] => (.done j bad, [line])
    | ks => let r := loadLoopLogged T j none ks; (r.1, line :: r.2)

/-- jwt.go:170-255 `LoadJwks`: if another call holds the lock (jwt.go:174), nothing is fetched. The wait and the counter
(jwt.go:242-246) are in `Model/JwksTimed.lean`. -/
def loadJwksCall (T : KeyTexts K) (busy : Bool) (j : Jwt K) (doc : Option (List (Jwk K))) : Ended K × List ZEvent :=
  if busy then (.done j none, [⟨.debug, [("jwt".toList, .str j.name)],
    jwtTag j.name ++ "already updating within 10s, skipping attempt.".toList⟩])
  else loadJwksLogged T j doc

/-- jwt.go:66-70, 72, behind the tag. -/
def pemOverflow : Str :=
  "only type PUBLIC KEY or CERTIFICATE allowed but found additional or invalid data, check your PEM block".toList
def pemTypeBad : Str := "is not of type PUBLIC KEY or CERTIFICATE, check your PEM Block preamble".toList
def pemAsn1Bad : Str := "asn data not valid, check your PEM Block".toList
def pemRsaNotFound : Str := "RSA public key not found in your certificate, check your PEM Block".toList
def pemEcdsaNotFound : Str := "ECDSA public key not found in your certificate, check your PEM Block".toList
def keyTypeInvalid : Str := "unable to determine key type. Must be one of ".toList ++ sprintStrs validAlg

/-- jwt.go:74-77, 373, behind the tag. -/
def noneWithKeyData : Str := "none type signature does not allow key data, check your configuration".toList

/-- jwt.go:257-382, as `parseKey`. `return` before the last line skips it; a wrong size does not (jwt.go:333, 354). -/
def parseKeyLogged (X : X509 K) (hmacKey : Str → K) (uuid : Str) (j : Jwt K) : Ended K × List ZEvent :=
  let kid := j.alg ++ "-".toList ++ uuid
  let refuse := fun (text : Str) => ((.done j (some (jwtKeyTag j.name ++ text)) : Ended K), ([] : List ZEvent))
  let finish := fun (j : Jwt K) (err : Option Str) => ((.done j err : Ended K), [parsedStatic j.name j.alg])
  match family j.alg with
  | .rsa => match X.pemDecode j.key with
    | (_, true) => refuse pemOverflow
    | (none, false) => (.panic, [])
    | (some (typ, content), false) =>
      if typ = "PUBLIC KEY".toList ∨ typ = "RSA PUBLIC KEY".toList then
        match X.parsePKIX content with
        | some (.rsa key) => finish { j with rsaPublic := j.rsaPublic.upsert ⟨kid, key⟩ } none
        | _ => refuse pemAsn1Bad
      else if typ = "CERTIFICATE".toList then
        match X.parseCertificate content with
        | none => (.panic, [])
        | some (.rsa key) => finish { j with rsaPublic := j.rsaPublic.upsert ⟨kid, key⟩ } none
        | some _ => refuse pemRsaNotFound
      else refuse pemTypeBad
  | .hmac =>
    if 0 < j.key.length then
      finish { j with secret := j.secret.upsert ⟨kid, hmacKey j.key⟩ } none
    else finish j (some "jwt secret not found, check your configuration".toList)
  | .ec => match X.pemDecode j.key with
    | (_, true) => refuse pemOverflow
    | (none, false) => (.panic, [])
    | (some (typ, content), false) =>
      if typ = "PUBLIC KEY".toList then
        match X.parsePKIX content with
        | some (.ec key bits) =>
          if checkECDSABitSize j.alg bits then
            finish { j with ecdsaPublic := j.ecdsaPublic.upsert ⟨kid, key⟩ } none
          else finish j (some (ecdsaKeySizeBad j.name j.alg bits))
        | _ => refuse pemAsn1Bad
      else if typ = "CERTIFICATE".toList then
        match X.parseCertificate content with
        | none => (.panic, [])
        | some (.ec key bits) =>
          if checkECDSABitSize j.alg bits then
            finish { j with ecdsaPublic := j.ecdsaPublic.upsert ⟨kid, key⟩ } none
          else finish j (some (ecdsaKeySizeBad j.name j.alg bits))
        | some _ => refuse pemEcdsaNotFound
      else refuse pemTypeBad
  | .none => if 0 < j.key.length then (.done j (some (jwtTag j.name ++ noneWithKeyData)), []) else finish j none
  | .other => (.done j (some (jwtTag j.name ++ keyTypeInvalid)), [])

/-- jwt.go:113-167, as `Jwt.validate`. -/
def Jwt.validateLogged (X : X509 K) (hmacKey : Str → K) (T : KeyTexts K) (uuid : Str)
    (fetch : Str → Option (List (Jwk K))) (j : Jwt K) : Ended K × List ZEvent :=
  let refuse := fun (text : Str) => ((.done j (some text) : Ended K), ([] : List ZEvent))
  let err0 : Option Str := if j.alg ∈ validAlg then none else some (T.accept j.alg)
  let missingAlg := jwtTag j.name ++ "missing mandatory alg parameter next to jwksUrl. Must be one of ".toList ++
    sprintStrs validAlgNoNone
  let skewInvalid := jwtTag j.name ++ "acceptable skew seconds, must be 0 or greater, was ".toList ++ j.acceptableSkewSeconds
  if j.name.length = 0 then refuse "invalid jwt name not specified".toList
  else if 0 < j.alg.length ∧ j.alg ∉ validAlg then
    refuse (jwtTag j.name ++ "unknown alg [".toList ++ j.alg ++ "]. Must be one of ".toList ++ sprintStrs validAlg)
  else if j.alg.length = 0 ∧ 0 < j.jwksUrl.length then refuse missingAlg
  else if j.alg.length = 0 ∧ 0 < j.key.length then refuse missingAlg
  else if family j.alg = .none ∧ 0 < j.key.length then refuse (jwtTag j.name ++ noneWithKeyData)
  else
    let err1 : Option Str :=
      if family j.alg ≠ .none ∧ j.key.length = 0 ∧ j.jwksUrl.length = 0 then
        some (jwtTag j.name ++ "alg [".toList ++ j.alg ++ "] must specify one of key or jwksUrl".toList)
      else err0
    let rest := fun (j : Jwt K) =>
      if 0 < j.key.length then parseKeyLogged X hmacKey uuid j
      else if 0 < j.jwksUrl.length then loadJwksLogged T j (fetch j.jwksUrl)
      else (.done j err1, [])
    if 0 < j.acceptableSkewSeconds.length then
      match atoi j.acceptableSkewSeconds with
      | none => refuse skewInvalid
      | some secs => if secs < 0 then refuse skewInvalid else rest j
    else rest { j with acceptableSkewSeconds := defaultSkew }

/-- config.go:61-68: the line of `config.panic`, which ends the process. -/
def fatalLine (msg : Str) : ZEvent :=
  ⟨.fatal, [], (if msg.length = 0 then "error loading config.".toList else msg) ++ " exiting...".toList⟩

/-- config.go:245-254: the lines of the loop over the entries, in the order in which the map gives them. A panic is not
recovered and ends the process as well. -/
def validateJwtLines (X : X509 K) (hmacKey : Str → K) (T : KeyTexts K) (uuid : Str → Str)
    (fetch : Str → Str → Option (List (Jwk K))) (count : Nat) : List (Str × Jwt K) → List ZEvent
  | [] => [debugLine ("parsed ".toList ++ natToDec count ++ " jwt configurations".toList)]
  | (n, j) :: rest =>
    let r := ({ j with name := n } : Jwt K).validateLogged X hmacKey T (uuid n) (fetch n)
    match r.1 with
    | .panic => r.2
    | .done _ (some err) => r.2 ++ [fatalLine err]
    | .done _ none => r.2 ++ validateJwtLines X hmacKey T uuid fetch count rest

/-- config.go:243-258 `validateJwt`: all lines. -/
def jwtBootLines (X : X509 K) (hmacKey : Str → K) (T : KeyTexts K) (uuid : Str → Str)
    (fetch : Str → Str → Option (List (Jwk K))) (c : List (Str × Jwt K)) : List ZEvent :=
  if 0 < c.length then validateJwtLines X hmacKey T uuid fetch c.length c else []

end J8a

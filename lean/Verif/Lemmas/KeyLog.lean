import Verif.Model.KeyLog
/-!
# The logging functions of `Model/KeyLog.lean`
-/
namespace J8a
open Go

variable {K : Type}

/-! ## The logging functions do what the functions of `Model/Jwt.lean` do -/

theorem loadLoopLogged_outcome (T : KeyTexts K) (ks : List (Jwk K)) : ∀ (j : Jwt K) (err : Option Str),
    (loadLoopLogged T j err ks).1.outcome = loadLoop j err.isSome ks := by
  induction ks with
  | nil => intro j err; rfl
  | cons k ks ih =>
    intro j err
    simp only [loadLoopLogged, loadLoop]
    by_cases h : j.alg = k.alg
    · by_cases hv : k.alg ∈ validAlg
      · simp only [h, hv, ne_eq, not_true_eq_false, if_false, or_self]
        cases family k.alg <;> cases k.raw <;> dsimp only
        all_goals first
          | rfl
          | exact ih _ _
          | (split <;> exact ih _ _)
      · simp [h, hv, Ended.outcome]
    · simp [h, Ended.outcome]

theorem loadJwksLogged_outcome (T : KeyTexts K) (j : Jwt K) (doc : Option (List (Jwk K))) :
    (loadJwksLogged T j doc).1.outcome = loadJwks j doc := by
  match doc with
  | none => rfl
  | some [] => rfl
  | some (k :: ks) => exact loadLoopLogged_outcome T (k :: ks) j none

theorem parseKeyLogged_outcome (X : X509 K) (hmacKey : Str → K) (uuid : Str) (j : Jwt K) :
    (parseKeyLogged X hmacKey uuid j).1.outcome = parseKey X hmacKey uuid j := by
  unfold parseKeyLogged parseKey
  dsimp only
  generalize family j.alg = f
  cases f <;> dsimp only
  · generalize X.pemDecode j.key = d
    rcases d with ⟨_ | ⟨typ, content⟩, _ | _⟩ <;> dsimp only <;> try rfl
    by_cases h : typ = "PUBLIC KEY".toList ∨ typ = "RSA PUBLIC KEY".toList
    · rw [if_pos h, if_pos h]
      generalize X.parsePKIX content = r
      rcases r with _ | (_ | _ | _) <;> rfl
    · rw [if_neg h, if_neg h]
      by_cases h2 : typ = "CERTIFICATE".toList
      · rw [if_pos h2, if_pos h2]
        generalize X.parseCertificate content = r
        rcases r with _ | (_ | _ | _) <;> rfl
      · rw [if_neg h2, if_neg h2]; rfl
  · generalize X.pemDecode j.key = d
    rcases d with ⟨_ | ⟨typ, content⟩, _ | _⟩ <;> dsimp only <;> try rfl
    by_cases h : typ = "PUBLIC KEY".toList
    · rw [if_pos h, if_pos h]
      generalize X.parsePKIX content = r
      rcases r with _ | (_ | ⟨key, bits⟩ | _) <;> try rfl
      dsimp only
      cases checkECDSABitSize j.alg bits <;> rfl
    · rw [if_neg h, if_neg h]
      by_cases h2 : typ = "CERTIFICATE".toList
      · rw [if_pos h2, if_pos h2]
        generalize X.parseCertificate content = r
        rcases r with _ | (_ | ⟨key, bits⟩ | _) <;> try rfl
        dsimp only
        cases checkECDSABitSize j.alg bits <;> rfl
      · rw [if_neg h2, if_neg h2]; rfl
  · by_cases h : 0 < j.key.length
    · rw [if_pos h, if_pos h]; rfl
    · rw [if_neg h, if_neg h]; rfl
  · by_cases h : 0 < j.key.length
    · rw [if_pos h, if_pos h]; rfl
    · rw [if_neg h, if_neg h]; rfl
  · rfl

theorem validateLogged_outcome (X : X509 K) (hmacKey : Str → K) (T : KeyTexts K) (uuid : Str)
    (fetch : Str → Option (List (Jwk K))) (j : Jwt K) :
    (j.validateLogged X hmacKey T uuid fetch).1.outcome = j.validate X hmacKey uuid fetch := by
  have hrest : ∀ (j : Jwt K) (e : Option Str) (b : Bool), e.isSome = b →
      (if 0 < j.key.length then parseKeyLogged X hmacKey uuid j
        else if 0 < j.jwksUrl.length then loadJwksLogged T j (fetch j.jwksUrl)
        else (.done j e, [])).1.outcome =
      (if 0 < j.key.length then parseKey X hmacKey uuid j
        else if 0 < j.jwksUrl.length then loadJwks j (fetch j.jwksUrl)
        else .done j b) := by
    intro j e b he
    by_cases h : 0 < j.key.length
    · rw [if_pos h, if_pos h]; exact parseKeyLogged_outcome ..
    · rw [if_neg h, if_neg h]
      by_cases h2 : 0 < j.jwksUrl.length
      · rw [if_pos h2, if_pos h2]; exact loadJwksLogged_outcome ..
      · rw [if_neg h2, if_neg h2, ← he]; rfl
  unfold Jwt.validateLogged Jwt.validate
  dsimp only
  by_cases h1 : j.name.length = 0
  · rw [if_pos h1, if_pos h1]; rfl
  rw [if_neg h1, if_neg h1]
  by_cases h2 : 0 < j.alg.length ∧ j.alg ∉ validAlg
  · rw [if_pos h2, if_pos h2]; rfl
  rw [if_neg h2, if_neg h2]
  by_cases h3 : j.alg.length = 0 ∧ 0 < j.jwksUrl.length
  · rw [if_pos h3, if_pos h3]; rfl
  rw [if_neg h3, if_neg h3]
  by_cases h4 : j.alg.length = 0 ∧ 0 < j.key.length
  · rw [if_pos h4, if_pos h4]; rfl
  rw [if_neg h4, if_neg h4]
  by_cases h5 : family j.alg = .none ∧ 0 < j.key.length
  · rw [if_pos h5, if_pos h5]; rfl
  rw [if_neg h5, if_neg h5]
  have herr : ∀ (p : Prop) [Decidable p] (t u : Str),
      (if p then some t else if j.alg ∈ validAlg then none else some u).isSome =
        (if p then true else decide (j.alg ∉ validAlg)) := by
    intro p _ t u
    by_cases hp : p <;> by_cases hv : j.alg ∈ validAlg <;> simp [hp, hv]
  by_cases h6 : 0 < j.acceptableSkewSeconds.length
  · rw [if_pos h6, if_pos h6]
    generalize atoi j.acceptableSkewSeconds = a
    cases a with
    | none => rfl
    | some secs =>
      dsimp only
      by_cases h7 : secs < 0
      · rw [if_pos h7, if_pos h7]; rfl
      · rw [if_neg h7, if_neg h7]
        exact hrest _ _ _ (herr _ _ _)
  · rw [if_neg h6, if_neg h6]
    exact hrest { j with acceptableSkewSeconds := defaultSkew } _ _ (herr _ _ _)

/-! ## Every message begins with the tag -/

theorem tag_prefix (name t : Str) : "jwt [".toList <+: jwtTag name ++ t := by
  unfold jwtTag
  rw [List.append_assoc, List.append_assoc]
  exact List.prefix_append _ _

theorem loadLoopLogged_tag (T : KeyTexts K) (ks : List (Jwk K)) : ∀ (j : Jwt K) (err : Option Str),
    ∀ e ∈ (loadLoopLogged T j err ks).2, "jwt [".toList <+: e.msg := by
  induction ks with
  | nil => intro j err e he; simp [loadLoopLogged] at he
  | cons k ks ih =>
    intro j err e he
    have hp : ∀ n a, "jwt [".toList <+: (parsedRemote n a).msg := by
      intro n a
      show _ <+: jwtTag n ++ _ ++ _ ++ _
      rw [List.append_assoc, List.append_assoc]
      exact tag_prefix _ _
    have hgo : ∀ (n : Str) (j : Jwt K) (err : Option Str),
        e ∈ parsedRemote n k.alg :: (loadLoopLogged T j err ks).2 → "jwt [".toList <+: e.msg := by
      intro n j err h
      rcases List.mem_cons.mp h with h | h
      · rw [h]; exact hp _ _
      · exact ih _ _ _ h
    simp only [loadLoopLogged] at he
    by_cases h : j.alg = k.alg
    · rw [if_neg (fun hn => hn h)] at he
      by_cases hv : k.alg ∈ validAlg
      · rw [if_neg (fun hn => hn hv)] at he
        revert he
        generalize family k.alg = f
        cases f <;> cases k.raw <;> dsimp only
        all_goals first
          | exact hgo _ _ _
          | (intro he; cases he; done)
          | (intro he
             split at he
             · exact hgo _ _ _ he
             · exact hgo _ _ _ he)
      · rw [if_pos hv] at he; cases he
    · rw [if_pos h] at he
      rcases List.mem_singleton.mp he with rfl
      show _ <+: algMismatch _ _ _
      unfold algMismatch
      simp only [List.append_assoc]
      exact tag_prefix _ _

theorem loadJwksLogged_tag (T : KeyTexts K) (j : Jwt K) (doc : Option (List (Jwk K))) :
    ∀ e ∈ (loadJwksLogged T j doc).2, "jwt [".toList <+: e.msg := by
  intro e he
  have hline : ∀ n u, "jwt [".toList <+: (debugLine (jwtTag j.name ++ "fetched ".toList ++ n ++ " jwk from jwks URL ".toList ++ u)).msg := by
    intro n u
    show _ <+: jwtTag _ ++ _ ++ _ ++ _ ++ _
    simp only [List.append_assoc]
    exact tag_prefix _ _
  match doc with
  | none =>
    rcases List.mem_singleton.mp he with rfl
    show _ <+: jwtTag _ ++ _ ++ _ ++ _ ++ _
    simp only [List.append_assoc]
    exact tag_prefix _ _
  | some [] => rcases List.mem_singleton.mp he with rfl; exact hline _ _
  | some (k :: ks) =>
    rcases List.mem_cons.mp he with rfl | he
    · exact hline _ _
    · exact loadLoopLogged_tag T _ _ _ _ he

/-! ## What a static key leads to -/

/-- The error, if any (a panic has none). -/
def Ended.err : Ended K → Option Str
  | .panic => none
  | .done _ e => e

/-- What an observer sees: `none` is a panic. -/
def Ended.seen : Ended K → Option (Option Str)
  | .panic => none
  | .done _ e => some e

theorem parseKeyLogged_static (X : X509 K) (hmacKey : Str → K) (uuid : Str) (j : Jwt K) (hk : 0 < j.key.length) :
    let r := parseKeyLogged X hmacKey uuid j
    (r.2, r.1.err) ∈ [([], none), ([parsedStatic j.name j.alg], none),
        ([], some (jwtKeyTag j.name ++ pemOverflow)), ([], some (jwtKeyTag j.name ++ pemTypeBad)),
        ([], some (jwtKeyTag j.name ++ pemAsn1Bad)), ([], some (jwtKeyTag j.name ++ pemRsaNotFound)),
        ([], some (jwtKeyTag j.name ++ pemEcdsaNotFound)), ([], some (jwtTag j.name ++ noneWithKeyData)),
        ([], some (jwtTag j.name ++ keyTypeInvalid))] ∨
      ∃ content key bits, (X.parsePKIX content = some (.ec key bits) ∨ X.parseCertificate content = some (.ec key bits)) ∧
        (r.2, r.1.err) = ([parsedStatic j.name j.alg], some (ecdsaKeySizeBad j.name j.alg bits)) := by
  unfold parseKeyLogged
  dsimp only
  generalize pemOverflow = t1
  generalize pemTypeBad = t2
  generalize pemAsn1Bad = t3
  generalize pemRsaNotFound = t4
  generalize pemEcdsaNotFound = t5
  generalize noneWithKeyData = t6
  generalize keyTypeInvalid = t7
  cases family j.alg <;> dsimp only
  · generalize X.pemDecode j.key = d
    rcases d with ⟨_ | ⟨typ, content⟩, _ | _⟩ <;> dsimp only
    · left; simp [Ended.err]
    · left; simp [Ended.err]
    · by_cases h : typ = "PUBLIC KEY".toList ∨ typ = "RSA PUBLIC KEY".toList
      · rw [if_pos h]
        generalize X.parsePKIX content = r
        rcases r with _ | (_ | _ | _) <;> (left; simp [Ended.err])
      · rw [if_neg h]
        by_cases h2 : typ = "CERTIFICATE".toList
        · rw [if_pos h2]
          generalize X.parseCertificate content = r
          rcases r with _ | (_ | _ | _) <;> (left; simp [Ended.err])
        · rw [if_neg h2]; left; simp [Ended.err]
    · left; simp [Ended.err]
  · generalize X.pemDecode j.key = d
    rcases d with ⟨_ | ⟨typ, content⟩, _ | _⟩ <;> dsimp only
    · left; simp [Ended.err]
    · left; simp [Ended.err]
    · by_cases h : typ = "PUBLIC KEY".toList
      · rw [if_pos h]
        cases hr : X.parsePKIX content with
        | none => left; simp [Ended.err]
        | some p =>
          cases p with
          | rsa _ => left; simp [Ended.err]
          | other => left; simp [Ended.err]
          | ec key bits =>
            dsimp only
            cases checkECDSABitSize j.alg bits with
            | true => left; simp [Ended.err]
            | false => right; exact ⟨content, key, bits, Or.inl hr, rfl⟩
      · rw [if_neg h]
        by_cases h2 : typ = "CERTIFICATE".toList
        · rw [if_pos h2]
          cases hr : X.parseCertificate content with
          | none => left; simp [Ended.err]
          | some p =>
            cases p with
            | rsa _ => left; simp [Ended.err]
            | other => left; simp [Ended.err]
            | ec key bits =>
              dsimp only
              cases checkECDSABitSize j.alg bits with
              | true => left; simp [Ended.err]
              | false => right; exact ⟨content, key, bits, Or.inr hr, rfl⟩
        · rw [if_neg h2]; left; simp [Ended.err]
    · left; simp [Ended.err]
  · rw [if_pos hk]; left; simp [Ended.err]
  · rw [if_pos hk]; left; simp [Ended.err]
  · left; simp [Ended.err]

theorem parseKeyLogged_tag (X : X509 K) (hmacKey : Str → K) (uuid : Str) (j : Jwt K) (hk : 0 < j.key.length) :
    ∀ e ∈ (parseKeyLogged X hmacKey uuid j).2, "jwt [".toList <+: e.msg := by
  have hp : "jwt [".toList <+: (parsedStatic j.name j.alg).msg := by
    show _ <+: jwtTag _ ++ _ ++ _ ++ _
    simp only [List.append_assoc]
    exact tag_prefix _ _
  intro e he
  rcases parseKeyLogged_static X hmacKey uuid j hk with h | ⟨_, _, _, _, h⟩
  · simp only [List.mem_cons, Prod.mk.injEq, List.not_mem_nil, or_false] at h
    rcases h with h | h | h | h | h | h | h | h | h <;> rw [h.1] at he
    all_goals first
      | (cases he; done)
      | (rcases List.mem_singleton.mp he with rfl; exact hp)
  · rw [(Prod.mk.inj h).1] at he
    rcases List.mem_singleton.mp he with rfl; exact hp

/-- `validateLogged`: refused at once without a line, or it goes on with the keys. -/
theorem validateLogged_cases (X : X509 K) (hmacKey : Str → K) (T : KeyTexts K) (uuid : Str)
    (fetch : Str → Option (List (Jwk K))) (j : Jwt K) :
    (∃ e, j.validateLogged X hmacKey T uuid fetch = (.done j (some e), [])) ∨
    ∃ skew, (skew = j.acceptableSkewSeconds ∨ skew = defaultSkew) ∧
      ((0 < j.key.length ∧ j.validateLogged X hmacKey T uuid fetch =
          parseKeyLogged X hmacKey uuid { j with acceptableSkewSeconds := skew }) ∨
       (j.key.length = 0 ∧ 0 < j.jwksUrl.length ∧ j.validateLogged X hmacKey T uuid fetch =
          loadJwksLogged T { j with acceptableSkewSeconds := skew } (fetch j.jwksUrl)) ∨
       (j.key.length = 0 ∧ j.jwksUrl.length = 0 ∧
          ∃ e, j.validateLogged X hmacKey T uuid fetch = (.done { j with acceptableSkewSeconds := skew } e, []))) := by
  have hrest : ∀ (s : Str) (e : Option Str), (s = j.acceptableSkewSeconds ∨ s = defaultSkew) →
      ∀ r, r = (if 0 < j.key.length then parseKeyLogged X hmacKey uuid { j with acceptableSkewSeconds := s }
        else if 0 < j.jwksUrl.length then
          loadJwksLogged T { j with acceptableSkewSeconds := s } (fetch j.jwksUrl)
        else (.done { j with acceptableSkewSeconds := s } e, [])) →
      ∃ skew, (skew = j.acceptableSkewSeconds ∨ skew = defaultSkew) ∧
      ((0 < j.key.length ∧ r = parseKeyLogged X hmacKey uuid { j with acceptableSkewSeconds := skew }) ∨
       (j.key.length = 0 ∧ 0 < j.jwksUrl.length ∧ r =
          loadJwksLogged T { j with acceptableSkewSeconds := skew } (fetch j.jwksUrl)) ∨
       (j.key.length = 0 ∧ j.jwksUrl.length = 0 ∧
          ∃ e, r = (.done { j with acceptableSkewSeconds := skew } e, []))) := by
    intro s e hs r hr
    refine ⟨s, hs, ?_⟩
    by_cases h : 0 < j.key.length
    · rw [if_pos h] at hr; exact Or.inl ⟨h, hr⟩
    · rw [if_neg h] at hr
      by_cases h2 : 0 < j.jwksUrl.length
      · rw [if_pos h2] at hr; exact Or.inr (Or.inl ⟨by omega, h2, hr⟩)
      · rw [if_neg h2] at hr; exact Or.inr (Or.inr ⟨by omega, by omega, e, hr⟩)
  unfold Jwt.validateLogged
  dsimp only
  by_cases h1 : j.name.length = 0
  · rw [if_pos h1]; exact Or.inl ⟨_, rfl⟩
  rw [if_neg h1]
  by_cases h2 : 0 < j.alg.length ∧ j.alg ∉ validAlg
  · rw [if_pos h2]; exact Or.inl ⟨_, rfl⟩
  rw [if_neg h2]
  by_cases h3 : j.alg.length = 0 ∧ 0 < j.jwksUrl.length
  · rw [if_pos h3]; exact Or.inl ⟨_, rfl⟩
  rw [if_neg h3]
  by_cases h4 : j.alg.length = 0 ∧ 0 < j.key.length
  · rw [if_pos h4]; exact Or.inl ⟨_, rfl⟩
  rw [if_neg h4]
  by_cases h5 : family j.alg = .none ∧ 0 < j.key.length
  · rw [if_pos h5]; exact Or.inl ⟨_, rfl⟩
  rw [if_neg h5]
  by_cases h6 : 0 < j.acceptableSkewSeconds.length
  · rw [if_pos h6]
    cases atoi j.acceptableSkewSeconds with
    | none => exact Or.inl ⟨_, rfl⟩
    | some secs =>
      dsimp only
      by_cases h7 : secs < 0
      · rw [if_pos h7]; exact Or.inl ⟨_, rfl⟩
      · rw [if_neg h7]; exact Or.inr (hrest j.acceptableSkewSeconds _ (Or.inl rfl) _ rfl)
  · rw [if_neg h6]; exact Or.inr (hrest defaultSkew _ (Or.inr rfl) _ rfl)

theorem validateLogged_tag (X : X509 K) (hmacKey : Str → K) (T : KeyTexts K) (uuid : Str)
    (fetch : Str → Option (List (Jwk K))) (j : Jwt K) :
    ∀ e ∈ (j.validateLogged X hmacKey T uuid fetch).2, "jwt [".toList <+: e.msg := by
  intro e he
  rcases validateLogged_cases X hmacKey T uuid fetch j with ⟨_, h⟩ | ⟨skew, _, ⟨hk, h⟩ | ⟨_, _, h⟩ | ⟨_, _, _, h⟩⟩ <;>
    rw [h] at he
  · cases he
  · exact parseKeyLogged_tag X hmacKey uuid { j with acceptableSkewSeconds := skew } hk e he
  · exact loadJwksLogged_tag T _ _ e he
  · cases he

end J8a

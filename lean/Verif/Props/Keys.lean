import Verif.Lemmas.Load
/-!
# C20, C21, C23–C26 — key sets and key loading
-/
namespace J8a
open Go

variable {K : Type}

/-! ## C20 -/

/-- C20 fails: after upserting a new key under a known kid, lookups still return the old key. -/
theorem C20_violated :
    ¬ ∀ (ks : KeySet Nat) (kid : Str) (key : Nat), (ks.upsert ⟨kid, key⟩).find kid = some key := by
  intro h
  have := h [⟨"k1".toList, 1⟩] "k1".toList 2
  revert this
  decide

/-- The same through the code path that rotates keys: a JWKS refresh serving a new key under a
known kid succeeds, and the old key stays in use. -/
theorem C20_violated_refresh :
    ∃ (j j' : Jwt Nat) (doc : List (Jwk Nat)), loadJwks j (some doc) = .done j' false ∧
      doc = [⟨"k1".toList, "RS256".toList, .rsa 2⟩] ∧ j'.rsaPublic.find "k1".toList = some 1 :=
  ⟨{ alg := "RS256".toList, rsaPublic := [⟨"k1".toList, 1⟩] },
   { alg := "RS256".toList, rsaPublic := [⟨"k1".toList, 1⟩] },
   [⟨"k1".toList, "RS256".toList, .rsa 2⟩], rfl, rfl, by decide⟩

/-- C20 holds for kids not yet known. Missing from the full statement: kids already present. -/
theorem C20_new_kid_partial (ks : KeySet K) (kid : Str) (key : K)
    (hnew : ∀ kp ∈ ks, kp.kid ≠ kid) : (ks.upsert ⟨kid, key⟩).find kid = some key := by
  have h : kid ∉ ks.map KidPair.kid := by
    intro hm
    obtain ⟨a, ha, hk⟩ := List.mem_map.1 hm
    exact hnew a ha hk
  rw [upsert_of_not_mem h]
  exact find_append_of_not_mem (kp := ⟨kid, key⟩) h

/-- Exactly what a lookup returns after an upsert: the oldest key ever stored for the kid. -/
theorem C20_find_after_upsert_partial (ks : KeySet K) (kid : Str) (key : K) :
    (ks.upsert ⟨kid, key⟩).find kid = some ((ks.find kid).getD key) := by
  rcases upsert_cases ks ⟨kid, key⟩ with ⟨hm, h⟩ | ⟨hn, h⟩ <;> rw [h]
  · obtain ⟨k, hk⟩ := Option.isSome_iff_exists.1 (find_isSome_iff.2 hm)
    simp only at hk
    simp [hk]
  · rw [find_append_of_not_mem hn]
    have : ks.find kid = none := by
      rw [← Option.not_isSome_iff_eq_none, find_isSome_iff]
      exact hn
    simp [this]

example : ∀ kp ∈ ([⟨"a".toList, 1⟩] : KeySet Nat), kp.kid ≠ "b".toList := by decide

/-! ## C21 -/

/-- A history of refreshes, each fetching a document or failing to; `none` if one of them
crashes. Errors are ignored, as the background refresh does (proxy.go:625). -/
def refreshes (j : Jwt K) : List (Option (List (Jwk K))) → Option (Jwt K)
  | [] => some j
  | doc :: docs => match loadJwks j doc with
    | .panic => none
    | .done j' _ => refreshes j' docs

/-- All keys a configuration holds, by set. -/
def Jwt.sets (j : Jwt K) : List (KeySet K) := [j.rsaPublic, j.ecdsaPublic, j.secret]

/-- C21: no history of refreshes removes or reorders a key, so every lookup that returned a key
keeps returning that same key; and no kid appears twice. -/
theorem C21_never_forgets (j j' : Jwt K) (docs : List (Option (List (Jwk K))))
    (h : refreshes j docs = some j') (n : Fin 3) :
    (∀ kid key, (j.sets[n]'(n.2)).find kid = some key → (j'.sets[n]'(n.2)).find kid = some key) ∧
    (((j.sets[n]'(n.2)).map KidPair.kid).Nodup → ((j'.sets[n]'(n.2)).map KidPair.kid).Nodup) := by
  induction docs generalizing j with
  | nil =>
    simp only [refreshes, Option.some.injEq] at h
    subst h
    exact ⟨fun _ _ h => h, id⟩
  | cons doc docs ih =>
    simp only [refreshes] at h
    split at h
    · cases h
    · rename_i j1 e hl
      have hr := loadJwks_rel hl
      obtain ⟨h1, h2⟩ := ih j1 h
      have hp : (j.sets[n]'(n.2)) <+: (j1.sets[n]'(n.2)) := by
        match n with
        | 0 => exact hr.rsaPrefix
        | 1 => exact hr.ecPrefix
        | 2 => exact (by simp [Jwt.sets, hr.secret])
      have hnd : ((j.sets[n]'(n.2)).map KidPair.kid).Nodup →
          ((j1.sets[n]'(n.2)).map KidPair.kid).Nodup := by
        match n with
        | 0 => exact hr.rsaNodup
        | 1 => exact hr.ecNodup
        | 2 => exact (by simp [Jwt.sets, hr.secret])
      exact ⟨fun kid key hk => h1 kid key (find_prefix hp hk), fun h => h2 (hnd h)⟩

/-- A history with a success, a failed fetch, and a document that is cut short by a foreign key. -/
example : (refreshes ({ alg := "RS256".toList } : Jwt Nat)
    [some [⟨"a".toList, "RS256".toList, .rsa 1⟩], none,
     some [⟨"b".toList, "RS256".toList, .rsa 2⟩, ⟨"c".toList, "ES256".toList, .ec 3 256⟩,
       ⟨"d".toList, "RS256".toList, .rsa 4⟩]]).map (fun j => j.rsaPublic.map KidPair.kid)
    = some ["a".toList, "b".toList] := by decide

/-! ## C23 -/

/-- C23: what is in the key sets after a refresh was there before, or was published with exactly
the configured algorithm and lands in the set of its kind, with the curve size demanded. -/
theorem C23_only_configured_alg (j j' : Jwt K) (doc : Option (List (Jwk K))) (err : Bool)
    (h : loadJwks j doc = .done j' err) :
    (∀ kp ∈ j'.rsaPublic, kp ∈ j.rsaPublic ∨ (j.alg ∈ rsaAlgs ∧ ∃ ks, doc = some ks ∧
      ∃ k ∈ ks, k.alg = j.alg ∧ k.kid = kp.kid ∧ k.raw = .rsa kp.key)) ∧
    (∀ kp ∈ j'.ecdsaPublic, kp ∈ j.ecdsaPublic ∨ (j.alg ∈ ecAlgs ∧ ∃ ks, doc = some ks ∧
      ∃ k ∈ ks, ∃ bits, k.alg = j.alg ∧ k.kid = kp.kid ∧ k.raw = .ec kp.key bits ∧
        CurveSize j.alg bits)) ∧
    j'.secret = j.secret := by
  have hr := loadJwks_rel h
  refine ⟨fun kp hkp => ?_, fun kp hkp => ?_, hr.secret⟩
  · rcases hr.rsaFrom kp hkp with h1 | ⟨ha, k, hk, h2⟩
    · exact .inl h1
    · cases doc with
      | none => simp at hk
      | some ks => exact .inr ⟨ha, ks, rfl, k, hk, h2⟩
  · rcases hr.ecFrom kp hkp with h1 | ⟨ha, k, hk, h2⟩
    · exact .inl h1
    · cases doc with
      | none => simp at hk
      | some ks => exact .inr ⟨ha, ks, rfl, k, hk, h2⟩

/-- C23: an HMAC or `none` configuration never takes anything from a JWKS. -/
theorem C23_no_remote_secrets (j : Jwt K) (doc : Option (List (Jwk K)))
    (h : j.alg ∈ hmacAlgs ∨ j.alg = "none".toList) : loadJwks j doc = .done j true := by
  have hr : j.alg ∉ rsaAlgs := by
    rw [← family_rsa]
    rcases h with h | h
    · rw [← family_hmac] at h; simp [h]
    · rw [← family_none] at h; simp [h]
  have he : j.alg ∉ ecAlgs := by
    rw [← family_ec]
    rcases h with h | h
    · rw [← family_hmac] at h; simp [h]
    · rw [← family_none] at h; simp [h]
  unfold loadJwks
  split
  · rfl
  · rfl
  · rename_i ks hne
    obtain ⟨e, h1, h2⟩ := loadLoop_no_remote (ks := ks) (err := false) hr he
    rw [h1, h2 (.inl fun hh => hne (by rw [hh]))]

/-- C23: a key published with another algorithm ends the refresh with an error. -/
theorem C23_foreign_alg_rejected (j : Jwt K) (k : Jwk K) (ks : List (Jwk K))
    (h : k.alg ≠ j.alg) : loadJwks j (some (k :: ks)) = .done j true := by
  have : j.alg ≠ k.alg := fun hh => h hh.symm
  simp [loadJwks, loadLoop, this]

example : ∃ j', loadJwks ({ alg := "ES384".toList } : Jwt Nat)
    (some [⟨"a".toList, "ES384".toList, .ec 7 384⟩, ⟨"b".toList, "ES384".toList, .ec 8 256⟩])
      = .done j' true ∧ j'.ecdsaPublic = [⟨"a".toList, 7⟩] := ⟨_, rfl, by decide⟩

/-! ## C24 -/

/-- C24 fails: a JWKS entry announced as ES256 whose key material is RSA makes `key.Raw` fail, its
error is overwritten, and the curve of the empty key is dereferenced. The refresh runs in its own
goroutine without `recover`, so the process ends. The configuration is one that booted. -/
theorem C24_violated : ∃ (j0 j : Jwt Nat) (X : X509 Nat) (doc : List (Jwk Nat)),
    j0.validate X (fun _ => 0) [] (fun _ => some [⟨"a".toList, "ES256".toList, .ec 1 256⟩])
      = .done j false ∧
    loadJwks j (some doc) = .panic :=
  ⟨{ name := "n".toList, alg := "ES256".toList, jwksUrl := "u".toList },
   { name := "n".toList, alg := "ES256".toList, jwksUrl := "u".toList,
     acceptableSkewSeconds := "120".toList, ecdsaPublic := [⟨"a".toList, 1⟩] },
   ⟨Unit, fun _ => (none, true), fun _ => none, fun _ => none⟩,
   [⟨"b".toList, "ES256".toList, .rsa 2⟩], by rfl, by rfl⟩

/-- C24 holds for documents without a mislabelled EC key, and for all algorithms but the EC ones.
Missing from the full statement: EC configurations served a key announced with their algorithm
that is not an EC key. -/
theorem C24_returns_partial (j : Jwt K) (doc : Option (List (Jwk K)))
    (h : j.alg ∈ ecAlgs → ∀ ks, doc = some ks → ∀ k ∈ ks, k.alg = j.alg →
      ∃ key bits, k.raw = .ec key bits) :
    ∃ j' err, loadJwks j doc = .done j' err := by
  cases hl : loadJwks j doc with
  | done j' err => exact ⟨j', err, rfl⟩
  | panic =>
    exfalso
    unfold loadJwks at hl
    split at hl
    · cases hl
    · cases hl
    · rename_i ks _
      obtain ⟨he, k, hk, ha, hr⟩ := loadLoop_panic hl
      obtain ⟨key, bits, hkb⟩ := h he ks rfl k hk ha
      exact hr key bits hkb

example : ∀ ks, some ([⟨"a".toList, "ES256".toList, .ec 1 384⟩] : List (Jwk Nat)) = some ks →
    ∀ k ∈ ks, k.alg = "ES256".toList → ∃ key bits, k.raw = .ec key bits := by
  intro ks h k hk _
  cases h
  simp only [List.mem_singleton] at hk
  subst hk
  exact ⟨1, 384, rfl⟩

/-! ## C26 -/

/-- What a PEM string must be to serve as a key for an RSA (`ec = false`) or EC algorithm. -/
inductive PemHolds (X : X509 K) (pem : Str) : (types : List Str) → PubKey K → Prop where
  | publicKey {typ types content pub} : X.pemDecode pem = (some (typ, content), false) →
      typ ∈ types → typ ≠ "CERTIFICATE".toList → X.parsePKIX content = some pub →
      PemHolds X pem types pub
  | certificate {types content pub} :
      X.pemDecode pem = (some ("CERTIFICATE".toList, content), false) →
      "CERTIFICATE".toList ∈ types → X.parseCertificate content = some pub →
      PemHolds X pem types pub

def rsaPemTypes : List Str := ["PUBLIC KEY".toList, "RSA PUBLIC KEY".toList, "CERTIFICATE".toList]
def ecPemTypes : List Str := ["PUBLIC KEY".toList, "CERTIFICATE".toList]

/-- C26, RSA: accepted keys are one block of an allowed type holding an RSA key, and exactly that
key is stored. -/
theorem C26_rsa (X : X509 K) (hk : Str → K) (uuid : Str) (j j' : Jwt K)
    (ha : j.alg ∈ rsaAlgs) (h : parseKey X hk uuid j = .done j' false) :
    ∃ key kid, PemHolds X j.key rsaPemTypes (.rsa key) ∧
      j' = { j with rsaPublic := j.rsaPublic.upsert ⟨kid, key⟩ } := by
  have hf := family_rsa.2 ha
  simp only [parseKey, hf] at h
  split at h
  · simp at h
  · cases h
  · rename_i typ content hp
    split at h
    · rename_i ht
      split at h
      · rename_i key hx
        simp only [Outcome.done.injEq, and_true] at h
        refine ⟨key, _, .publicKey hp ?_ ?_ hx, h.symm⟩
        · rcases ht with ht | ht <;> simp [rsaPemTypes, ht]
        · rcases ht with ht | ht <;> rw [ht] <;> decide
      · simp at h
    · split at h
      · rename_i _ ht
        subst ht
        split at h
        · cases h
        · rename_i key hx
          simp only [Outcome.done.injEq, and_true] at h
          exact ⟨key, _, .certificate hp (by simp [rsaPemTypes]) hx, h.symm⟩
        · simp at h
      · simp at h

/-- C26, EC: additionally the curve has the size the algorithm demands. -/
theorem C26_ec (X : X509 K) (hk : Str → K) (uuid : Str) (j j' : Jwt K)
    (ha : j.alg ∈ ecAlgs) (h : parseKey X hk uuid j = .done j' false) :
    ∃ key kid bits, PemHolds X j.key ecPemTypes (.ec key bits) ∧ CurveSize j.alg bits ∧
      j' = { j with ecdsaPublic := j.ecdsaPublic.upsert ⟨kid, key⟩ } := by
  have hf := family_ec.2 ha
  simp only [parseKey, hf] at h
  split at h
  · simp at h
  · cases h
  · rename_i typ content hp
    split at h
    · rename_i ht
      split at h
      · rename_i key bits hx
        split at h
        · rename_i hb
          simp only [Outcome.done.injEq, and_true] at h
          refine ⟨key, _, bits, .publicKey hp ?_ ?_ hx, (checkBits_iff ha).1 hb, h.symm⟩
          · simp [ecPemTypes, ht]
          · rw [ht]; decide
        · simp at h
      · simp at h
    · split at h
      · rename_i _ ht
        subst ht
        split at h
        · cases h
        · rename_i key bits hx
          split at h
          · rename_i hb
            simp only [Outcome.done.injEq, and_true] at h
            exact ⟨key, _, bits, .certificate hp (by simp [ecPemTypes]) hx,
              (checkBits_iff ha).1 hb, h.symm⟩
          · simp at h
        · simp at h
      · simp at h

/-- C26: a rejected key leaves the key sets alone. -/
theorem C26_rejected_stores_nothing (X : X509 K) (hk : Str → K) (uuid : Str) (j j' : Jwt K)
    (h : parseKey X hk uuid j = .done j' true) : j' = j := by
  unfold parseKey at h
  repeat' split at h
  all_goals first
    | (cases h; rfl)
    | cases h

/-- C26 conversely: a proper RSA key is accepted and stored (its kid is freshly generated). -/
theorem C26_rsa_accepts (X : X509 K) (hk : Str → K) (uuid : Str) (j : Jwt K) (key : K)
    (ha : j.alg ∈ rsaAlgs) (hp : PemHolds X j.key rsaPemTypes (.rsa key))
    (hfresh : j.alg ++ "-".toList ++ uuid ∉ j.rsaPublic.map KidPair.kid) :
    ∃ j', parseKey X hk uuid j = .done j' false ∧
      j'.rsaPublic = j.rsaPublic ++ [⟨j.alg ++ "-".toList ++ uuid, key⟩] := by
  have hf := family_rsa.2 ha
  cases hp with
  | publicKey h1 h2 h3 h4 =>
    rename_i typ content
    have ht : typ = "PUBLIC KEY".toList ∨ typ = "RSA PUBLIC KEY".toList := by
      simp only [rsaPemTypes, List.mem_cons, List.not_mem_nil, or_false] at h2
      rcases h2 with h | h | h
      · exact .inl h
      · exact .inr h
      · exact absurd h h3
    exact ⟨_, by simp only [parseKey, hf, h1, h4]; rw [if_pos ht],
      upsert_of_not_mem (kp := ⟨_, key⟩) hfresh⟩
  | certificate h1 h2 h3 =>
    exact ⟨_, by simp only [parseKey, hf, h1, h3]; rfl, upsert_of_not_mem (kp := ⟨_, key⟩) hfresh⟩

/-- C26 conversely, EC. -/
theorem C26_ec_accepts (X : X509 K) (hk : Str → K) (uuid : Str) (j : Jwt K) (key : K) (bits : Nat)
    (ha : j.alg ∈ ecAlgs) (hp : PemHolds X j.key ecPemTypes (.ec key bits))
    (hb : CurveSize j.alg bits)
    (hfresh : j.alg ++ "-".toList ++ uuid ∉ j.ecdsaPublic.map KidPair.kid) :
    ∃ j', parseKey X hk uuid j = .done j' false ∧
      j'.ecdsaPublic = j.ecdsaPublic ++ [⟨j.alg ++ "-".toList ++ uuid, key⟩] := by
  have hf := family_ec.2 ha
  have hb' := (checkBits_iff ha).2 hb
  cases hp with
  | publicKey h1 h2 h3 h4 =>
    rename_i typ content
    have ht : typ = "PUBLIC KEY".toList := by
      simp only [ecPemTypes, List.mem_cons, List.not_mem_nil, or_false] at h2
      rcases h2 with h | h
      · exact h
      · exact absurd h h3
    exact ⟨_, by simp only [parseKey, hf, h1, h4, hb']; rw [if_pos ht, if_pos trivial],
      upsert_of_not_mem (kp := ⟨_, key⟩) hfresh⟩
  | certificate h1 h2 h3 =>
    exact ⟨_, by simp only [parseKey, hf, h1, h3, hb']; rfl,
      upsert_of_not_mem (kp := ⟨_, key⟩) hfresh⟩

/-- A decoder for the examples: `p` is a public key block, `c` a certificate, with leftovers
after a `+`. -/
def exX509 : X509 Nat where
  Content := Str
  pemDecode s := match s with
    | ['p', k] => (some ("PUBLIC KEY".toList, [k]), false)
    | ['c', k] => (some ("CERTIFICATE".toList, [k]), false)
    | _ => (none, true)
  parsePKIX c := if c = ['r'] then some (.rsa 1) else if c = ['e'] then some (.ec 2 256) else none
  parseCertificate c := if c = ['r'] then some (.rsa 3) else if c = ['e'] then some (.ec 4 384) else none

example : PemHolds exX509 "cr".toList rsaPemTypes (.rsa 3) :=
  .certificate (content := ['r']) rfl (by decide) rfl

example : ∃ j', parseKey exX509 (fun _ => 0) "u".toList
    { alg := "ES256".toList, key := "pe".toList } = .done j' false := ⟨_, rfl⟩

example : ∃ j', parseKey exX509 (fun _ => 0) "u".toList
    { alg := "ES256".toList, key := "ce".toList } = .done j' true := ⟨_, rfl⟩

/-! ## C25 -/

/-- C25: a configuration that validates has one of the thirteen algorithms, a non-negative skew
(120 if unset), no key for `none`, and otherwise at least one key in the set its tokens are
checked against. -/
theorem C25_validate_sound (X : X509 K) (hk : Str → K) (uuid : Str)
    (fetch : Str → Option (List (Jwk K))) (j j' : Jwt K)
    (h : j.validate X hk uuid fetch = .done j' false) :
    j'.alg = j.alg ∧
    (j.alg ∈ rsaAlgs ∨ j.alg ∈ ecAlgs ∨ j.alg ∈ hmacAlgs ∨ j.alg = "none".toList) ∧
    (∃ n : Int, 0 ≤ n ∧ atoi j'.acceptableSkewSeconds = some n ∧
      (j.acceptableSkewSeconds = [] → n = 120) ∧
      (j.acceptableSkewSeconds ≠ [] → atoi j.acceptableSkewSeconds = some n)) ∧
    (j.alg = "none".toList → j.key = []) ∧
    (j.alg ∈ rsaAlgs → j'.rsaPublic ≠ []) ∧
    (j.alg ∈ ecAlgs → j'.ecdsaPublic ≠ []) ∧
    (j.alg ∈ hmacAlgs → j'.secret ≠ []) := by
  -- the tail of `Validate` after the skew has been settled
  have tail : ∀ (e : Bool) (j1 : Jwt K), j1.alg = j.alg → j1.key = j.key → j1.jwksUrl = j.jwksUrl →
      ((if 0 < j1.key.length then parseKey X hk uuid j1
        else if 0 < j1.jwksUrl.length then loadJwks j1 (fetch j1.jwksUrl)
        else .done j1 e) = .done j' false) →
      (e = false → j.alg ∈ validAlg ∧
        ¬ (family j.alg ≠ .none ∧ j.key.length = 0 ∧ j.jwksUrl.length = 0)) →
      j'.alg = j.alg ∧ j'.acceptableSkewSeconds = j1.acceptableSkewSeconds ∧
      (j.alg ∈ rsaAlgs ∨ j.alg ∈ ecAlgs ∨ j.alg ∈ hmacAlgs ∨ j.alg = "none".toList) ∧
      (j.alg ∈ rsaAlgs → j'.rsaPublic ≠ []) ∧
      (j.alg ∈ ecAlgs → j'.ecdsaPublic ≠ []) ∧
      (j.alg ∈ hmacAlgs → j'.secret ≠ []) := by
    intro e j1 h1 h2 h3 hh he
    have dis : ∀ {a : Str} {f g : Family}, family a = f → family a = g → f = g :=
      fun h1 h2 => h1.symm.trans h2
    split at hh
    · cases hf : family j1.alg with
      | rsa =>
        have hm := family_rsa.1 hf
        obtain ⟨key, kid, _, rfl⟩ := C26_rsa X hk uuid j1 j' hm hh
        rw [h1] at hm hf
        refine ⟨h1, rfl, .inl hm, fun _ => upsert_ne_nil _ _, fun hc => ?_, fun hc => ?_⟩
        · cases dis hf (family_ec.2 hc)
        · cases dis hf (family_hmac.2 hc)
      | ec =>
        have hm := family_ec.1 hf
        obtain ⟨key, kid, _, _, _, rfl⟩ := C26_ec X hk uuid j1 j' hm hh
        rw [h1] at hm hf
        refine ⟨h1, rfl, .inr (.inl hm), fun hc => ?_, fun _ => upsert_ne_nil _ _, fun hc => ?_⟩
        · cases dis hf (family_rsa.2 hc)
        · cases dis hf (family_hmac.2 hc)
      | hmac =>
        have hm := family_hmac.1 hf
        simp only [parseKey, hf] at hh
        rw [if_pos ‹0 < j1.key.length›] at hh
        simp only [Outcome.done.injEq, and_true] at hh
        subst hh
        rw [h1] at hm hf
        refine ⟨h1, rfl, .inr (.inr (.inl hm)), fun hc => ?_, fun hc => ?_,
          fun _ => upsert_ne_nil _ _⟩
        · cases dis hf (family_rsa.2 hc)
        · cases dis hf (family_ec.2 hc)
      | none =>
        simp only [parseKey, hf] at hh
        rw [if_pos ‹0 < j1.key.length›] at hh
        simp at hh
      | other => simp [parseKey, hf] at hh
    · split at hh
      · have hr := loadJwks_rel hh
        rcases loadJwks_ok hh with ⟨hm, hne⟩ | ⟨hm, hne⟩
        · rw [h1] at hm
          have hf := family_rsa.2 hm
          refine ⟨hr.alg.trans h1, hr.skew, .inl hm, fun _ => hne, fun hc => ?_, fun hc => ?_⟩
          · cases dis hf (family_ec.2 hc)
          · cases dis hf (family_hmac.2 hc)
        · rw [h1] at hm
          have hf := family_ec.2 hm
          refine ⟨hr.alg.trans h1, hr.skew, .inr (.inl hm), fun hc => ?_, fun _ => hne,
            fun hc => ?_⟩
          · cases dis hf (family_rsa.2 hc)
          · cases dis hf (family_hmac.2 hc)
      · rename_i hk0 hu0
        simp only [Outcome.done.injEq] at hh
        obtain ⟨rfl, he'⟩ := hh
        obtain ⟨hv, hnn⟩ := he he'
        rw [h2] at hk0
        rw [h3] at hu0
        have hf : family j.alg = .none := by
          refine Classical.byContradiction fun hne => hnn ⟨hne, by omega, by omega⟩
        refine ⟨h1, rfl, mem_validAlg.1 hv, fun hc => ?_, fun hc => ?_, fun hc => ?_⟩
        · cases dis hf (family_rsa.2 hc)
        · cases dis hf (family_ec.2 hc)
        · cases dis hf (family_hmac.2 hc)
  unfold Jwt.validate at h
  simp only at h
  split at h
  · simp at h
  split at h
  · simp at h
  split at h
  · simp at h
  split at h
  · simp at h
  split at h
  · simp at h
  rename_i hname hval _ _ hnone
  have hnokey : j.alg = "none".toList → j.key = [] := by
    intro ha
    refine Classical.byContradiction fun hne => hnone ⟨family_none.2 ha, ?_⟩
    exact List.length_pos_iff.2 hne
  have he : (if family j.alg ≠ .none ∧ j.key.length = 0 ∧ j.jwksUrl.length = 0 then true
      else (decide (j.alg ∉ validAlg))) = false → j.alg ∈ validAlg ∧
        ¬ (family j.alg ≠ .none ∧ j.key.length = 0 ∧ j.jwksUrl.length = 0) := by
    intro hh
    split at hh
    · cases hh
    · rename_i hc
      simp only [decide_eq_false_iff_not, Decidable.not_not] at hh
      exact ⟨hh, hc⟩
  split at h
  · rename_i hskew
    split at h
    · simp at h
    · rename_i n hn
      split at h
      · simp at h
      · rename_i hpos
        obtain ⟨a1, a2, a3, a4, a5, a6⟩ := tail _ j rfl rfl rfl h he
        refine ⟨a1, a3, ⟨n, by omega, by rw [a2, hn], fun hc => ?_, fun _ => hn⟩, hnokey, a4, a5, a6⟩
        rw [hc] at hskew
        simp at hskew
  · rename_i hskew
    obtain ⟨a1, a2, a3, a4, a5, a6⟩ := tail _ { j with acceptableSkewSeconds := defaultSkew } rfl rfl rfl h he
    have hnil : j.acceptableSkewSeconds = [] :=
      List.eq_nil_of_length_eq_zero (by omega)
    exact ⟨a1, a3, ⟨120, by decide, by rw [a2]; exact (by decide : atoi defaultSkew = some 120), fun _ => rfl, fun hc => absurd hnil hc⟩,
      hnokey, a4, a5, a6⟩

/-- A numeral and its value: decimal digits, the last one counting once. -/
inductive Numeral : Str → Nat → Prop where
  | one (d : Nat) : d < 10 → Numeral [Char.ofNat (48 + d)] d
  | more {s : Str} {n : Nat} (d : Nat) : Numeral s n → d < 10 → Numeral (s ++ [Char.ofNat (48 + d)]) (10 * n + d)

theorem digit_ofNat {c : Char} (h : c.isDigit = true) : ∃ d, d < 10 ∧ c = Char.ofNat (48 + d) ∧ c.toNat - 48 = d := by
  simp only [Char.isDigit, Bool.and_eq_true, decide_eq_true_eq] at h
  have h1 : 48 ≤ c.toNat := h.1
  have h2 : c.toNat ≤ 57 := h.2
  refine ⟨c.toNat - 48, by omega, ?_, rfl⟩
  rw [show 48 + (c.toNat - 48) = c.toNat by omega]
  simp

theorem numeral_digitsVal (s : Str) (hne : s ≠ []) (hd : ∀ c ∈ s, c.isDigit = true) :
    Numeral s (digitsVal s) := by
  have key : ∀ r : Str, r ≠ [] → (∀ c ∈ r, c.isDigit = true) →
      Numeral r.reverse (digitsVal r.reverse) := by
    intro r
    induction r with
    | nil => intro h; exact absurd rfl h
    | cons c r ih =>
      intro _ hd
      obtain ⟨d, h1, h2, h3⟩ := digit_ofNat (hd c (by simp))
      have hv : digitsVal (c :: r).reverse = 10 * digitsVal r.reverse + d := by
        unfold digitsVal
        rw [List.reverse_cons, List.foldl_append]
        simp only [List.foldl_cons, List.foldl_nil, h3]
      rw [hv]
      by_cases hr : r = []
      · subst hr
        simp only [digitsVal, List.reverse_nil, List.foldl_nil, Nat.mul_zero, Nat.zero_add,
          List.reverse_cons, List.nil_append]
        rw [h2]; exact .one d h1
      · rw [List.reverse_cons, h2]
        exact .more d (ih hr fun c hc => hd c (by simp [hc])) h1
  have := key s.reverse (by simpa using hne) (by simpa using hd)
  simpa using this

/-- C25: the skew that an accepted configuration ends up with is the decimal number written in it, and
fits 64 bits. -/
theorem C25_skew_is_a_number (X : X509 K) (hk : Str → K) (uuid : Str)
    (fetch : Str → Option (List (Jwk K))) (j j' : Jwt K)
    (h : j.validate X hk uuid fetch = .done j' false) :
    0 ≤ skewOf j' ∧ skewOf j' < 2 ^ 63 ∧
    (j.acceptableSkewSeconds = [] → skewOf j' = 120) ∧
    (j.acceptableSkewSeconds ≠ [] → ∃ sign digits n,
      j.acceptableSkewSeconds = sign ++ digits ∧ sign ∈ [[], ['+'], ['-']] ∧ Numeral digits n ∧
      skewOf j' = n ∧ (sign = ['-'] → n = 0)) := by
  obtain ⟨-, -, ⟨n, h0, h1, h2, h3⟩, -⟩ := C25_validate_sound X hk uuid fetch j j' h
  have hsk : skewOf j' = n := by simp [skewOf, h1]
  have spec : ∀ t : Str, atoi t = some n → n < 2 ^ 63 ∧ ∃ sign digits m,
      t = sign ++ digits ∧ sign ∈ [[], ['+'], ['-']] ∧ Numeral digits m ∧
      n = m ∧ (sign = ['-'] → m = 0) := by
    intro t ht
    unfold atoi at ht
    split at ht
    rename_i neg ds heq
    by_cases hds : ds ≠ [] ∧ ds.all Char.isDigit = true
    · rw [if_pos hds] at ht
      have hnum := numeral_digitsVal ds hds.1 (List.all_eq_true.1 hds.2)
      have hval : n = (if neg then -(digitsVal ds : Int) else digitsVal ds) ∧ n ≤ maxInt64 := by
        simp only at ht
        by_cases hb : minInt64 ≤ (if neg then -(digitsVal ds : Int) else digitsVal ds) ∧
            (if neg then -(digitsVal ds : Int) else digitsVal ds) ≤ maxInt64
        · rw [if_pos hb] at ht
          simp only [Option.some.injEq] at ht
          exact ⟨ht.symm, by rw [← ht]; exact hb.2⟩
        · rw [if_neg hb] at ht
          cases ht
      obtain ⟨ht, hb⟩ := hval
      refine ⟨by unfold maxInt64 at hb; omega, ?_⟩
      split at heq
      · simp only [Prod.mk.injEq] at heq
        obtain ⟨rfl, rfl⟩ := heq
        simp only [if_true] at ht
        refine ⟨['-'], _, _, rfl, by simp, hnum, by omega, fun _ => by omega⟩
      · simp only [Prod.mk.injEq] at heq
        obtain ⟨rfl, rfl⟩ := heq
        simp only [Bool.false_eq_true, if_false] at ht
        exact ⟨['+'], _, _, rfl, by simp, hnum, ht, fun h => by simp at h⟩
      · simp only [Prod.mk.injEq] at heq
        obtain ⟨rfl, rfl⟩ := heq
        simp only [Bool.false_eq_true, if_false] at ht
        exact ⟨[], _, _, rfl, by simp, hnum, ht, fun h => by simp at h⟩
    · rw [if_neg hds] at ht
      cases ht
  rw [hsk]
  exact ⟨h0, (spec _ h1).1, h2, fun hne => (spec _ (h3 hne)).2⟩

/-- Configurations of each kind that validate. -/
example : ∃ j', ({ name := "n".toList, alg := "RS256".toList, key := "pr".toList } : Jwt Nat).validate
    exX509 (fun _ => 0) "u".toList (fun _ => none) = .done j' false := ⟨_, rfl⟩
example : ∃ j', ({ name := "n".toList, alg := "none".toList, acceptableSkewSeconds := "0".toList } :
    Jwt Nat).validate exX509 (fun _ => 0) "u".toList (fun _ => none) = .done j' false := ⟨_, rfl⟩
example : ∃ j', ({ name := "n".toList, alg := "HS256".toList, key := "secret".toList } :
    Jwt Nat).validate exX509 (fun _ => 9) "u".toList (fun _ => none) = .done j' false := ⟨_, rfl⟩
/-- A negative skew is refused. -/
example : ∃ j', ({ name := "n".toList, alg := "none".toList, acceptableSkewSeconds := "-1".toList } :
    Jwt Nat).validate exX509 (fun _ => 0) "u".toList (fun _ => none) = .done j' true := ⟨_, rfl⟩

end J8a

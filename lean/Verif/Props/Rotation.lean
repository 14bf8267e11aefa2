import Verif.Props.Keys
import Verif.Lemmas.Decision
import Verif.Props.Token
/-!
# C99–C101 — rotation of keys, from the key set document to the token
-/
namespace J8a
open Go

variable {K : Type}

/-- What of a key set document may be used by a configuration: a key of its algorithm, of the kind and
curve that the algorithm demands. -/
def Usable (alg : Str) (k : Jwk K) (key : K) : Prop :=
  k.alg = alg ∧ (alg ∈ rsaAlgs ∧ k.raw = .rsa key ∨
    alg ∈ ecAlgs ∧ ∃ bits, k.raw = .ec key bits ∧ CurveSize alg bits)

/-- The keys in use for an algorithm. -/
def InUse (j : Jwt K) (kid : Str) (key : K) : Prop :=
  j.alg ∈ rsaAlgs ∧ j.rsaPublic.find kid = some key ∨
  j.alg ∈ ecAlgs ∧ j.ecdsaPublic.find kid = some key

/-! ## C99 -/

theorem not_both {alg : Str} (h1 : alg ∈ rsaAlgs) (h2 : alg ∈ ecAlgs) : False := by
  rw [← family_rsa] at h1
  rw [← family_ec, h1] at h2
  cases h2

theorem mem_validAlg_of {alg : Str} (h : alg ∈ rsaAlgs ∨ alg ∈ ecAlgs) : alg ∈ validAlg := by
  revert h
  unfold rsaAlgs ecAlgs validAlg validAlgNoNone
  simp only [List.map_cons, List.map_nil, List.mem_cons, List.not_mem_nil, or_false,
    List.cons_append, List.nil_append]
  rintro ((h | h | h | h | h | h) | (h | h | h)) <;> subst h <;> simp

/-- A key set that has an entry for a kid keeps one, whatever is loaded. -/
theorem loadLoop_keeps {ks : List (Jwk K)} {j j' : Jwt K} {err err' : Bool}
    (h : loadLoop j err ks = .done j' err') {kid : Str} {key : K} (hu : InUse j kid key) :
    InUse j' kid key := by
  have hr := loadLoop_rel h
  unfold InUse
  rw [hr.alg]
  rcases hu with ⟨h1, h2⟩ | ⟨h1, h2⟩
  · exact .inl ⟨h1, find_prefix hr.rsaPrefix h2⟩
  · exact .inr ⟨h1, find_prefix hr.ecPrefix h2⟩

/-- Loading a usable key. -/
theorem loadLoop_usable {j : Jwt K} {err : Bool} {k : Jwk K} {key : K} {ks : List (Jwk K)}
    (hu : Usable j.alg k key) : ∃ j1 key', loadLoop j err (k :: ks) = loadLoop j1 false ks ∧
      j1.alg = j.alg ∧ InUse j1 k.kid key' ∧
      ((∀ key0, ¬ InUse j k.kid key0) → key' = key) := by
  obtain ⟨ha, hu⟩ := hu
  rcases hu with ⟨hf, hr⟩ | ⟨hf, bits, hr, hb⟩
  · have hv : k.alg ∈ validAlg := by rw [ha]; exact mem_validAlg_of (.inl hf)
    have hfam : family k.alg = .rsa := by rw [ha]; exact family_rsa.2 hf
    have hstep : loadLoop j err (k :: ks) =
        loadLoop { j with rsaPublic := j.rsaPublic.upsert ⟨k.kid, key⟩ } false ks := by
      rw [loadLoop, if_neg (fun h => h.elim (fun h => h hv) (fun h => h ha.symm)), hfam, hr]
    have hfind := C20_find_after_upsert_partial j.rsaPublic k.kid key
    refine ⟨_, (j.rsaPublic.find k.kid).getD key, hstep, rfl, .inl ⟨hf, hfind⟩, fun hn => ?_⟩
    cases hk : j.rsaPublic.find k.kid with
    | none => rfl
    | some key0 => exact absurd (.inl ⟨hf, hk⟩) (hn key0)
  · have hv : k.alg ∈ validAlg := by rw [ha]; exact mem_validAlg_of (.inr hf)
    have hfam : family k.alg = .ec := by rw [ha]; exact family_ec.2 hf
    have hbits : checkECDSABitSize k.alg bits = true := by rw [ha]; exact (checkBits_iff hf).2 hb
    have hstep : loadLoop j err (k :: ks) =
        loadLoop { j with ecdsaPublic := j.ecdsaPublic.upsert ⟨k.kid, key⟩ } false ks := by
      rw [loadLoop, if_neg (fun h => h.elim (fun h => h hv) (fun h => h ha.symm)), hfam, hr]
      simp only [hbits, if_true]
    have hfind := C20_find_after_upsert_partial j.ecdsaPublic k.kid key
    refine ⟨_, (j.ecdsaPublic.find k.kid).getD key, hstep, rfl, .inr ⟨hf, hfind⟩, fun hn => ?_⟩
    cases hk : j.ecdsaPublic.find k.kid with
    | none => rfl
    | some key0 => exact absurd (.inr ⟨hf, hk⟩) (hn key0)

/-- One more key of the configured algorithm: the loop goes on, or crashes (C24). -/
theorem loadLoop_same_alg {j : Jwt K} {err : Bool} {k : Jwk K} {ks : List (Jwk K)}
    (ha : k.alg = j.alg) (hv : j.alg ∈ rsaAlgs ∨ j.alg ∈ ecAlgs) :
    loadLoop j err (k :: ks) = .panic ∨
    ∃ j1 e1, loadLoop j err (k :: ks) = loadLoop j1 e1 ks ∧ j1.alg = j.alg ∧
      ((∃ key, Usable j.alg k key) ∨ j1 = j) := by
  have hval : k.alg ∈ validAlg := by rw [ha]; exact mem_validAlg_of hv
  rw [loadLoop, if_neg (fun h => h.elim (fun h => h hval) (fun h => h ha.symm))]
  rcases hv with hf | hf
  · have hfam : family k.alg = .rsa := by rw [ha]; exact family_rsa.2 hf
    rw [hfam]
    cases hr : k.raw with
    | rsa key => exact .inr ⟨_, _, rfl, rfl, .inl ⟨key, ha, .inl ⟨hf, hr⟩⟩⟩
    | ec key bits => exact .inr ⟨_, _, rfl, rfl, .inr rfl⟩
    | neither => exact .inr ⟨_, _, rfl, rfl, .inr rfl⟩
  · have hfam : family k.alg = .ec := by rw [ha]; exact family_ec.2 hf
    rw [hfam]
    cases hr : k.raw with
    | rsa key => exact .inl rfl
    | ec key bits =>
      dsimp only
      split
      · rename_i hb
        rw [ha] at hb
        exact .inr ⟨_, _, rfl, rfl, .inl ⟨key, ha, .inr ⟨hf, bits, hr, (checkBits_iff hf).1 hb⟩⟩⟩
      · exact .inr ⟨_, _, rfl, rfl, .inr rfl⟩
    | neither => exact .inl rfl

/-- C99 holds for documents all of whose keys have the configured algorithm, and in general for the
keys before the first one of another algorithm: after the refresh their kids have a key. Missing from
the full statement: the keys behind a key of another algorithm. -/
theorem C99_all_loaded_partial (j j' : Jwt K) (pre post : List (Jwk K)) (err : Bool)
    (h : loadJwks j (some (pre ++ post)) = .done j' err) (hpre : ∀ k ∈ pre, k.alg = j.alg)
    (k : Jwk K) (hk : k ∈ pre) (key : K) (hu : Usable j.alg k key) : ∃ key', InUse j' k.kid key' := by
  have hv : j.alg ∈ rsaAlgs ∨ j.alg ∈ ecAlgs := by
    rcases hu.2 with ⟨hf, -⟩ | ⟨hf, -⟩
    · exact .inl hf
    · exact .inr hf
  have hl : loadLoop j false (pre ++ post) = .done j' err := by
    unfold loadJwks at h
    split at h
    · rename_i he; cases he
    · rename_i he
      simp only [Option.some.injEq, List.append_eq_nil_iff] at he
      rw [he.1] at hk; cases hk
    · rename_i he; cases he; exact h
  clear h
  generalize hfalse : false = e0 at hl
  clear hfalse
  induction pre generalizing j e0 with
  | nil => cases hk
  | cons k0 pre ih =>
    have ha0 := hpre k0 (by simp)
    rcases List.mem_cons.mp hk with rfl | hk
    · obtain ⟨j1, key', h1, -, h2, -⟩ := loadLoop_usable (err := e0) (ks := pre ++ post) hu
      rw [List.cons_append, h1] at hl
      exact ⟨key', loadLoop_keeps hl h2⟩
    · rcases loadLoop_same_alg (err := e0) (ks := pre ++ post) ha0 hv with h1 | ⟨j1, e1, h1, h2, -⟩
      · rw [List.cons_append, h1] at hl; cases hl
      · rw [List.cons_append, h1] at hl
        refine ih j1 (fun k hk => ?_) hk (by rw [h2]; exact hu) (by rw [h2]; exact hv) e1 hl
        rw [h2]
        exact hpre k (by simp [hk])

/-- A document with two signature keys and, behind them, one for encryption: both are loaded. -/
example : ∃ j', loadJwks ({ alg := "RS256".toList } : Jwt Nat) (some ([⟨"a".toList, "RS256".toList, .rsa 1⟩,
    ⟨"b".toList, "RS256".toList, .rsa 2⟩] ++ [⟨"c".toList, "RSA-OAEP".toList, .rsa 3⟩])) = .done j' true ∧
    InUse j' "a".toList 1 ∧ InUse j' "b".toList 2 :=
  ⟨_, rfl, .inl ⟨by decide, by decide⟩, .inl ⟨by decide, by decide⟩⟩

theorem loadLoop_cut {j : Jwt K} {err : Bool} {pre post : List (Jwk K)} {x : Jwk K}
    (hx : x.alg ≠ j.alg) : loadLoop j err (pre ++ x :: post) =
      match loadLoop j err pre with
      | .panic => .panic
      | .done j' _ => .done j' true := by
  induction pre generalizing j err with
  | nil =>
    have : j.alg ≠ x.alg := fun h => hx h.symm
    simp [loadLoop, this]
  | cons k pre ih =>
    rw [List.cons_append, loadLoop, loadLoop]
    split
    · rfl
    · split
      · split
        · exact ih hx
        · exact ih hx
      · split
        · split
          · exact ih hx
          · exact ih hx
        · rfl
      · exact ih hx

/-- C99 fails whenever a document has a key of another algorithm: what comes after it makes no
difference, the result is that of the keys before it, and an error. -/
theorem C99_violated_always (j : Jwt K) (pre post : List (Jwk K)) (x : Jwk K) (hx : x.alg ≠ j.alg)
    (hpre : pre ≠ []) : loadJwks j (some (pre ++ x :: post)) =
      match loadJwks j (some pre) with
      | .panic => .panic
      | .done j' _ => .done j' true := by
  cases pre with
  | nil => exact absurd rfl hpre
  | cons k pre => exact loadLoop_cut hx

/-- C99 fails: a document with a key for encryption before the key for signatures. Nothing is loaded,
and the gateway does not boot, though it serves a usable key. In the opposite order it loads the key,
and does not boot either. -/
theorem C99_violated : ∃ (j : Jwt Nat) (k x : Jwk Nat), Usable j.alg k 1 ∧
    loadJwks j (some [x, k]) = .done j true ∧ (∀ key, ¬ InUse j k.kid key) ∧
    (∃ j', loadJwks j (some [k, x]) = .done j' true ∧ InUse j' k.kid 1) ∧
    (∃ j', loadJwks j (some [k]) = .done j' false) ∧
    ∀ X hk uuid fetch, fetch j.jwksUrl = some [x, k] ∨ fetch j.jwksUrl = some [k, x] →
      ∃ j', j.validate X hk uuid fetch = .done j' true := by
  refine ⟨{ name := "n".toList, alg := "RS256".toList, jwksUrl := "u".toList },
    ⟨"sig".toList, "RS256".toList, .rsa 1⟩, ⟨"enc".toList, "RSA-OAEP".toList, .rsa 2⟩,
    ⟨rfl, .inl ⟨by decide, rfl⟩⟩, rfl, (by rintro key (⟨-, h⟩ | ⟨-, h⟩) <;> cases h), ⟨_, rfl, .inl ⟨by decide, by decide⟩⟩, ⟨_, rfl⟩, ?_⟩
  intro X hk uuid fetch hf
  rcases hf with hf | hf
  all_goals
    unfold Jwt.validate
    simp only [hf]
    exact ⟨_, rfl⟩

/-! ## C100 -/

/-- A token that some key in use verifies is accepted, if its dates are fine. -/
theorem accept_of_inUse {L : Jwx K} {j : Jwt K} {now : Int} {auth token kid : Str} {n : Nat} {key : K}
    {c : Claims} (hb : bearerToken auth = some token) (hs : L.signatures token = some n) (hn : 0 < n)
    (hk : InUse j kid key) (hv : (L.parseVerify j.alg key token).isSome = true)
    (hp : L.parse token = some c) (hd : dateClaimsOk L.skipsEpoch L.nbfStrict (skewOf j) now c = true) :
    validateToken L j now auth = .accept := by
  have hmem : ∀ ks : KeySet K, ks.find kid = some key → ∃ kp ∈ ks, ∃ c, L.parseVerify j.alg kp.key token
      = some c := by
    intro ks h
    simp only [KeySet.find, Option.map_eq_some_iff] at h
    obtain ⟨a, ha, hk⟩ := h
    obtain ⟨c, hc⟩ := Option.isSome_iff_exists.1 hv
    exact ⟨a, List.mem_of_find?_eq_some ha, c, by rw [hk]; exact hc⟩
  obtain ⟨ks, hset, hf⟩ : ∃ ks, j.keySet = some ks ∧ ks.find kid = some key := by
    rcases hk with ⟨h1, h2⟩ | ⟨h1, h2⟩
    · exact ⟨_, by simp only [Jwt.keySet, family_rsa.2 h1], h2⟩
    · exact ⟨_, by simp only [Jwt.keySet, family_ec.2 h1], h2⟩
  obtain ⟨c', hc'⟩ := (C17_some_key L j.alg token ks n hs hn).2 (hmem ks hf)
  simp only [validateToken, hb, hset, hc', hp, hd, if_true]

theorem find_upsert_other {ks : KeySet K} {kp : KidPair K} {kid : Str} (h : kp.kid ≠ kid) :
    (ks.upsert kp).find kid = ks.find kid := by
  rcases upsert_cases ks kp with ⟨-, h1⟩ | ⟨-, h1⟩ <;> rw [h1]
  simp [KeySet.find, List.find?_append, h]

/-- A usable key whose kid is not known and comes first in the document is the one in use after the
refresh. -/
theorem loadLoop_new {j j' : Jwt K} {e err : Bool} {pre post : List (Jwk K)} {k : Jwk K} {key : K}
    (h : loadLoop j e (pre ++ k :: post) = .done j' err) (hu : Usable j.alg k key)
    (hpre : ∀ p ∈ pre, p.alg = j.alg ∧ p.kid ≠ k.kid) (hnew : ∀ key0, ¬ InUse j k.kid key0) :
    InUse j' k.kid key := by
  induction pre generalizing j e with
  | nil =>
    obtain ⟨j1, key', h1, -, h2, h3⟩ := loadLoop_usable (err := e) (ks := post) hu
    rw [List.nil_append, h1] at h
    rw [h3 hnew] at h2
    exact loadLoop_keeps h h2
  | cons p pre ih =>
    have hv : j.alg ∈ rsaAlgs ∨ j.alg ∈ ecAlgs := by
      rcases hu.2 with ⟨hf, -⟩ | ⟨hf, -⟩
      · exact .inl hf
      · exact .inr hf
    obtain ⟨hpa, hpk⟩ := hpre p (by simp)
    rw [List.cons_append] at h
    -- the key sets after `p`
    obtain ⟨j1, e1, h1, h2, h3⟩ : ∃ j1 e1, loadLoop j e (p :: (pre ++ k :: post)) =
        loadLoop j1 e1 (pre ++ k :: post) ∧ j1.alg = j.alg ∧ ∀ key0, ¬ InUse j1 k.kid key0 := by
      rcases loadLoop_same_alg (err := e) (ks := pre ++ k :: post) hpa hv with h1 | ⟨j1, e1, h1, h2, h3⟩
      · rw [h1] at h; cases h
      · rcases h3 with ⟨kp, hup⟩ | rfl
        · obtain ⟨-, hup⟩ := hup
          have hval : p.alg ∈ validAlg := by rw [hpa]; exact mem_validAlg_of hv
          rcases hup with ⟨hf, hr⟩ | ⟨hf, bits, hr, hb⟩
          · have hfam : family p.alg = .rsa := by rw [hpa]; exact family_rsa.2 hf
            refine ⟨{ j with rsaPublic := j.rsaPublic.upsert ⟨p.kid, kp⟩ }, false, ?_, rfl, ?_⟩
            · rw [loadLoop, if_neg (fun h => h.elim (fun h => h hval) (fun h => h hpa.symm)), hfam, hr]
            · rintro key0 (⟨-, h5⟩ | ⟨h5, -⟩)
              · refine hnew key0 (.inl ⟨hf, ?_⟩)
                rwa [find_upsert_other hpk] at h5
              · exact not_both hf h5
          · have hfam : family p.alg = .ec := by rw [hpa]; exact family_ec.2 hf
            have hbits : checkECDSABitSize p.alg bits = true := by
              rw [hpa]; exact (checkBits_iff hf).2 hb
            refine ⟨{ j with ecdsaPublic := j.ecdsaPublic.upsert ⟨p.kid, kp⟩ }, false, ?_, rfl, ?_⟩
            · rw [loadLoop, if_neg (fun h => h.elim (fun h => h hval) (fun h => h hpa.symm)), hfam, hr]
              simp only [hbits, if_true]
            · rintro key0 (⟨h5, -⟩ | ⟨-, h5⟩)
              · exact not_both h5 hf
              · refine hnew key0 (.inr ⟨hf, ?_⟩)
                rwa [find_upsert_other hpk] at h5
        · exact ⟨j1, e1, h1, h2, hnew⟩
    rw [h1] at h
    exact ih h (by rw [h2]; exact hu) (fun q hq => by rw [h2]; exact hpre q (by simp [hq])) h3

/-- C100, the part that holds: a token with a kid that is not known starts a refresh; when that brings
a document in which the keys up to the one with this kid have the configured algorithm, the token is
accepted from then on, if that key verifies it. Missing from the full statement: kids that were used
before for another key, tokens without a kid, documents with keys of other algorithms in front. -/
theorem C100_rotated_partial (L : Jwx K) (j j' : Jwt K) (now : Int) (auth token : Str) (n : Nat)
    (pre post : List (Jwk K)) (k : Jwk K) (key : K) (err : Bool) (c : Claims)
    (hb : bearerToken auth = some token) (hs : L.signatures token = some n) (hn : 0 < n)
    (hkid : L.kid token = k.kid) (hne : k.kid ≠ []) (hurl : j.jwksUrl ≠ [])
    (hnew : ∀ key0, ¬ InUse j k.kid key0) (hu : Usable j.alg k key)
    (hpre : ∀ p ∈ pre, p.alg = j.alg ∧ p.kid ≠ k.kid)
    (hv : (L.parseVerify j.alg key token).isSome = true)
    (hp : L.parse token = some c) (hd : dateClaimsOk L.skipsEpoch L.nbfStrict (skewOf j) now c = true)
    (hload : loadJwks j (some (pre ++ k :: post)) = .done j' err) :
    (∃ ks, j.keySet = some ks ∧ triggersRefresh L j token ks = true) ∧
    ∀ docs j'', refreshes j' docs = some j'' → validateToken L j'' now auth = .accept := by
  have hl : loadLoop j false (pre ++ k :: post) = .done j' err := by
    unfold loadJwks at hload
    split at hload
    · rename_i he; cases he
    · rename_i he; simp at he
    · rename_i he; cases he; exact hload
  refine ⟨?_, fun docs j'' hr => ?_⟩
  · have hlen : 0 < (L.kid token).length := by
      rw [hkid]; exact List.length_pos_iff.2 hne
    have hurl' : 0 < j.jwksUrl.length := List.length_pos_iff.2 hurl
    have key0 : ∀ ks : KeySet K, (∀ key0, ks.find k.kid ≠ some key0) → triggersRefresh L j token ks = true := by
      intro ks h
      have : ks.find k.kid = none := Option.eq_none_iff_forall_ne_some.2 h
      rw [← hkid] at this
      simp [triggersRefresh, hs, hn, hlen, hurl', this]
    rcases hu.2 with ⟨hf, -⟩ | ⟨hf, -⟩
    · exact ⟨_, by simp only [Jwt.keySet, family_rsa.2 hf], key0 _ fun k0 h => hnew k0 (.inl ⟨hf, h⟩)⟩
    · exact ⟨_, by simp only [Jwt.keySet, family_ec.2 hf], key0 _ fun k0 h => hnew k0 (.inr ⟨hf, h⟩)⟩
  · have hin := loadLoop_new hl hu hpre hnew
    have hrel := loadLoop_rel hl
    have key1 : ∀ (docs : List (Option (List (Jwk K)))) (j1 j2 : Jwt K), refreshes j1 docs = some j2 →
        InUse j1 k.kid key → InUse j2 k.kid key ∧ j2.alg = j1.alg ∧
          j2.acceptableSkewSeconds = j1.acceptableSkewSeconds := by
      intro docs
      induction docs with
      | nil => intro j1 j2 h hi; simp only [refreshes, Option.some.injEq] at h; subst h; exact ⟨hi, rfl, rfl⟩
      | cons d docs ih =>
        intro j1 j2 h hi
        simp only [refreshes] at h
        split at h
        · cases h
        · rename_i j3 e3 h3
          have hr3 := loadJwks_rel h3
          have hi3 : InUse j3 k.kid key := by
            unfold InUse
            rw [hr3.alg]
            rcases hi with ⟨h1, h2⟩ | ⟨h1, h2⟩
            · exact .inl ⟨h1, find_prefix hr3.rsaPrefix h2⟩
            · exact .inr ⟨h1, find_prefix hr3.ecPrefix h2⟩
          obtain ⟨h4, h5, h6⟩ := ih j3 j2 h hi3
          exact ⟨h4, h5.trans hr3.alg, h6.trans hr3.skew⟩
    obtain ⟨h1, h2, h3⟩ := key1 docs j' j'' hr hin
    refine accept_of_inUse hb hs hn h1 (by rw [h2, hrel.alg]; exact hv) hp ?_
    unfold skewOf
    rw [h3, hrel.skew]
    exact hd

/-- C100 fails: a token without a kid never starts a refresh, whatever keys there are. -/
theorem C100_violated_no_kid (L : Jwx K) (j : Jwt K) (token : Str) (ks : KeySet K)
    (h : L.kid token = []) : triggersRefresh L j token ks = false := by
  unfold triggersRefresh
  rw [h]
  split
  · rfl
  · simp

/-- What a history of refreshes leaves as it is. -/
theorem refreshes_same {j j' : Jwt K} {docs : List (Option (List (Jwk K)))}
    (h : refreshes j docs = some j') : j'.alg = j.alg ∧ j'.jwksUrl = j.jwksUrl ∧
      j'.acceptableSkewSeconds = j.acceptableSkewSeconds ∧ j'.secret = j.secret ∧
      j.rsaPublic <+: j'.rsaPublic ∧ j.ecdsaPublic <+: j'.ecdsaPublic := by
  induction docs generalizing j with
  | nil =>
    simp only [refreshes, Option.some.injEq] at h; subst h
    exact ⟨rfl, rfl, rfl, rfl, List.prefix_refl _, List.prefix_refl _⟩
  | cons d docs ih =>
    simp only [refreshes] at h
    split at h
    · cases h
    · rename_i j1 e h1
      have hr := loadJwks_rel h1
      obtain ⟨a, b, c, d, e, f⟩ := ih h
      exact ⟨a.trans hr.alg, b.trans hr.jwksUrl, c.trans hr.skew, d.trans hr.secret,
        hr.rsaPrefix.trans e, hr.ecPrefix.trans f⟩

/-- A known kid stays with its key. -/
theorem refreshes_one {j j' : Jwt K} {docs : List (Option (List (Jwk K)))} {kid : Str} {old : K}
    (h : refreshes j docs = some j') (hset : j.rsaPublic = [⟨kid, old⟩])
    (hdocs : ∀ ks, some ks ∈ docs → ∀ k ∈ ks, k.kid = kid) : j'.rsaPublic = [⟨kid, old⟩] := by
  induction docs generalizing j with
  | nil => simp only [refreshes, Option.some.injEq] at h; subst h; exact hset
  | cons d docs ih =>
    simp only [refreshes] at h
    split at h
    · cases h
    · rename_i j1 e h1
      refine ih h ?_ fun ks hk => hdocs ks (by simp [hk])
      have hr := loadJwks_rel h1
      have hp := hr.rsaPrefix
      have hnd := hr.rsaNodup (by rw [hset]; simp)
      have hkids : ∀ kp ∈ j1.rsaPublic, kp.kid = kid := by
        intro kp hkp
        rcases hr.rsaFrom kp hkp with h2 | ⟨-, k, hk, -, h3, -⟩
        · rw [hset] at h2; simp at h2; rw [h2]
        · rw [← h3]
          cases d with
          | none => simp at hk
          | some ks => exact hdocs ks (by simp) k hk
      rw [hset] at hp
      obtain ⟨t, ht⟩ := hp
      rw [← ht] at hnd hkids ⊢
      cases t with
      | nil => rfl
      | cons b t =>
        have := hkids b (by simp)
        simp [this] at hnd

/-- C100 fails: when a key is replaced under its kid, tokens signed with the new key are rejected, no
matter how often the gateway has fetched the document; and they start no refresh. -/
theorem C100_violated_reused (L : Jwx K) (j j' : Jwt K) (docs : List (Option (List (Jwk K))))
    (kid : Str) (old : K) (now : Int) (auth token : Str) (n : Nat)
    (halg : j.alg ∈ rsaAlgs) (hset : j.rsaPublic = [⟨kid, old⟩])
    (hdocs : ∀ ks, some ks ∈ docs → ∀ k ∈ ks, k.kid = kid) (hr : refreshes j docs = some j')
    (hb : bearerToken auth = some token) (hs : L.signatures token = some n) (hn : 0 < n)
    (hkid : L.kid token = kid) (hbad : L.parseVerify j.alg old token = none) :
    validateToken L j' now auth = .reject ∧
    ∃ ks, j'.keySet = some ks ∧ triggersRefresh L j' token ks = false := by
  have h1 := refreshes_one hr hset hdocs
  have h2 := (refreshes_same hr).1
  have hks : j'.keySet = some [⟨kid, old⟩] := by
    simp only [Jwt.keySet, family_rsa.2 (h2 ▸ halg), h1]
  refine ⟨?_, _, hks, ?_⟩
  · have hv : verifySignature L j'.alg token [⟨kid, old⟩] = .ok none := by
      rw [h2]
      simp only [verifySignature, hs, hn, if_true, hkid, KeySet.find, List.find?, beq_self_eq_true,
        Option.map_some]
      by_cases h : 0 < kid.length
      · have h0 : kid.length ≠ 0 := by omega
        simp [h, hbad, h0]
      · have h0 : kid.length = 0 := by omega
        simp [tryKeys, hbad, h0]
    simp only [validateToken, hb, hks, hv]
  · simp [triggersRefresh, hs, hkid, KeySet.find, List.find?]

/-- A key is replaced under its kid: the document is fetched twice, and the token is rejected. -/
example : ∃ j', refreshes ({ alg := "RS256".toList, rsaPublic := [⟨"k1".toList, 1⟩] } : Jwt Nat)
    [some [⟨"k1".toList, "RS256".toList, .rsa 2⟩], some [⟨"k1".toList, "RS256".toList, .rsa 2⟩]] = some j' ∧
    j'.rsaPublic = [⟨"k1".toList, 1⟩] := ⟨_, rfl, rfl⟩

/-! ## C101 -/

theorem verifySignature_signed {L : Jwx K} {alg token : Str} {ks : KeySet K} {c : Claims}
    (h : verifySignature L alg token ks = .ok (some c)) : ∃ n, L.signatures token = some n ∧ 0 < n := by
  unfold verifySignature at h
  split at h
  · cases h
  · rename_i n hs
    split at h
    · exact ⟨n, hs, ‹_›⟩
    · cases h

/-- C101 fails for every key: a token that was accepted is accepted after every history of refreshes,
whatever the documents still contain. -/
theorem C101_violated_always (L : Jwx K) (j j' : Jwt K) (docs : List (Option (List (Jwk K))))
    (now : Int) (auth : Str) (hr : refreshes j docs = some j')
    (h : validateToken L j now auth = .accept) : validateToken L j' now auth = .accept := by
  obtain ⟨halg, -, hskew, hsec, hrsa, hec⟩ := refreshes_same hr
  have hskew' : skewOf j' = skewOf j := by unfold skewOf; rw [hskew]
  have hks : (j.keySet = none ∧ j'.keySet = none) ∨
      ∃ ks ks', j.keySet = some ks ∧ j'.keySet = some ks' ∧ ks <+: ks' := by
    unfold Jwt.keySet
    rw [halg]
    cases family j.alg with
    | rsa => exact .inr ⟨_, _, rfl, rfl, hrsa⟩
    | ec => exact .inr ⟨_, _, rfl, rfl, hec⟩
    | hmac => exact .inr ⟨_, _, rfl, rfl, by rw [hsec]; exact List.prefix_refl _⟩
    | none => exact .inl ⟨rfl, rfl⟩
    | other => exact .inl ⟨rfl, rfl⟩
  unfold validateToken at h ⊢
  cases hb : bearerToken auth with
  | none => simp [hb] at h
  | some token =>
    rw [hb] at h
    simp only at h ⊢
    rcases hks with ⟨h1, h2⟩ | ⟨ks, ks', h1, h2, h3⟩
    · rw [h1] at h
      rw [h2, hskew']
      exact h
    · rw [h1] at h
      rw [h2, hskew', halg]
      simp only at h ⊢
      cases hv : verifySignature L j.alg token ks with
      | panic => rw [hv] at h; cases h
      | ok o =>
        cases o with
        | none => rw [hv] at h; cases h
        | some c =>
          rw [hv] at h
          simp only at h
          obtain ⟨n, hs, hn⟩ := verifySignature_signed hv
          obtain ⟨kp, hkp, c1, hc1⟩ := (C17_some_key L j.alg token ks n hs hn).1 ⟨c, hv⟩
          obtain ⟨c2, hc2⟩ := (C17_some_key L j.alg token ks' n hs hn).2
            ⟨kp, h3.subset hkp, c1, hc1⟩
          rw [hc2]
          exact h

/-- Where the keys in use after some refreshes come from. -/
theorem refreshes_keys {j' : Jwt K} : ∀ (docs : List (Option (List (Jwk K)))) (j : Jwt K), refreshes j docs = some j' →
    (∀ kp ∈ j'.rsaPublic, kp ∈ j.rsaPublic ∨ j.alg ∈ rsaAlgs ∧ ∃ ks, some ks ∈ docs ∧ ∃ k ∈ ks,
      Usable j.alg k kp.key) ∧
    (∀ kp ∈ j'.ecdsaPublic, kp ∈ j.ecdsaPublic ∨ j.alg ∈ ecAlgs ∧ ∃ ks, some ks ∈ docs ∧ ∃ k ∈ ks,
      Usable j.alg k kp.key) := by
  intro docs
  induction docs with
  | nil =>
    intro j h; simp only [refreshes, Option.some.injEq] at h; subst h
    exact ⟨fun _ h => .inl h, fun _ h => .inl h⟩
  | cons d docs ih =>
    intro j h
    simp only [refreshes] at h
    split at h
    · cases h
    · rename_i j1 e h1
      obtain ⟨h2, h3⟩ := ih j1 h
      have hr1 := loadJwks_rel h1
      obtain ⟨h4, h5, -⟩ := C23_only_configured_alg j j1 d e h1
      refine ⟨fun kp hkp => ?_, fun kp hkp => ?_⟩
      · rcases h2 kp hkp with h6 | ⟨h6, ks, h7, k, h8, h9⟩
        · rcases h4 kp h6 with h6 | ⟨h6, ks, rfl, k, h8, h9, -, h10⟩
          · exact .inl h6
          · exact .inr ⟨h6, ks, by simp, k, h8, h9, .inl ⟨h6, h10⟩⟩
        · rw [hr1.alg] at h6 h9
          exact .inr ⟨h6, ks, by simp [h7], k, h8, h9⟩
      · rcases h3 kp hkp with h6 | ⟨h6, ks, h7, k, h8, h9⟩
        · rcases h5 kp h6 with h6 | ⟨h6, ks, rfl, k, h8, bits, h9, -, h10, h11⟩
          · exact .inl h6
          · exact .inr ⟨h6, ks, by simp, k, h8, h9, .inr ⟨h6, bits, h10, h11⟩⟩
        · rw [hr1.alg] at h6 h9
          exact .inr ⟨h6, ks, by simp [h7], k, h8, h9⟩

/-- C101, the part that holds: starting without keys, every token accepted was verified by a key that
some document fetched since then contained. Missing from the full statement: that it is still in the
last one. -/
theorem C101_since_boot_partial (L : Jwx K) (j j' : Jwt K) (docs : List (Option (List (Jwk K))))
    (now : Int) (auth : Str) (hr : refreshes j docs = some j')
    (halg : j.alg ∈ rsaAlgs ∨ j.alg ∈ ecAlgs) (h0 : j.rsaPublic = [] ∧ j.ecdsaPublic = [])
    (h : validateToken L j' now auth = .accept) :
    ∃ token, bearerToken auth = some token ∧ ∃ ks, some ks ∈ docs ∧ ∃ k ∈ ks, ∃ key,
      Usable j.alg k key ∧ (L.parseVerify j.alg key token).isSome = true := by
  have halg' := (refreshes_same hr).1
  obtain ⟨token, c, hb, -, -, hver⟩ := validateToken_accept h
  refine ⟨token, hb, ?_⟩
  obtain ⟨h1, h2⟩ := refreshes_keys docs j hr
  rw [h0.1] at h1
  rw [h0.2] at h2
  have hv := hver (by rw [halg']; rcases halg with h | h <;> simp [h])
  unfold Verified at hv
  rw [halg'] at hv
  rcases hv with ⟨-, kp, hkp, hv⟩ | ⟨-, kp, hkp, hv⟩ | ⟨hh, -⟩
  · rcases h1 kp hkp with h | ⟨-, ks, h7, k, h8, h9⟩
    · cases h
    · exact ⟨ks, h7, k, h8, kp.key, h9, hv⟩
  · rcases h2 kp hkp with h | ⟨-, ks, h7, k, h8, h9⟩
    · cases h
    · exact ⟨ks, h7, k, h8, kp.key, h9, hv⟩
  · exfalso
    rw [← family_hmac] at hh
    rcases halg with h | h
    · rw [← family_rsa, hh] at h; cases h
    · rw [← family_ec, hh] at h; cases h

/-- The key `k1` is withdrawn, and `k2` served in its place: both are in use. -/
example : ∃ j', refreshes ({ alg := "RS256".toList } : Jwt Nat)
    [some [⟨"k1".toList, "RS256".toList, .rsa 1⟩], some [⟨"k2".toList, "RS256".toList, .rsa 2⟩]] = some j' ∧
    InUse j' "k1".toList 1 ∧ InUse j' "k2".toList 2 :=
  ⟨_, rfl, .inl ⟨by decide, by decide⟩, .inl ⟨by decide, by decide⟩⟩

end J8a

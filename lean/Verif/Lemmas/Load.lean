import Verif.Lemmas.Jwt
/-!
# What loading keys does to a jwt configuration
-/
namespace J8a
open Go

variable {K : Type}

/-- `j'` is `j` with key sets possibly extended by keys of `ks`. -/
structure LoadRel (ks : List (Jwk K)) (j j' : Jwt K) : Prop where
  name : j'.name = j.name
  alg : j'.alg = j.alg
  key : j'.key = j.key
  jwksUrl : j'.jwksUrl = j.jwksUrl
  skew : j'.acceptableSkewSeconds = j.acceptableSkewSeconds
  secret : j'.secret = j.secret
  rsaPrefix : j.rsaPublic <+: j'.rsaPublic
  ecPrefix : j.ecdsaPublic <+: j'.ecdsaPublic
  rsaNodup : (j.rsaPublic.map KidPair.kid).Nodup → (j'.rsaPublic.map KidPair.kid).Nodup
  ecNodup : (j.ecdsaPublic.map KidPair.kid).Nodup → (j'.ecdsaPublic.map KidPair.kid).Nodup
  rsaFrom : ∀ kp ∈ j'.rsaPublic, kp ∈ j.rsaPublic ∨
    (j.alg ∈ rsaAlgs ∧ ∃ k ∈ ks, k.alg = j.alg ∧ k.kid = kp.kid ∧ k.raw = .rsa kp.key)
  ecFrom : ∀ kp ∈ j'.ecdsaPublic, kp ∈ j.ecdsaPublic ∨
    (j.alg ∈ ecAlgs ∧ ∃ k ∈ ks, ∃ bits, k.alg = j.alg ∧ k.kid = kp.kid ∧ k.raw = .ec kp.key bits ∧
      CurveSize j.alg bits)

theorem LoadRel.refl (ks : List (Jwk K)) (j : Jwt K) : LoadRel ks j j :=
  ⟨rfl, rfl, rfl, rfl, rfl, rfl, List.prefix_refl _, List.prefix_refl _, id, id,
   fun _ h => .inl h, fun _ h => .inl h⟩

theorem LoadRel.weaken {ks : List (Jwk K)} {k : Jwk K} {j j' : Jwt K} (h : LoadRel ks j j') :
    LoadRel (k :: ks) j j' :=
  { h with
    rsaFrom := fun kp hkp => (h.rsaFrom kp hkp).imp_right fun ⟨ha, x, hx, r⟩ =>
      ⟨ha, x, List.mem_cons_of_mem _ hx, r⟩
    ecFrom := fun kp hkp => (h.ecFrom kp hkp).imp_right fun ⟨ha, x, hx, r⟩ =>
      ⟨ha, x, List.mem_cons_of_mem _ hx, r⟩ }

theorem LoadRel.consRsa {ks : List (Jwk K)} {k : Jwk K} {key : K} {j j' : Jwt K}
    (hr : k.raw = .rsa key) (ha : k.alg = j.alg) (hf : j.alg ∈ rsaAlgs)
    (h : LoadRel ks { j with rsaPublic := j.rsaPublic.upsert ⟨k.kid, key⟩ } j') :
    LoadRel (k :: ks) j j' where
  name := h.name
  alg := h.alg
  key := h.key
  jwksUrl := h.jwksUrl
  skew := h.skew
  secret := h.secret
  rsaPrefix := (upsert_prefix _ _).trans h.rsaPrefix
  ecPrefix := h.ecPrefix
  rsaNodup := fun hn => h.rsaNodup (upsert_nodup hn)
  ecNodup := h.ecNodup
  rsaFrom := fun kp hkp => by
    rcases h.rsaFrom kp hkp with h1 | ⟨h1, x, hx, r⟩
    · rcases mem_upsert h1 with h2 | h2
      · exact .inl h2
      · subst h2
        exact .inr ⟨hf, k, by simp, ha, rfl, hr⟩
    · exact .inr ⟨h1, x, List.mem_cons_of_mem _ hx, r⟩
  ecFrom := fun kp hkp => by
    rcases h.ecFrom kp hkp with h1 | ⟨h1, x, hx, r⟩
    · exact .inl h1
    · exact .inr ⟨h1, x, List.mem_cons_of_mem _ hx, r⟩

theorem LoadRel.consEc {ks : List (Jwk K)} {k : Jwk K} {key : K} {bits : Nat} {j j' : Jwt K}
    (hr : k.raw = .ec key bits) (ha : k.alg = j.alg) (hf : j.alg ∈ ecAlgs)
    (hb : CurveSize j.alg bits)
    (h : LoadRel ks { j with ecdsaPublic := j.ecdsaPublic.upsert ⟨k.kid, key⟩ } j') :
    LoadRel (k :: ks) j j' where
  name := h.name
  alg := h.alg
  key := h.key
  jwksUrl := h.jwksUrl
  skew := h.skew
  secret := h.secret
  rsaPrefix := h.rsaPrefix
  ecPrefix := (upsert_prefix _ _).trans h.ecPrefix
  rsaNodup := h.rsaNodup
  ecNodup := fun hn => h.ecNodup (upsert_nodup hn)
  rsaFrom := fun kp hkp => by
    rcases h.rsaFrom kp hkp with h1 | ⟨h1, x, hx, r⟩
    · exact .inl h1
    · exact .inr ⟨h1, x, List.mem_cons_of_mem _ hx, r⟩
  ecFrom := fun kp hkp => by
    rcases h.ecFrom kp hkp with h1 | ⟨h1, x, hx, r⟩
    · rcases mem_upsert h1 with h2 | h2
      · exact .inl h2
      · subst h2
        exact .inr ⟨hf, k, by simp, bits, ha, rfl, hr, hb⟩
    · exact .inr ⟨h1, x, List.mem_cons_of_mem _ hx, r⟩

theorem loadLoop_rel {ks : List (Jwk K)} {j j' : Jwt K} {err err' : Bool}
    (h : loadLoop j err ks = .done j' err') : LoadRel ks j j' := by
  induction ks generalizing j err with
  | nil =>
    simp only [loadLoop, Outcome.done.injEq] at h
    rw [← h.1]
    exact .refl _ _
  | cons k ks ih =>
    unfold loadLoop at h
    split at h
    · simp only [Outcome.done.injEq] at h
      rw [← h.1]
      exact .refl _ _
    · rename_i hc
      have ha : k.alg = j.alg := Classical.byContradiction fun hne => hc (.inr fun h => hne h.symm)
      split at h
      · rename_i hf
        rw [family_rsa, ha] at hf
        split at h
        · rename_i hr
          exact LoadRel.consRsa hr ha hf (ih h)
        · exact (ih h).weaken
      · rename_i hf
        rw [family_ec, ha] at hf
        split at h
        · rename_i hr
          split at h
          · rename_i hb
            rw [ha, checkBits_iff hf] at hb
            exact LoadRel.consEc hr ha hf hb (ih h)
          · exact (ih h).weaken
        · cases h
      · exact (ih h).weaken

theorem loadJwks_rel {doc : Option (List (Jwk K))} {j j' : Jwt K} {err' : Bool}
    (h : loadJwks j doc = .done j' err') : LoadRel (doc.getD []) j j' := by
  unfold loadJwks at h
  split at h
  · simp only [Outcome.done.injEq] at h
    rw [← h.1]
    exact .refl _ _
  · simp only [Outcome.done.injEq] at h
    rw [← h.1]
    exact .refl _ _
  · exact loadLoop_rel h

theorem ne_nil_of_prefix {α : Type} {a b : List α} (h : a <+: b) (hne : a ≠ []) : b ≠ [] := by
  obtain ⟨t, rfl⟩ := h
  simp [hne]

theorem upsert_ne_nil (ks : KeySet K) (kp : KidPair K) : ks.upsert kp ≠ [] := by
  intro h
  have := kid_mem_upsert ks kp
  rw [h] at this
  simp at this

/-- A load that returns no error leaves a key in the set of the configured algorithm. -/
theorem loadLoop_ok {ks : List (Jwk K)} {j j' : Jwt K} {err : Bool}
    (h : loadLoop j err ks = .done j' false) (hne : ks ≠ [] ∨ (err = false ∧
      ((j.alg ∈ rsaAlgs ∧ j.rsaPublic ≠ []) ∨ (j.alg ∈ ecAlgs ∧ j.ecdsaPublic ≠ [])))) :
    (j.alg ∈ rsaAlgs ∧ j'.rsaPublic ≠ []) ∨ (j.alg ∈ ecAlgs ∧ j'.ecdsaPublic ≠ []) := by
  induction ks generalizing j err with
  | nil =>
    simp only [loadLoop, Outcome.done.injEq] at h
    rw [← h.1]
    simpa [h.2] using hne
  | cons k ks ih =>
    unfold loadLoop at h
    split at h
    · simp at h
    · rename_i hc
      have ha : k.alg = j.alg := Classical.byContradiction fun hne => hc (.inr fun h => hne h.symm)
      have bad : ∀ {jj : Jwt K}, loadLoop jj true ks = .done j' false → jj.alg = j.alg →
          (j.alg ∈ rsaAlgs ∧ j'.rsaPublic ≠ []) ∨ (j.alg ∈ ecAlgs ∧ j'.ecdsaPublic ≠ []) := by
        intro jj hh hj
        rcases ks with _ | ⟨k2, ks⟩
        · simp [loadLoop] at hh
        · rw [← hj]
          exact ih hh (.inl (by simp))
      split at h
      · rename_i hf
        rw [family_rsa, ha] at hf
        split at h
        · have := loadLoop_rel h
          exact .inl ⟨hf, ne_nil_of_prefix this.rsaPrefix (upsert_ne_nil _ _)⟩
        · exact bad h rfl
      · rename_i hf
        rw [family_ec, ha] at hf
        split at h
        · split at h
          · have := loadLoop_rel h
            exact .inr ⟨hf, ne_nil_of_prefix this.ecPrefix (upsert_ne_nil _ _)⟩
          · exact bad h rfl
        · cases h
      · exact bad h rfl

theorem loadJwks_ok {doc : Option (List (Jwk K))} {j j' : Jwt K}
    (h : loadJwks j doc = .done j' false) :
    (j.alg ∈ rsaAlgs ∧ j'.rsaPublic ≠ []) ∨ (j.alg ∈ ecAlgs ∧ j'.ecdsaPublic ≠ []) := by
  unfold loadJwks at h
  split at h
  · simp at h
  · simp at h
  · rename_i ks hne
    exact loadLoop_ok h (.inl fun hh => hne (by rw [hh]))

/-- Only an EC configuration can crash, on a key announced with its algorithm that is not EC. -/
theorem loadLoop_panic {ks : List (Jwk K)} {j : Jwt K} {err : Bool}
    (h : loadLoop j err ks = .panic) :
    j.alg ∈ ecAlgs ∧ ∃ k ∈ ks, k.alg = j.alg ∧ ∀ key bits, k.raw ≠ .ec key bits := by
  induction ks generalizing j err with
  | nil => simp [loadLoop] at h
  | cons k ks ih =>
    unfold loadLoop at h
    have up : ∀ {jj : Jwt K} {e : Bool}, loadLoop jj e ks = .panic → jj.alg = j.alg →
        j.alg ∈ ecAlgs ∧ ∃ k' ∈ k :: ks, k'.alg = j.alg ∧ ∀ key bits, k'.raw ≠ .ec key bits := by
      intro jj e hh hj
      obtain ⟨h1, x, hx, h2⟩ := ih hh
      rw [hj] at h1 h2
      exact ⟨h1, x, List.mem_cons_of_mem _ hx, h2⟩
    split at h
    · cases h
    · rename_i hc
      have ha : k.alg = j.alg := Classical.byContradiction fun hne => hc (.inr fun h => hne h.symm)
      split at h
      · split at h <;> exact up h rfl
      · rename_i hf
        rw [family_ec, ha] at hf
        split at h
        · split at h <;> exact up h rfl
        · rename_i hr
          exact ⟨hf, k, by simp, ha, fun key bits hh => hr key bits hh⟩
      · exact up h rfl

/-- HMAC and `none` configurations load nothing and always fail. -/
theorem loadLoop_no_remote {ks : List (Jwk K)} {j : Jwt K} {err : Bool}
    (hr : j.alg ∉ rsaAlgs) (he : j.alg ∉ ecAlgs) :
    ∃ e, loadLoop j err ks = .done j e ∧ (ks ≠ [] ∨ err = true → e = true) := by
  induction ks generalizing err with
  | nil => exact ⟨err, rfl, by simp⟩
  | cons k ks ih =>
    unfold loadLoop
    split
    · exact ⟨true, rfl, fun _ => rfl⟩
    · rename_i hc
      have ha : k.alg = j.alg := Classical.byContradiction fun hne => hc (.inr fun h => hne h.symm)
      obtain ⟨e, h1, h2⟩ := ih (err := true)
      have h3 : ∃ e, loadLoop j true ks = .done j e ∧ (k :: ks ≠ [] ∨ err = true → e = true) :=
        ⟨e, h1, fun _ => h2 (.inr rfl)⟩
      split
      · rename_i hf
        rw [family_rsa, ha] at hf
        exact absurd hf hr
      · rename_i hf
        rw [family_ec, ha] at hf
        exact absurd hf he
      · exact h3

end J8a

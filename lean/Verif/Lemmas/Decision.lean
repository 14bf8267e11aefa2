import Verif.Lemmas.MachineHeader
import Verif.Lemmas.Str
import Verif.Props.Token
/-!
# What the decision of the handler says about the request
-/
namespace J8a
open Go

variable {K : Type}

theorem legal_iff (m : Str) : m ∈ legalMethods ↔ m ∈ proxiedMethods := Iff.rfl

theorem bearerToken_iff (auth token : Str) : bearerToken auth = some token ↔
    ∃ scheme rest, auth = scheme ++ ' ' :: (token ++ rest) ∧ ' ' ∉ scheme ∧ ' ' ∉ token ∧
      (rest = [] ∨ ∃ t, rest = ' ' :: t) := by
  constructor
  · intro h
    unfold bearerToken at h
    split at h
    · rename_i scheme t ws hs
      cases h
      obtain ⟨h1, h2, r, h3, h4⟩ := split_two hs
      exact ⟨scheme, r, by simp [h3], h1, h2, h4⟩
    · cases h
  · rintro ⟨scheme, rest, rfl, h1, h2, h3⟩
    unfold bearerToken
    rw [split_append _ _ _ h1]
    rcases h3 with rfl | ⟨t, rfl⟩
    · rw [List.append_nil, split_no_occ _ _ h2]
    · rw [split_append _ _ _ h2]

theorem presents_iff (rq : Request) (token : Str) :
    Presents rq token ↔ bearerToken (rq.header.get "Authorization".toList) = some token :=
  (bearerToken_iff _ _).symm

/-- The conditions under which a request is forwarded. -/
theorem decision_forward {x : Setup K} {r : Route} {u : URL} {l : Str}
    (h : x.dec = .forward r u l) :
    parseMethod x.rq ∈ legalMethods ∧ x.pb.tooLarge = false ∧
    dispatch x.E x.c.routes x.rq.requestURI = some r ∧
    authorise x.L x.c.jwt x.now r x.rq = .accept ∧
    r.mapURL x.pick x.c.policies x.c.resources = .mapped u l := by
  unfold Setup.dec decision at h
  split at h
  · split at h <;> cases h
  · rename_i h1
    have h1 := Classical.not_not.1 h1
    split at h
    · cases h
    · rename_i r' hr
      split at h
      · cases h
      · cases h
      · rename_i ha
        split at h
        · cases h
        · cases h
        · rename_i u' l' hm
          cases h
          exact ⟨h1.1, h1.2, hr, ha, hm⟩

/-- The decision for a request that is not refused at once. -/
theorem decision_legal {x : Setup K} (hm : parseMethod x.rq ∈ legalMethods)
    (hl : x.pb.tooLarge = false) : x.dec =
    match dispatch x.E x.c.routes x.rq.requestURI with
    | none => .respond 404 "upstream resource not found".toList
    | some r => match authorise x.L x.c.jwt x.now r x.rq with
      | .panic => .panic
      | .reject =>
        .respond 401 "jwt bearer token missing, invalid, expired or unauthorized".toList
      | .accept => match r.mapURL x.pick x.c.policies x.c.resources with
        | .panics => .panic
        | .notMapped => .respond 503 "unable to map upstream resource".toList
        | .mapped u l => .forward r u l := by
  unfold Setup.dec decision
  rw [if_neg (by simp [hm, hl])]
  rfl

theorem decision_tooLarge {x : Setup K} (hl : x.pb.tooLarge = true) : x.dec =
    .respond 413 ("http request entity too large, limit is ".toList ++
        itoa x.c.connection.downstream.maxBodyBytes ++ " bytes".toList) := by
  unfold Setup.dec decision
  rw [if_pos (by simp [hl]), if_pos hl]

theorem decision_illegal {x : Setup K} (hm : parseMethod x.rq ∉ legalMethods)
    (hl : x.pb.tooLarge = false) : x.dec = .respond 400 "bad or malformed request".toList := by
  unfold Setup.dec decision
  rw [if_pos (by simp [hm]), if_neg (by simp [hl])]

/-- The decisions without an upstream. -/
theorem decision_respond {x : Setup K} {code : Int} {msg : Str} (h : x.dec = .respond code msg) :
    (code = 413 ∧ x.pb.tooLarge = true) ∨
    (code = 400 ∧ x.pb.tooLarge = false ∧ parseMethod x.rq ∉ legalMethods) ∨
    (x.pb.tooLarge = false ∧ parseMethod x.rq ∈ legalMethods ∧
      ((code = 404 ∧ dispatch x.E x.c.routes x.rq.requestURI = none) ∨
        ∃ r, dispatch x.E x.c.routes x.rq.requestURI = some r ∧
          ((code = 401 ∧ authorise x.L x.c.jwt x.now r x.rq = .reject) ∨
            (code = 503 ∧ authorise x.L x.c.jwt x.now r x.rq = .accept ∧
              r.mapURL x.pick x.c.policies x.c.resources = .notMapped)))) := by
  cases hl : x.pb.tooLarge with
  | true => rw [decision_tooLarge hl] at h; cases h; simp
  | false =>
    by_cases hm : parseMethod x.rq ∈ legalMethods
    · rw [decision_legal hm hl] at h
      refine .inr (.inr ⟨rfl, hm, ?_⟩)
      split at h
      · cases h; exact .inl ⟨rfl, ‹_›⟩
      · rename_i r hr
        refine .inr ⟨r, hr, ?_⟩
        split at h
        · cases h
        · cases h; exact .inl ⟨rfl, ‹_›⟩
        · split at h
          · cases h
          · cases h; exact .inr ⟨rfl, ‹_›, ‹_›⟩
          · cases h
    · rw [decision_illegal hm hl] at h
      cases h
      exact .inr (.inl ⟨rfl, rfl, hm⟩)

/-- What happens after a decision not to forward. -/
structure OnlyAnswer (x : Setup K) (s : St) (code : Int) (msg : Str) : Prop where
  calls : s.calls = []
  alive : s.pc ≠ .panicked
  sent : s.sent = [] ∨ s.sent = [jsonResponse x.respEnv code msg]
  done : s.pc = .done → s.sent = [jsonResponse x.respEnv code msg]

theorem onlyAnswer {x : Setup K} {s : St} (h : x.Reaches s) {code : Int} {msg : Str}
    (hd : x.dec = .respond code msg) (hv : validStatus code = true) : OnlyAnswer x s code msg := by
  obtain ⟨h1, h2⟩ := respond_sent h hd hv
  refine ⟨h1, ?_, ?_, ?_⟩
  · intro hp
    rw [hp] at h2
    simp at h2
  · rcases h2 with h2 | h2
    · exact .inl h2.2
    · exact .inr h2.2
  · intro hp
    rcases h2 with ⟨h2, -⟩ | h2
    · rw [hp] at h2; cases h2
    · exact h2.2

/-- A response without any upstream call, by status. -/
theorem own_status {x : Setup K} {s : St} (h : x.Reaches s) (hc : s.calls = []) {y : Sent}
    (hy : y ∈ s.sent) : (∃ msg, x.dec = .respond y.status msg) ∨ y.status = 502 ∨ y.status = 504 := by
  cases hd : x.dec with
  | forward r u l => exact .inr (noCall_sent h hd hc y hy)
  | respond code msg =>
    left
    have hv : validStatus code = true := by
      rcases decision_respond hd with h | h | ⟨-, -, h | ⟨r, -, h | h⟩⟩ <;> rw [h.1] <;> decide
    have := (onlyAnswer h hd hv).sent
    refine ⟨msg, ?_⟩
    rcases this with h | h
    · rw [h] at hy; cases hy
    · rw [h, List.mem_singleton] at hy
      rw [hy]
      rfl
  | panic =>
    exfalso
    obtain ⟨as, h⟩ := h
    have := run_invariant (P := fun s => s.n = 0 ∧ s.sent = [] ∧ s.pc = .panicked)
      (fun s a s' hi hs => by
        obtain ⟨h0, h1, h2⟩ := hi
        cases a <;> step_cases hs <;> simp_all) (s := initial x.dec) (by simp [hd, initial]) h
    rw [this.2.1] at hy
    cases hy

/-- A call of an upstream means that the request was accepted. -/
theorem forward_of_calls {x : Setup K} {s : St} (h : x.Reaches s) (hc : s.calls ≠ []) :
    ∃ r u l, x.dec = .forward r u l := by
  obtain ⟨p, hp⟩ := List.exists_mem_of_ne_nil _ hc
  obtain ⟨r, u, l, hd, -⟩ := calls_of_reaches h hp
  exact ⟨r, u, l, hd⟩

/-! ## Tokens -/

theorem keySet_cases (j : Jwt K) :
    (j.alg ∈ rsaAlgs ∧ j.keySet = some j.rsaPublic) ∨ (j.alg ∈ ecAlgs ∧ j.keySet = some j.ecdsaPublic) ∨
    (j.alg ∈ hmacAlgs ∧ j.keySet = some j.secret) ∨
    ((j.alg ∉ rsaAlgs ∧ j.alg ∉ ecAlgs ∧ j.alg ∉ hmacAlgs) ∧ j.keySet = none) := by
  unfold Jwt.keySet
  rw [← family_rsa, ← family_ec, ← family_hmac]
  cases family j.alg <;> simp

theorem verified_iff (L : Jwx K) (j : Jwt K) (token : Str) (ks : KeySet K) (hk : j.keySet = some ks) :
    Verified L j token ↔ ∃ kp ∈ ks, (L.parseVerify j.alg kp.key token).isSome = true := by
  have d1 : j.alg ∈ rsaAlgs ↔ family j.alg = .rsa := family_rsa.symm
  have d2 : j.alg ∈ ecAlgs ↔ family j.alg = .ec := family_ec.symm
  have d3 : j.alg ∈ hmacAlgs ↔ family j.alg = .hmac := family_hmac.symm
  unfold Verified Jwt.keySet at *
  rw [d1, d2, d3]
  cases hf : family j.alg <;> rw [hf] at hk <;> simp_all

/-- What acceptance of a header means. -/
theorem validateToken_accept {L : Jwx K} {j : Jwt K} {now : Int} {auth : Str}
    (h : validateToken L j now auth = .accept) : ∃ token c, bearerToken auth = some token ∧
      L.parse token = some c ∧ dateClaimsOk L.skipsEpoch L.nbfStrict (skewOf j) now c = true ∧
      ((j.alg ∈ rsaAlgs ∨ j.alg ∈ ecAlgs ∨ j.alg ∈ hmacAlgs) → Verified L j token) := by
  unfold validateToken at h
  split at h
  · cases h
  · rename_i token hb
    refine ⟨token, ?_⟩
    simp only at h
    split at h
    · cases h
    · cases h
    · rename_i d hd
      split at h
      · cases h
      · rename_i c hc
        split at h
        · rename_i hdate
          refine ⟨c, hb, hc, hdate, fun hfam => ?_⟩
          cases hk : j.keySet with
          | none =>
            exfalso
            rcases keySet_cases j with h | h | h | h
            · rw [hk] at h; cases h.2
            · rw [hk] at h; cases h.2
            · rw [hk] at h; cases h.2
            · simp_all
          | some ks =>
            rw [hk] at hd
            simp only at hd
            rw [verified_iff L j token ks hk]
            have hd0 := hd
            unfold verifySignature at hd
            split at hd
            · cases hd
            · rename_i n hn
              split at hd
              · rename_i hpos
                obtain ⟨kp, hkp, c', hc'⟩ := (C17_some_key L j.alg token ks n hn hpos).1 ⟨d, hd0⟩
                exact ⟨kp, hkp, by simp [hc']⟩
              · cases hd
        · cases h

/-- When a header is rejected. -/
theorem validateToken_reject {L : Jwx K} {j : Jwt K} {now : Int} {auth : Str}
    (h : bearerToken auth = none ∨ ∃ token, bearerToken auth = some token ∧
      ((j.keySet.isSome = true ∧ (∃ n, L.signatures token = some n) ∧ ¬ Verified L j token) ∨
       (j.keySet = none ∧ L.parse token = none) ∨
       ((j.keySet.isSome = true → ∃ n, L.signatures token = some n) ∧
        ∃ c, L.parse token = some c ∧ dateClaimsOk L.skipsEpoch L.nbfStrict (skewOf j) now c = false))) :
    validateToken L j now auth = .reject := by
  unfold validateToken
  rcases h with h | ⟨token, hb, h⟩
  · rw [h]
  · rw [hb]
    simp only
    cases hk : j.keySet with
    | none =>
      simp only [hk, Option.isSome_none, Bool.false_eq_true, false_and, true_and, false_or] at h
      rcases h with h | ⟨-, c, hc, hd⟩
      · simp only [h]
      · simp only [hc, hd, Bool.false_eq_true, if_false]
    | some ks =>
      simp only [hk, Option.isSome_some, true_and, reduceCtorEq, false_and, false_or,
        true_implies] at h
      have hs : ∃ n, L.signatures token = some n := by
        rcases h with h | h
        · exact h.1
        · exact h.1
      obtain ⟨n, hn⟩ := hs
      have hnp : verifySignature L j.alg token ks ≠ .panic := by
        unfold verifySignature
        rw [hn]
        simp only
        repeat' split
        all_goals simp
      simp only
      cases hv : verifySignature L j.alg token ks with
      | panic => exact absurd hv hnp
      | ok o =>
        cases o with
        | none => rfl
        | some d =>
          simp only
          rcases h with ⟨-, h⟩ | ⟨-, c, hc, hd⟩
          · exfalso
            apply h
            rw [verified_iff L j token ks hk]
            have hpos : 0 < n := by
              refine Classical.byContradiction fun hh => ?_
              unfold verifySignature at hv
              rw [hn] at hv
              simp only [hh, if_false] at hv
              cases hv
            obtain ⟨kp, hkp, c', hc'⟩ := (C17_some_key L j.alg token ks n hn hpos).1 ⟨d, hv⟩
            exact ⟨kp, hkp, by simp [hc']⟩
          · simp only [hc, hd, Bool.false_eq_true, if_false]

theorem authorise_jwt {L : Jwx K} {jwts : List (Str × Jwt K)} {now : Int} {r : Route} {rq : Request}
    (h : authorise L jwts now r rq = .accept) (hj : r.jwt ≠ []) : ∃ j, jwts.lookup r.jwt = some j ∧
      validateToken L j now (rq.header.get "Authorization".toList) = .accept := by
  unfold authorise at h
  have : r.hasJwt = true := by
    unfold Route.hasJwt
    simpa [List.length_pos_iff] using hj
  rw [if_pos this] at h
  simp only at h
  split at h
  · exact ⟨_, ‹_›, h⟩
  · split at h <;> cases h

end J8a

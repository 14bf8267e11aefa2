import Verif.Lemmas.Decision
import Verif.Lemmas.MachineRun
import Verif.Model.Boot
import Verif.Props.Keys
import Verif.Props.Config
import Verif.Spec.Demo
/-!
# C02, C14, C15, C27–C34 — requests: routing, tokens, bodies, ids, methods, headers

All statements are about every execution (`x.Reaches s`): every schedule, upstream and timer.
-/
namespace J8a
open Go

variable {K : Type}

theorem dispatch_none {E : Regexp} {routes : List Route} {uri : Str} :
    dispatch E routes uri = none ↔ ∀ r ∈ routes, r.matchURI E uri = false := by
  unfold dispatch
  rw [List.find?_eq_none]
  simp

/-- The limit check in terms of the request. -/
theorem tooLarge_iff {x : Setup K} (hl : -1 ≤ x.rq.contentLength) :
    x.pb.tooLarge = true ↔ DeclaredTooLarge x.maxBody x.rq := by
  unfold Setup.pb DeclaredTooLarge
  by_cases h0 : 0 ≤ x.maxBody
  · rw [parseRequestBody_eq _ _ _ h0]
    by_cases hc : x.rq.contentLength = 0
    · simp [hc]
    · rw [if_neg hc]
      by_cases hm : x.rq.contentLength ≥ x.maxBody
      · rw [if_pos hm]; simp [hc]; omega
      · rw [if_neg hm]
        constructor
        · intro h
          split at h <;> simp at h
        · intro h
          exact absurd h.2 hm
  · unfold parseRequestBody
    by_cases hc : x.rq.contentLength = 0
    · simp [hc]
    · rw [if_neg hc, if_pos (by omega)]
      simp [hc]
      omega

theorem not_tooLarge {x : Setup K} (hl : -1 ≤ x.rq.contentLength)
    (h : ¬ DeclaredTooLarge x.maxBody x.rq) : x.pb.tooLarge = false := by
  rw [← Bool.not_eq_true, tooLarge_iff hl]
  exact h

/-! ## C02 -/

/-- The message of the 404. -/
def notFoundMsg : Str := "upstream resource not found".toList

/-- C02: if no route matches, there is no upstream request, the handler does not crash, and the
response is the 404. -/
theorem C02_unrouted (x : Setup K) (s : St) (h : x.Reaches s) (hl : -1 ≤ x.rq.contentLength)
    (hm : toUpper x.rq.method ∈ proxiedMethods) (hb : ¬ DeclaredTooLarge x.maxBody x.rq)
    (hr : ∀ r ∈ x.c.routes, r.matchURI x.E x.rq.requestURI = false) :
    s.calls = [] ∧ s.pc ≠ .panicked ∧
    (s.pc = .done → s.sent = [jsonResponse x.respEnv 404 notFoundMsg]) := by
  have hd := decision_legal (x := x) hm (not_tooLarge hl hb)
  rw [dispatch_none.2 hr] at hd
  have := onlyAnswer h hd (by decide)
  exact ⟨this.calls, this.alive, this.done⟩

/-- C02, converse: a 404 that does not come from an upstream means that no route matches. -/
theorem C02_own_404 (x : Setup K) (s : St) (h : x.Reaches s) (hc : s.calls = []) (y : Sent)
    (hy : y ∈ s.sent) (h404 : y.status = 404) :
    ∀ r ∈ x.c.routes, r.matchURI x.E x.rq.requestURI = false := by
  rw [← dispatch_none]
  rcases own_status h hc hy with ⟨msg, hd⟩ | h | h
  · rw [h404] at hd
    rcases decision_respond hd with h | h | ⟨-, -, h | ⟨r, -, h | h⟩⟩
    · exact absurd h.1 (by decide)
    · exact absurd h.1 (by decide)
    · exact h.2
    · exact absurd h.1 (by decide)
    · exact absurd h.1 (by decide)
  · omega
  · omega

/-- An unrouted request in the demo gateway. -/
def Demo.unrouted : Setup Nat :=
  { Demo.setup with rq := { Demo.request with requestURI := "/b".toList } }

example : (Demo.exec Demo.unrouted [Demo.go, Demo.go]).map Demo.seen =
    some ⟨true, 0, 0, [(404, [], Demo.json 404
      "upstream resource not found")]⟩ := by decide +kernel

/-! ## C14 -/

/-- C14: if anything reaches an upstream and the matching route names a jwt, that configuration
exists, and unless its algorithm is none of the twelve with keys, the presented token verified under
that algorithm against a key of that configuration and of the matching type. -/
theorem C14_verified_key (x : Setup K) (s : St) (h : x.Reaches s) (hc : s.calls ≠ []) :
    ∃ r, dispatch x.E x.c.routes x.rq.requestURI = some r ∧ (r.jwt ≠ [] →
      ∃ j, x.c.jwt.lookup r.jwt = some j ∧ ∃ token, Presents x.rq token ∧
        ((j.alg ∈ rsaAlgs ∨ j.alg ∈ ecAlgs ∨ j.alg ∈ hmacAlgs) → Verified x.L j token)) := by
  obtain ⟨r, u, l, hd⟩ := forward_of_calls h hc
  obtain ⟨-, -, hr, ha, -⟩ := decision_forward hd
  refine ⟨r, hr, fun hj => ?_⟩
  obtain ⟨j, hl, hv⟩ := authorise_jwt ha hj
  obtain ⟨token, c, hb, -, -, hver⟩ := validateToken_accept hv
  exact ⟨j, hl, token, (presents_iff _ _).2 hb, hver⟩

theorem refreshes_alg {j j' : Jwt K} {docs : List (Option (List (Jwk K)))}
    (h : refreshes j docs = some j') : j'.alg = j.alg := by
  induction docs generalizing j with
  | nil => simp only [refreshes, Option.some.injEq] at h; rw [h]
  | cons d ds ih =>
    unfold refreshes at h
    split at h
    · cases h
    · rename_i j1 e hl
      rw [ih h, (loadJwks_rel hl).alg]

/-- C14 for a gateway that booted, at any time afterwards: its routes are those of the boot, and each
jwt is the one validated at boot after some history of key refreshes. Then the algorithm is `none`
or the token is verified. -/
theorem C14_booted (x : Setup K) (s : St) (h : x.Reaches s) (hc : s.calls ≠ [])
    (X : X509 K) (hk : Str → K) (uuid : Str → Str) (fetch : Str → Str → Option (List (Jwk K)))
    (srt : List Route → List Route) (hs : IsRouteSort srt) (c c' : Config (Jwt K))
    (hboot : boot x.E (bootJwt X hk uuid fetch) srt c = some c')
    (hroutes : x.c.routes = c'.routes)
    (hjwts : ∀ n j, x.c.jwt.lookup n = some j → ∃ j0 docs, (n, j0) ∈ c'.jwt ∧
      refreshes j0 docs = some j) :
    ∃ r ∈ c'.routes, r.matchURI x.E x.rq.requestURI = true ∧ (r.jwt ≠ [] →
      ∃ j, x.c.jwt.lookup r.jwt = some j ∧ ∃ token, Presents x.rq token ∧
        (j.alg = "none".toList ∨ Verified x.L j token)) := by
  obtain ⟨r, hr, hj⟩ := C14_verified_key x s h hc
  refine ⟨r, ?_, ?_, fun hne => ?_⟩
  · rw [← hroutes]
    exact List.mem_of_find?_eq_some hr
  · have := List.find?_some hr
    exact this
  · obtain ⟨j, hl, token, hp, hv⟩ := hj hne
    refine ⟨j, hl, token, hp, ?_⟩
    obtain ⟨j0, docs, hm, hd⟩ := hjwts _ _ hl
    obtain ⟨-, -, -, -, -, -, hval⟩ := C13_boot_sound hs hboot
    obtain ⟨j1, -, hv1⟩ := hval _ _ hm
    unfold bootJwt at hv1
    split at hv1
    · rename_i j2 hj2
      cases hv1
      obtain ⟨h1, h2, -⟩ := C25_validate_sound _ _ _ _ _ _ hj2
      rw [← h1, ← refreshes_alg hd] at h2
      rcases h2 with h2 | h2 | h2 | h2
      · exact .inr (hv (.inl h2))
      · exact .inr (hv (.inr (.inl h2)))
      · exact .inr (hv (.inr (.inr h2)))
      · exact .inl h2
    · cases hv1

/-- The demo gateway with a protected route and the HMAC key 1. -/
def Demo.guarded (auth : String) : Setup Nat :=
  let j : Jwt Nat :=
    { name := "j".toList, alg := "HS256".toList, acceptableSkewSeconds := "0".toList,
      secret := [⟨"k".toList, 1⟩] }
  let c := { Demo.config with routes := [{ Demo.route with jwt := "j".toList }], jwt := [("j".toList, j)] }
  let rq := { Demo.request with header := [("Authorization".toList, [auth.toList])] }
  { Demo.setup with c := c, rq := rq }

/-- A configuration with a protected route boots. -/
example : (boot literalEngine (bootJwt exX509 (fun _ => 1) (fun _ => "u".toList) (fun _ _ => none)) exSort
    { Demo.config with
      routes := [{ path := "/a".toList, resource := "r".toList, jwt := "j".toList }],
      jwt := [("j".toList, { alg := "HS256".toList, key := "secret".toList })] }).isSome = true := by
  decide +kernel

/-- A valid token is let through. -/
example : (Demo.exec (Demo.guarded "Bearer v") (Demo.success Demo.ok)).map Demo.seen =
    some ⟨true, 1, 1, [(200, ["ok".toList], [104, 105])]⟩ := by decide +kernel

/-! ## C15 -/

/-- The message of the 401. -/
def unauthorizedMsg : Str := "jwt bearer token missing, invalid, expired or unauthorized".toList

/-- Reasons to reject a request on a route with the jwt configuration `j`, for tokens that the
library can parse far enough for the code not to crash. -/
inductive Rejectable (L : Jwx K) (j : Jwt K) (now : Int) (rq : Request) : Prop where
  /-- no token -/
  | missing : (∀ token, ¬ Presents rq token) → Rejectable L j now rq
  /-- a signed token that no key verifies -/
  | unverified (token : Str) (n : Nat) : Presents rq token →
      (j.alg ∈ rsaAlgs ∨ j.alg ∈ ecAlgs ∨ j.alg ∈ hmacAlgs) → L.signatures token = some n →
      ¬ Verified L j token → Rejectable L j now rq
  /-- an unsigned token that is none -/
  | garbage (token : Str) : Presents rq token →
      ¬ (j.alg ∈ rsaAlgs ∨ j.alg ∈ ecAlgs ∨ j.alg ∈ hmacAlgs) → L.parse token = none →
      Rejectable L j now rq
  /-- dates -/
  | dates (token : Str) (c : Claims) : Presents rq token → L.parse token = some c →
      ((j.alg ∈ rsaAlgs ∨ j.alg ∈ ecAlgs ∨ j.alg ∈ hmacAlgs) → ∃ n, L.signatures token = some n) →
      dateClaimsOk L.skipsEpoch L.nbfStrict (skewOf j) now c = false → Rejectable L j now rq

theorem keySet_isSome (j : Jwt K) : j.keySet.isSome = true ↔
    (j.alg ∈ rsaAlgs ∨ j.alg ∈ ecAlgs ∨ j.alg ∈ hmacAlgs) := by
  rcases keySet_cases j with h | h | h | h <;> simp [h]

/-- C15, part: a rejectable request on a protected route is answered with the 401 alone. Missing:
malformed tokens under an algorithm with keys, which crash the handler (C15_malformed_crashes). -/
theorem C15_rejected_partial (x : Setup K) (s : St) (h : x.Reaches s) (hl : -1 ≤ x.rq.contentLength)
    (hm : toUpper x.rq.method ∈ proxiedMethods) (hb : ¬ DeclaredTooLarge x.maxBody x.rq)
    (r : Route) (hr : dispatch x.E x.c.routes x.rq.requestURI = some r) (hj : r.jwt ≠ [])
    (j : Jwt K) (hlk : x.c.jwt.lookup r.jwt = some j) (hbad : Rejectable x.L j x.now x.rq) :
    s.calls = [] ∧ s.pc ≠ .panicked ∧
    (s.pc = .done → s.sent = [jsonResponse x.respEnv 401 unauthorizedMsg]) := by
  have hrej : validateToken x.L j x.now (x.rq.header.get "Authorization".toList) = .reject := by
    apply validateToken_reject
    rw [keySet_isSome]
    cases hbad with
    | missing hmiss =>
      left
      cases hb : bearerToken (x.rq.header.get "Authorization".toList) with
      | none => rfl
      | some t => exact absurd ((presents_iff _ _).2 hb) (hmiss t)
    | unverified token n hp hfam hsig hver =>
      exact .inr ⟨token, (presents_iff _ _).1 hp, .inl ⟨hfam, ⟨n, hsig⟩, hver⟩⟩
    | garbage token hp hfam hpar =>
      refine .inr ⟨token, (presents_iff _ _).1 hp, .inr (.inl ⟨?_, hpar⟩)⟩
      rw [← keySet_isSome] at hfam
      simpa using hfam
    | dates token c hp hpar hfam hdate =>
      exact .inr ⟨token, (presents_iff _ _).1 hp, .inr (.inr ⟨hfam, c, hpar, hdate⟩)⟩
  have hd := decision_legal (x := x) hm (not_tooLarge hl hb)
  have hj' : r.hasJwt = true := by
    unfold Route.hasJwt
    simpa [List.length_pos_iff] using hj
  have ha : authorise x.L x.c.jwt x.now r x.rq = .reject := by
    unfold authorise
    rw [if_pos hj']
    simp only [hlk]
    exact hrej
  rw [hr] at hd
  simp only [ha] at hd
  have := onlyAnswer h hd (by decide)
  exact ⟨this.calls, this.alive, this.done⟩

/-- A missing and an unverified token. -/
example : (Demo.exec (Demo.guarded "Bearer") [Demo.go, Demo.go]).map Demo.seen =
    some ⟨true, 0, 0, [(401, [], Demo.json 401
      "jwt bearer token missing, invalid, expired or unauthorized")]⟩ := by decide +kernel
example : (Demo.exec (Demo.guarded "Bearer w") [Demo.go, Demo.go]).map Demo.seen =
    some ⟨true, 0, 0, [(401, [], Demo.json 401
      "jwt bearer token missing, invalid, expired or unauthorized")]⟩ := by decide +kernel

/-- Where C15 fails: if the library cannot parse the presented token and the algorithm has keys, the handler
panics at once: the client gets no response at all, under every schedule. -/
theorem C15_malformed_crashes (x : Setup K) (s : St) (h : x.Reaches s) (hl : -1 ≤ x.rq.contentLength)
    (hm : toUpper x.rq.method ∈ proxiedMethods) (hb : ¬ DeclaredTooLarge x.maxBody x.rq)
    (r : Route) (hr : dispatch x.E x.c.routes x.rq.requestURI = some r) (hj : r.jwt ≠ [])
    (j : Jwt K) (hlk : x.c.jwt.lookup r.jwt = some j)
    (hfam : j.alg ∈ rsaAlgs ∨ j.alg ∈ ecAlgs ∨ j.alg ∈ hmacAlgs) (token : Str)
    (hp : Presents x.rq token) (hmal : x.L.signatures token = none) :
    s.calls = [] ∧ s.sent = [] ∧ s.pc = .panicked := by
  have hpan : validateToken x.L j x.now (x.rq.header.get "Authorization".toList) = .panic := by
    unfold validateToken
    rw [(presents_iff _ _).1 hp]
    obtain ⟨ks, hk⟩ := Option.isSome_iff_exists.1 ((keySet_isSome j).2 hfam)
    have : verifySignature x.L j.alg token ks = .panic := by
      unfold verifySignature
      rw [hmal]
    simp only [hk, this]
  have hd := decision_legal (x := x) hm (not_tooLarge hl hb)
  have hj' : r.hasJwt = true := by
    unfold Route.hasJwt
    simpa [List.length_pos_iff] using hj
  have ha : authorise x.L x.c.jwt x.now r x.rq = .panic := by
    unfold authorise
    rw [if_pos hj']
    simp only [hlk]
    exact hpan
  rw [hr] at hd
  simp only [ha] at hd
  obtain ⟨as, h⟩ := h
  have := run_invariant (P := fun s => s.n = 0 ∧ s.calls = [] ∧ s.sent = [] ∧ s.pc = .panicked)
    (fun s a s' hi hs => by
      obtain ⟨h0, h1, h2, h3⟩ := hi
      cases a <;> step_cases hs <;> simp_all) (s := initial x.dec) (by simp [hd, initial]) h
  exact this.2

/-- C15 fails: a request with a malformed token is not answered. -/
theorem C15_violated : ∃ (x : Setup Nat) (s : St) (r : Route) (j : Jwt Nat) (token : Str), x.Reaches s ∧
    x.rq.WF ∧ dispatch x.E x.c.routes x.rq.requestURI = some r ∧ x.c.jwt.lookup r.jwt = some j ∧
    Presents x.rq token ∧ ¬ Verified x.L j token ∧ s.pc = .panicked ∧ s.sent = [] := by
  refine ⟨Demo.guarded "Bearer m", initial (Demo.guarded "Bearer m").dec,
    { Demo.route with jwt := "j".toList },
    { name := "j".toList, alg := "HS256".toList, acceptableSkewSeconds := "0".toList,
      secret := [⟨"k".toList, 1⟩] }, "m".toList, ⟨[], rfl⟩,
    ⟨⟨by decide, by decide⟩, by decide, by decide, by decide⟩, by decide +kernel, rfl,
    ⟨"Bearer".toList, [], by decide +kernel, by decide, by decide, .inl rfl⟩, ?_, ?_, ?_⟩
  · unfold Verified
    decide +kernel
  · have : (Demo.guarded "Bearer m").dec = .panic := by decide +kernel
    rw [this]; rfl
  · rfl

/-! ## C27 -/

/-- The presented token passes the check of the jwt configuration `j`: it verifies, if the algorithm has
keys, it parses, and its dates are fine. -/
def Checked (L : Jwx K) (j : Jwt K) (now : Int) (rq : Request) : Prop :=
  ∃ token c, Presents rq token ∧ L.parse token = some c ∧
    dateClaimsOk L.skipsEpoch L.nbfStrict (skewOf j) now c = true ∧
    ((j.alg ∈ rsaAlgs ∨ j.alg ∈ ecAlgs ∨ j.alg ∈ hmacAlgs) → Verified L j token)

/-- C27, part: if the matching route names a jwt, then in the proxy handler an upstream request, and any
response that is not an error, needs a token that passes the check. Missing: requests that the mux gives to
the about handler (C27_violated_about). -/
theorem C27_always_checked_partial (x : Setup K) (s : St) (h : x.Reaches s) (r : Route)
    (hr : dispatch x.E x.c.routes x.rq.requestURI = some r) (hj : r.jwt ≠ [])
    (hok : s.calls ≠ [] ∨ ∃ y ∈ s.sent, y.status < 400) :
    ∃ j, x.c.jwt.lookup r.jwt = some j ∧ Checked x.L j x.now x.rq := by
  have hf : ∃ r u l, x.dec = .forward r u l := by
    by_cases hc : s.calls = []
    · rcases hok with hok | ⟨y, hy, hlt⟩
      · exact absurd hc hok
      · rcases own_status h hc hy with ⟨msg, hd⟩ | h | h
        · exfalso
          rcases decision_respond hd with h | h | ⟨-, -, h | ⟨r, -, h | h⟩⟩ <;> omega
        · omega
        · omega
    · exact forward_of_calls h hc
  obtain ⟨r', u, l, hd⟩ := hf
  obtain ⟨-, -, hr', ha, -⟩ := decision_forward hd
  rw [hr] at hr'
  cases hr'
  obtain ⟨j, hl, hv⟩ := authorise_jwt ha hj
  obtain ⟨token, c, h1, h2, h3, h4⟩ := validateToken_accept hv
  exact ⟨j, hl, token, c, (presents_iff _ _).2 h1, h2, h3, h4⟩

/-- The check is not empty: the demo gateway's token passes. -/
example : ∃ j, (Demo.guarded "Bearer v").c.jwt.lookup "j".toList = some j ∧
    Checked (Demo.guarded "Bearer v").L j 0 (Demo.guarded "Bearer v").rq :=
  ⟨{ name := "j".toList, alg := "HS256".toList, acceptableSkewSeconds := "0".toList, secret := [⟨"k".toList, 1⟩] },
    rfl, "v".toList, {}, ⟨"Bearer".toList, [], by decide +kernel, by decide, by decide, .inl rfl⟩,
    by decide +kernel, by decide +kernel, fun _ => .inr (.inr ⟨by decide +kernel, ⟨"k".toList, 1⟩,
      by decide +kernel, by decide +kernel⟩)⟩

/-! ## C28 -/

/-- C28: no upstream request carries more than the configured number of bytes. -/
theorem C28_body_bounded (x : Setup K) (s : St) (h : x.Reaches s) (p : Nat × UpReq)
    (hp : p ∈ s.calls) : p.2.body.length ≤ x.maxBody.toNat := by
  obtain ⟨r, u, l, -, hq⟩ := calls_of_reaches h hp
  have : p.2.body = x.pb.body := by rw [hq]; rfl
  rw [this]
  unfold Setup.pb
  by_cases h0 : 0 ≤ x.maxBody
  · rw [parseRequestBody_eq _ _ _ h0]
    repeat' split
    all_goals simp
    rename_i hle
    omega
  · unfold parseRequestBody
    split
    · simp
    · split
      · simp
      · rw [readAllMax_eq _ _ _ _ _ _ (by rw [Body.fuel_eq]; omega)]
        have hz : x.maxBody.toNat = 0 := by omega
        rw [hz]
        repeat' split
        all_goals simp_all
        all_goals omega

/-- A request with a body, declared (`cl ≥ 0`) or chunked (`cl = -1`), to the demo gateway, whose
limit is 8. -/
def Demo.upload (cl : Int) (b : Body) : Setup Nat :=
  { Demo.setup with rq := { Demo.request with method := "POST".toList, contentLength := cl, body := b } }

/-- The bodies of the upstream requests of an execution. -/
def Demo.bodies (s : St) : List Bytes := s.calls.map fun p => p.2.body

/-- A chunked body of exactly the limit is forwarded. -/
example : Demo.check (Demo.upload (-1) { pieces := [[1, 2, 3], [4, 5, 6, 7, 8]] }) (Demo.success Demo.ok)
    (fun s => Demo.bodies s == [[1, 2, 3, 4, 5, 6, 7, 8]]) = true := by decide +kernel

/-! ## C29 -/

/-- C29 fails: a chunked body of nine bytes, over the limit of eight, is forwarded — without its body —
and the upstream's answer is delivered. -/
theorem C29_violated : ∃ (x : Setup Nat) (s : St), x.Reaches s ∧ x.rq.WF ∧ 0 ≤ x.maxBody ∧
    x.maxBody < x.rq.body.bytes.length ∧ s.pc = .done ∧ s.sent.map Sent.status = [200] ∧
    s.calls.map (fun p => p.2.body) = [[]] := by
  obtain ⟨s, h1, h2⟩ := Demo.of_check (x := Demo.upload (-1) { pieces := [[1, 2, 3, 4, 5, 6, 7, 8, 9]] })
    (as := Demo.success Demo.ok) (p := fun s => (Demo.seen s).finished &&
      s.sent.map Sent.status == [200] && s.calls.map (fun p => p.2.body) == [[]]) (by decide +kernel)
  simp only [Bool.and_eq_true, beq_iff_eq] at h2
  refine ⟨_, s, Demo.reaches h1, ⟨⟨by decide, by decide⟩, by decide, by decide, by decide⟩, by decide,
    by decide, Demo.done_of_seen h2.1.1, h2.1.2, h2.2⟩

/-- The message of the 413. -/
def tooLargeMsg (max : Int) : Str :=
  "http request entity too large, limit is ".toList ++ itoa max ++ " bytes".toList

/-- C29, the part that holds: a request that declares a length above (or at) the limit gets the 413 and
nothing is forwarded. Missing from the full statement: bodies without declared length, which are
not answered with 413 (`C29_violated`). -/
theorem C29_declared_partial (x : Setup K) (s : St) (h : x.Reaches s) (hl : -1 ≤ x.rq.contentLength)
    (hb : DeclaredTooLarge x.maxBody x.rq) : s.calls = [] ∧ s.pc ≠ .panicked ∧
    (s.pc = .done → s.sent = [jsonResponse x.respEnv 413 (tooLargeMsg x.maxBody)]) := by
  have := onlyAnswer h (decision_tooLarge ((tooLarge_iff hl).2 hb)) (by decide)
  exact ⟨this.calls, this.alive, this.done⟩

/-- C29 for a well-formed request whose body arrives completely with a declared length over the
limit. -/
theorem C29_complete_partial (x : Setup K) (s : St) (h : x.Reaches s) (hw : x.rq.WF)
    (h0 : 0 ≤ x.maxBody) (hcl : 0 ≤ x.rq.contentLength) (hover : x.maxBody < x.rq.body.bytes.length) :
    s.calls = [] ∧ s.pc ≠ .panicked ∧
    (s.pc = .done → s.sent = [jsonResponse x.respEnv 413 (tooLargeMsg x.maxBody)]) := by
  have := hw.atMost hcl
  exact C29_declared_partial x s h hw.length ⟨by omega, by omega⟩

/-- A body that is over the limit never reaches an upstream with any of its bytes. -/
theorem C29_nothing_forwarded_partial (x : Setup K) (s : St) (h : x.Reaches s) (h0 : 0 ≤ x.maxBody)
    (hover : x.maxBody < x.rq.body.bytes.length) (p : Nat × UpReq) (hp : p ∈ s.calls) :
    p.2.body = [] := by
  obtain ⟨r, u, l, -, hq⟩ := calls_of_reaches h hp
  have : p.2.body = x.pb.body := by rw [hq]; rfl
  rw [this]
  unfold Setup.pb
  rw [parseRequestBody_eq _ _ _ h0]
  repeat' split
  all_goals first | rfl | omega

example : (Demo.exec (Demo.upload 9 { pieces := [[1, 2, 3, 4, 5, 6, 7, 8, 9]] })
    [Demo.go, Demo.go]).map Demo.seen = some ⟨true, 0, 0, [(413, [], Demo.json 413
      "http request entity too large, limit is 8 bytes")]⟩ := by decide +kernel

/-! ## C30 -/

/-- C30: a body that arrives completely and is within the limit is what every attempt carries, however
it was cut into pieces and read. -/
theorem C30_forwarded_exactly (x : Setup K) (s : St) (h : x.Reaches s) (hw : x.rq.WF)
    (hend : x.rq.body.ending = .eof) (hle : (x.rq.body.bytes.length : Int) ≤ x.maxBody)
    (p : Nat × UpReq) (hp : p ∈ s.calls) : p.2.body = x.rq.body.bytes := by
  obtain ⟨r, u, l, hd, hq⟩ := calls_of_reaches h hp
  have : p.2.body = x.pb.body := by rw [hq]; rfl
  rw [this]
  have ht := (decision_forward hd).2.1
  unfold Setup.pb at ht ⊢
  rw [parseRequestBody_eq _ _ _ (by omega)] at ht ⊢
  split
  · rename_i hz
    have := hw.complete (by omega) hend
    have : x.rq.body.bytes.length = 0 := by omega
    exact (List.length_eq_zero_iff.1 this).symm
  · rename_i hz
    rw [if_neg hz] at ht
    split
    · rename_i hm
      rw [if_pos hm] at ht
      cases ht
    · rw [if_pos ⟨hle, hend⟩]

/-- C30, the condition under which the body size does not stop the request: any body strictly below
the limit. (A declared length equal to the limit is refused, see `C30_at_limit`.) -/
theorem C30_accepted (x : Setup K) (hw : x.rq.WF) (hend : x.rq.body.ending = .eof)
    (hlt : (x.rq.body.bytes.length : Int) < x.maxBody) :
    x.pb = { body := x.rq.body.bytes, tooLarge := false } := by
  have hcl : x.rq.contentLength < x.maxBody := by
    by_cases h : 0 ≤ x.rq.contentLength
    · rw [← hw.complete h hend]; exact hlt
    · omega
  unfold Setup.pb
  rw [parseRequestBody_eq _ _ _ (by omega)]
  split
  · rename_i hz
    have := hw.complete (by omega) hend
    have : x.rq.body.bytes.length = 0 := by omega
    rw [List.length_eq_zero_iff.1 this]
  · rw [if_neg (by omega), if_pos ⟨by omega, hend⟩]

/-- The boundary: a body of exactly the limit is refused with a declared length and forwarded
without one. -/
theorem C30_at_limit : (∃ s, (Demo.upload 8 { pieces := [[1, 2, 3, 4, 5, 6, 7, 8]] }).Reaches s ∧
      s.pc = .done ∧ s.calls = [] ∧ s.sent.map Sent.status = [413]) ∧
    ∃ s, (Demo.upload (-1) { pieces := [[1, 2, 3, 4, 5, 6, 7, 8]] }).Reaches s ∧ s.pc = .done ∧
      s.sent.map Sent.status = [200] := by
  constructor
  · obtain ⟨s, h1, h2⟩ := Demo.of_check (x := Demo.upload 8 { pieces := [[1, 2, 3, 4, 5, 6, 7, 8]] })
      (as := [Demo.go, Demo.go]) (p := fun s => (Demo.seen s).finished && s.calls.isEmpty &&
        s.sent.map Sent.status == [413]) (by decide +kernel)
    simp only [Bool.and_eq_true, beq_iff_eq, List.isEmpty_iff] at h2
    exact ⟨s, Demo.reaches h1, Demo.done_of_seen h2.1.1, h2.1.2, h2.2⟩
  · obtain ⟨s, h1, h2⟩ := Demo.of_check (x := Demo.upload (-1) { pieces := [[1, 2, 3, 4, 5, 6, 7, 8]] })
      (as := Demo.success Demo.ok) (p := fun s => (Demo.seen s).finished &&
        s.sent.map Sent.status == [200]) (by decide +kernel)
    simp only [Bool.and_eq_true, beq_iff_eq] at h2
    exact ⟨s, Demo.reaches h1, Demo.done_of_seen h2.1, h2.2⟩

/-! ## C31 -/

/-- C31 fails: the client disconnects after two of five declared bytes; the request is sent upstream
with an empty body. -/
theorem C31_violated : ∃ (x : Setup Nat) (s : St), x.Reaches s ∧ x.rq.WF ∧
    x.rq.body.ending = .failed ∧ s.calls.length = 1 ∧ s.sent.map Sent.status = [200] := by
  obtain ⟨s, h1, h2⟩ := Demo.of_check (x := Demo.upload 5 { pieces := [[1, 2]], ending := .failed })
    (as := Demo.success Demo.ok) (p := fun s => (Demo.seen s).calls == 1 &&
      s.sent.map Sent.status == [200]) (by decide +kernel)
  simp only [Bool.and_eq_true, beq_iff_eq] at h2
  exact ⟨_, s, Demo.reaches h1, ⟨⟨by decide, by decide⟩, by decide, by decide, by decide⟩, rfl, h2.1,
    h2.2⟩

/-- C31, the part that holds: a part of a body is never forwarded — what is forwarded is the
complete body or nothing. Missing from the full statement: that with nothing the request itself is
not forwarded either. -/
theorem C31_no_fragment_partial (x : Setup K) (s : St) (h : x.Reaches s) (h0 : 0 ≤ x.maxBody)
    (p : Nat × UpReq) (hp : p ∈ s.calls) :
    p.2.body = [] ∨ p.2.body = x.rq.body.bytes ∧ x.rq.body.ending = .eof := by
  obtain ⟨r, u, l, -, hq⟩ := calls_of_reaches h hp
  have : p.2.body = x.pb.body := by rw [hq]; rfl
  rw [this]
  unfold Setup.pb
  rw [parseRequestBody_eq _ _ _ h0]
  repeat' split
  · exact .inl rfl
  · exact .inl rfl
  · rename_i h; exact .inr ⟨rfl, h.2⟩
  · exact .inl rfl

/-- If reading fails, no byte is forwarded. -/
theorem C31_failed_read_partial (x : Setup K) (s : St) (h : x.Reaches s) (h0 : 0 ≤ x.maxBody)
    (hend : x.rq.body.ending = .failed) (p : Nat × UpReq) (hp : p ∈ s.calls) : p.2.body = [] := by
  rcases C31_no_fragment_partial x s h h0 p hp with h | ⟨-, h⟩
  · exact h
  · rw [hend] at h; cases h

/-! ## C32 -/

/-- The id of a request: the client's, or a generated one. -/
def requestId (id uuid : Str) (rq : Request) : Str :=
  match rq.header.values "X-Request-Id".toList with
  | (c :: v) :: _ => c :: v
  | _ => "XR-".toList ++ id ++ '-' :: uuid

theorem xRequestID_name : "X-Request-Id".toList = xRequestID := rfl

theorem xrid_eq (x : Setup K) : x.xrid = requestId x.sv.id x.uuid x.rq := by
  unfold Setup.xrid createXRequestID requestId Entries.get
  rw [canon_xRequestID, xRequestID_name]
  generalize x.rq.header.values xRequestID = vs
  match vs with
  | [] => simp
  | [] :: _ => simp
  | (c :: v) :: _ => simp

/-- C32: every upstream request of every attempt carries exactly the request's id, and every response
starts its X-Request-Id values with it. -/
theorem C32_request_id (x : Setup K) (s : St) (h : x.Reaches s) :
    (∀ p ∈ s.calls, p.2.header "X-Request-Id".toList = [requestId x.sv.id x.uuid x.rq]) ∧
    ∀ y ∈ s.sent, ∃ rest, y.header "X-Request-Id".toList = requestId x.sv.id x.uuid x.rq :: rest := by
  rw [← xrid_eq, xRequestID_name]
  constructor
  · intro p hp
    obtain ⟨r, u, l, -, hq⟩ := calls_of_reaches h hp
    rw [hq]
    simp only [scaffoldUpstreamRequest, Hdr.set, canon_xRequestID, if_true]
  · intro y hy
    obtain ⟨src, hs⟩ := headers_of_reaches h hy
    rw [hs _ (by decide)]
    have : writeStandardResponseHeaders x.respEnv Hdr.empty xRequestID = [x.xrid] := by
      simp only [writeStandardResponseHeaders, Hdr.set, canon_xRequestID, if_true]
      rfl
    rw [this]
    exact ⟨_, rfl⟩

/-- The id of the client is used on both attempts and in the response. -/
example : Demo.check { Demo.setup with
      rq := { Demo.request with header := [("X-Request-Id".toList, ["me".toList])] } }
    (Demo.failed 0 ++ Demo.attempt 1 Demo.ok)
    (fun s => s.calls.map (fun p => p.2.header "X-Request-Id".toList) == [["me".toList], ["me".toList]] &&
      s.sent.map (fun y => y.header "X-Request-Id".toList) == [["me".toList]]) = true := by
  decide +kernel

/-- Without one it is generated. -/
example : Demo.check Demo.setup (Demo.success Demo.ok)
    (fun s => s.calls.map (fun p => p.2.header "X-Request-Id".toList) == [["XR-abc-u".toList]] &&
      s.sent.map (fun y => y.header "X-Request-Id".toList) == [["XR-abc-u".toList]]) = true := by
  decide +kernel

/-! ## C33 -/

/-- C33: a method outside the list gets the 400 and nothing is forwarded. -/
theorem C33_illegal (x : Setup K) (s : St) (h : x.Reaches s) (hl : -1 ≤ x.rq.contentLength)
    (hm : toUpper x.rq.method ∉ proxiedMethods) (hb : ¬ DeclaredTooLarge x.maxBody x.rq) :
    s.calls = [] ∧ s.pc ≠ .panicked ∧
    (s.pc = .done → s.sent = [jsonResponse x.respEnv 400 "bad or malformed request".toList]) := by
  have := onlyAnswer h (decision_illegal hm (not_tooLarge hl hb)) (by decide)
  exact ⟨this.calls, this.alive, this.done⟩

/-- C33, converse: a 400 without an upstream request means that the method is outside the list. -/
theorem C33_own_400 (x : Setup K) (s : St) (h : x.Reaches s) (hl : -1 ≤ x.rq.contentLength)
    (hc : s.calls = []) (y : Sent) (hy : y ∈ s.sent) (h400 : y.status = 400) :
    toUpper x.rq.method ∉ proxiedMethods ∧ ¬ DeclaredTooLarge x.maxBody x.rq := by
  rcases own_status h hc hy with ⟨msg, hd⟩ | h | h
  · rw [h400] at hd
    rcases decision_respond hd with h | h | ⟨-, -, h | ⟨r, -, h | h⟩⟩
    · exact absurd h.1 (by decide)
    · refine ⟨h.2.2, ?_⟩
      rw [← tooLarge_iff hl, h.2.1]
      simp
    · exact absurd h.1 (by decide)
    · exact absurd h.1 (by decide)
    · exact absurd h.1 (by decide)
  · omega
  · omega

/-- C33: the upstream sees the upper-cased method, which is one of the list. -/
theorem C33_upstream_method (x : Setup K) (s : St) (h : x.Reaches s) (p : Nat × UpReq)
    (hp : p ∈ s.calls) : p.2.method = toUpper x.rq.method ∧ p.2.method ∈ proxiedMethods := by
  obtain ⟨r, u, l, hd, hq⟩ := calls_of_reaches h hp
  have : p.2.method = toUpper x.rq.method := by rw [hq]; rfl
  exact ⟨this, this ▸ (decision_forward hd).1⟩

/-- PATCH is refused; a lower case `get` is forwarded as GET. -/
example : (Demo.exec { Demo.setup with rq := { Demo.request with method := "PATCH".toList } }
    [Demo.go, Demo.go]).map Demo.seen = some ⟨true, 0, 0, [(400, [], Demo.json 400
      "bad or malformed request")]⟩ := by decide +kernel
example : Demo.check Demo.setup (Demo.success Demo.ok)
    (fun s => s.calls.map (fun p => p.2.method) == ["GET".toList]) = true := by decide +kernel

/-! ## C34 -/

theorem shouldProxyHeader_iff (k : Str) :
    shouldProxyHeader k = true ↔ toLower k ∉ droppedHeaders.map toLower := by
  have : shouldProxyHeader k = droppedHeaders.all fun i => !equalFold k i := rfl
  rw [this, List.all_eq_true]
  simp only [List.mem_map, not_exists, not_and, Bool.not_eq_true', equalFold, beq_eq_false_iff_ne]
  exact ⟨fun h i hi he => h i hi he.symm, fun h i hi he => h i hi he.symm⟩

/-- C34: an upstream request has, under every name, the client's values in their order, except for
the four names that are dropped (in any case) and the request id. -/
theorem C34_headers (x : Setup K) (s : St) (h : x.Reaches s) (hw : x.rq.header.WF) (p : Nat × UpReq)
    (hp : p ∈ s.calls) (k : Str) (hk : k ≠ "X-Request-Id".toList) :
    p.2.header k = if toLower k ∈ droppedHeaders.map toLower then [] else x.rq.header.values k := by
  obtain ⟨r, u, l, -, hq⟩ := calls_of_reaches h hp
  rw [hq]
  simp only [scaffoldUpstreamRequest, Hdr.set, canon_xRequestID]
  rw [xRequestID_name] at hk
  rw [if_neg hk, copyHeaders_wf hw]
  simp only [Hdr.empty, List.nil_append]
  by_cases hd : toLower k ∈ droppedHeaders.map toLower
  · rw [if_pos hd, if_neg (by rw [shouldProxyHeader_iff]; simpa using hd)]
  · rw [if_neg hd, if_pos ((shouldProxyHeader_iff k).2 hd)]

theorem upper_of_lower (c : Char) : c.toLower.toUpper = c.toUpper := by
  by_cases h : c.val ≥ 'A'.val ∧ c.val ≤ 'Z'.val
  · have hu : ∀ n : Fin 26, (Char.ofNat (n.val + 65)).toLower.toUpper
        = (Char.ofNat (n.val + 65)).toUpper := by decide
    have h1 : 65 ≤ c.toNat := h.1
    have h2 : c.toNat ≤ 90 := h.2
    have := hu ⟨c.toNat - 65, by omega⟩
    simp only at this
    rw [Nat.sub_add_cancel h1] at this
    simpa using this
  · have : c.toLower = c := by unfold Char.toLower; exact dif_neg h
    rw [this]

theorem lower_hyphen (c : Char) : (c.toLower == '-') = (c == '-') := by
  by_cases h : c.val ≥ 'A'.val ∧ c.val ≤ 'Z'.val
  · have hu : ∀ n : Fin 26, ((Char.ofNat (n.val + 65)).toLower == '-')
        = (Char.ofNat (n.val + 65) == '-') := by decide
    have h1 : 65 ≤ c.toNat := h.1
    have h2 : c.toNat ≤ 90 := h.2
    have := hu ⟨c.toNat - 65, by omega⟩
    simp only at this
    rw [Nat.sub_add_cancel h1] at this
    simpa using this
  · have : c.toLower = c := by unfold Char.toLower; exact dif_neg h
    rw [this]

theorem canonGo_lower (b : Bool) (k : Str) : canonGo b (toLower k) = canonGo b k := by
  induction k generalizing b with
  | nil => rfl
  | cons c cs ih =>
    have := ih (c == '-')
    unfold toLower at this ⊢
    rw [List.map_cons, canonGo, canonGo, lower_hyphen, this, upper_of_lower, toLower_toLower]

/-- C34: header names are the same in any case: a header is found in the upstream request under every
spelling of its name. -/
theorem C34_any_case (x : Setup K) (s : St) (_ : x.Reaches s) (p : Nat × UpReq) (_ : p ∈ s.calls)
    (k k' : Str) (hk : k.all isTokenChar = true) (hk' : k'.all isTokenChar = true)
    (h : toLower k = toLower k') : p.2.header.get k = p.2.header.get k' := by
  have : canon k = canon k' := by
    unfold canon
    rw [if_pos hk, if_pos hk', ← canonGo_lower true k, ← canonGo_lower true k', h]
  unfold Hdr.get
  rw [this]

theorem values_perm {a b : Entries} (hw : a.WF) (hp : a.Perm b) (k : Str) : a.values k = b.values k := by
  have hb : (b.map Prod.fst).Nodup := (hp.map _).nodup_iff.1 hw.nodup
  cases hl : a.lookup k with
  | none =>
    have : ∀ kv ∈ b, kv.1 ≠ k := by
      intro kv hkv he
      rw [List.lookup_eq_none_iff] at hl
      have := hl kv (hp.mem_iff.2 hkv)
      simp [he] at this
    rw [Entries.values_nil this]
    simp [Entries.values, hl]
  | some vs =>
    have hm : (k, vs) ∈ a := by
      rw [List.lookup_eq_some_iff] at hl
      obtain ⟨l1, l2, he, -⟩ := hl
      rw [he]; simp
    rw [Entries.lookup_of_mem hw.nodup hm, Entries.lookup_of_mem hb (hp.mem_iff.1 hm)]

/-- C34: the order in which the header map is iterated over does not matter. -/
theorem C34_order_irrelevant (xrid : Str) (pb : ParsedBody) (rq : Request) (hw : rq.header.WF)
    (e : Entries) (hp : rq.header.Perm e) (r : Route) (u : URL) :
    scaffoldUpstreamRequest xrid pb { rq with header := e } r u =
      scaffoldUpstreamRequest xrid pb rq r u := by
  have hw' : e.WF := ⟨(hp.map _).nodup_iff.1 hw.nodup, fun kv hkv => hw.canonical kv (hp.mem_iff.2 hkv)⟩
  have : copyHeaders e Hdr.empty = copyHeaders rq.header Hdr.empty := by
    funext k
    rw [copyHeaders_wf hw', copyHeaders_wf hw, values_perm hw hp]
  simp only [scaffoldUpstreamRequest, parseMethod, this]

example : Demo.check { Demo.setup with rq := { Demo.request with
      header := [("Cookie".toList, ["a".toList, "b".toList]), ("Date".toList, ["d".toList])] } }
    (Demo.success Demo.ok)
    (fun s => s.calls.map (fun p => (p.2.header "Cookie".toList, p.2.header "Date".toList)) ==
      [(["a".toList, "b".toList], [])]) = true := by decide +kernel

end J8a

import Verif.Props.Client
/-!
# C150: the credentials that an upstream sees are those that were verified
-/
namespace J8a
open Go

variable {K : Type}

/-- RFC 6750 §2.1 and RFC 7235 §2.1, read as leniently as upstreams do: what follows the scheme and a space is the token. -/
def Credentials (value scheme token : Str) : Prop := value = scheme ++ ' ' :: token ∧ ' ' ∉ scheme

/-- The client presents one token: one Authorization header of two fields. -/
def OneToken (rq : Request) (scheme token : Str) : Prop :=
  rq.header.values "Authorization".toList = [scheme ++ ' ' :: token] ∧ ' ' ∉ scheme ∧ ' ' ∉ token

/-- The values of Authorization in every request on the wire are those of the client, if it presents any. -/
theorem wire_authorization (x : Setup K) (s : St) (h : x.Reaches s) (hw : x.rq.header.WF) (T : NetLib)
    (net : WireReq → Option WireResp) (p : Nat × UpReq) (hp : p ∈ s.calls) (w : WireReq)
    (hs : w ∈ (httpDo T net p.2).1) (ho : x.rq.header.get "Authorization".toList ≠ []) :
    w.header "Authorization".toList = x.rq.header.values "Authorization".toList :=
  C75_wire_partial x s h hw T net p hp w hs _ (by decide) (by decide) (fun h => absurd h (by decide))
    (fun h => absurd h (by decide)) fun _ => .inl ho

theorem presents_some {rq : Request} {token : Str} (h : Presents rq token) : rq.header.get "Authorization".toList ≠ [] := by
  obtain ⟨scheme, rest, e, -⟩ := h
  rw [e]
  simp

/-- What the check accepted, for a request that reached an upstream over a protected route. -/
theorem checked_token (x : Setup K) (s : St) (h : x.Reaches s) (hc : s.calls ≠ []) (r : Route)
    (hr : dispatch x.E x.c.routes x.rq.requestURI = some r) (hj : r.jwt ≠ []) :
    ∃ j token c, x.c.jwt.lookup r.jwt = some j ∧ Presents x.rq token ∧ x.L.parse token = some c ∧
      dateClaimsOk x.L.skipsEpoch x.L.nbfStrict (skewOf j) x.now c = true ∧
      ((j.alg ∈ rsaAlgs ∨ j.alg ∈ ecAlgs ∨ j.alg ∈ hmacAlgs) → Verified x.L j token) := by
  obtain ⟨r', u, l, hd⟩ := forward_of_calls h hc
  obtain ⟨-, -, hr', ha, -⟩ := decision_forward hd
  rw [hr] at hr'
  cases hr'
  obtain ⟨j, hl, hv⟩ := authorise_jwt ha hj
  obtain ⟨token, c, hb, h1, h2, h3⟩ := validateToken_accept hv
  exact ⟨j, token, c, hl, (presents_iff _ _).2 hb, h1, h2, h3⟩

/-- C150, in part: if the client presents one token, then whatever reaches an upstream over a protected route carries
exactly the credentials of the client, and their token is the one that was verified, by a key of the route's jwt. -/
theorem C150_one_token_partial (x : Setup K) (s : St) (h : x.Reaches s) (hw : x.rq.header.WF) (T : NetLib)
    (net : WireReq → Option WireResp) (p : Nat × UpReq) (hp : p ∈ s.calls) (w : WireReq)
    (hs : w ∈ (httpDo T net p.2).1) (r : Route) (hr : dispatch x.E x.c.routes x.rq.requestURI = some r)
    (hj : r.jwt ≠ []) (scheme token : Str) (ho : OneToken x.rq scheme token) :
    ∃ j c, x.c.jwt.lookup r.jwt = some j ∧ w.header "Authorization".toList = [scheme ++ ' ' :: token] ∧
      ((j.alg ∈ rsaAlgs ∨ j.alg ∈ ecAlgs ∨ j.alg ∈ hmacAlgs) → Verified x.L j token) ∧
      x.L.parse token = some c ∧ dateClaimsOk x.L.skipsEpoch x.L.nbfStrict (skewOf j) x.now c = true ∧
      ∀ v ∈ w.header "Authorization".toList, ∀ sc t, Credentials v sc t → sc = scheme ∧ t = token := by
  obtain ⟨j, t, c, hl, hpr, h1, h2, h3⟩ := checked_token x s h (List.ne_nil_of_mem hp) r hr hj
  have hget : x.rq.header.get "Authorization".toList = scheme ++ ' ' :: token := by
    unfold Entries.get
    rw [show canon "Authorization".toList = "Authorization".toList by decide, ho.1]
    rfl
  have hpr' : Presents x.rq token := ⟨scheme, [], by rw [hget, List.append_nil], ho.2.1, ho.2.2, .inl rfl⟩
  have ht : t = token := by
    have e1 := (presents_iff _ _).1 hpr
    have e2 := (presents_iff _ _).1 hpr'
    rw [e1] at e2
    exact Option.some.inj e2
  subst ht
  have hwire := wire_authorization x s h hw T net p hp w hs (presents_some hpr)
  rw [ho.1] at hwire
  refine ⟨j, c, hl, hwire, h3, h1, h2, ?_⟩
  intro v hv sc t' hcr
  rw [hwire, List.mem_singleton] at hv
  subst hv
  have e : scheme ++ ' ' :: t = sc ++ ' ' :: t' := hcr.1
  have key : ∀ (a b c d : Str), ' ' ∉ a → ' ' ∉ c → a ++ ' ' :: b = c ++ ' ' :: d → c = a ∧ d = b := by
    intro a
    induction a with
    | nil =>
      intro b c d _ hc he
      cases c with
      | nil => exact ⟨rfl, (List.cons.inj he).2.symm⟩
      | cons y c => exact absurd (List.mem_cons.mpr (.inl (List.cons.inj he).1)) hc
    | cons y a ih =>
      intro b c d ha hc he
      cases c with
      | nil => exact absurd (List.mem_cons.mpr (.inl (List.cons.inj he).1.symm)) ha
      | cons z c =>
        obtain ⟨e1, e2⟩ := List.cons.inj he
        obtain ⟨h1, h2⟩ := ih b c d (fun h => ha (List.mem_cons_of_mem _ h)) (fun h => hc (List.mem_cons_of_mem _ h)) e2
        exact ⟨by rw [e1, h1], h2⟩
  exact key _ _ _ _ ho.2.1 hcr.2 e

/-- C150, in part: in general the second field of the first Authorization header is verified. Nothing is checked about
further fields and further headers. -/
theorem C150_first_partial (x : Setup K) (s : St) (h : x.Reaches s) (hw : x.rq.header.WF) (T : NetLib)
    (net : WireReq → Option WireResp) (p : Nat × UpReq) (hp : p ∈ s.calls) (w : WireReq)
    (hs : w ∈ (httpDo T net p.2).1) (r : Route) (hr : dispatch x.E x.c.routes x.rq.requestURI = some r)
    (hj : r.jwt ≠ []) :
    ∃ j scheme token rest more, x.c.jwt.lookup r.jwt = some j ∧
      w.header "Authorization".toList = (scheme ++ ' ' :: (token ++ rest)) :: more ∧ ' ' ∉ scheme ∧ ' ' ∉ token ∧
      (rest = [] ∨ rest.head? = some ' ') ∧
      ((j.alg ∈ rsaAlgs ∨ j.alg ∈ ecAlgs ∨ j.alg ∈ hmacAlgs) → Verified x.L j token) := by
  obtain ⟨j, t, c, hl, hpr, -, -, hv⟩ := checked_token x s h (List.ne_nil_of_mem hp) r hr hj
  have hwire := wire_authorization x s h hw T net p hp w hs (presents_some hpr)
  obtain ⟨scheme, rest, hget, h1, h2, h3⟩ := hpr
  unfold Entries.get at hget
  rw [show canon "Authorization".toList = "Authorization".toList by decide] at hget
  cases hvs : x.rq.header.values "Authorization".toList with
  | nil =>
    rw [hvs] at hget
    cases scheme <;> cases hget
  | cons v more =>
    rw [hvs] at hget hwire
    have hv' : v = scheme ++ ' ' :: (t ++ rest) := hget
    refine ⟨j, scheme, t, rest, more, hl, by rw [hwire, hv'], h1, h2, ?_, hv⟩
    rcases h3 with h3 | ⟨q, h3⟩
    · exact .inl h3
    · rw [h3]; exact .inr rfl

/-- The demo gateway with a protected route, for any Authorization headers. -/
def Demo.presenting (auths : List Str) : Setup Nat :=
  { Demo.guarded "" with rq := { Demo.request with header := [("Authorization".toList, auths)] } }

/-- One verified token reaches the upstream as it is. -/
example : OneToken (Demo.presenting ["Bearer v".toList]).rq "Bearer".toList "v".toList ∧
    (Demo.exec (Demo.presenting ["Bearer v".toList]) (Demo.success Demo.ok)).map
      (fun s => s.calls.map fun p => p.2.header "Authorization".toList) = some [["Bearer v".toList]] := by
  constructor
  · exact ⟨by decide, by decide, by decide⟩
  · decide +kernel

/-- The protected route and the jwt configuration of the demo gateway. -/
def Demo.guardedRoute : Route := { Demo.route with jwt := "j".toList }
def Demo.guardedJwt : Jwt Nat :=
  { name := "j".toList, alg := "HS256".toList, acceptableSkewSeconds := "0".toList, secret := [⟨"k".toList, 1⟩] }

/-- C150 as stated fails: of two tokens the first is verified and both are handed on, and a text that was not verified may
follow behind the verified one. -/
theorem C150_violated : ∀ auths ∈ [["Bearer v".toList, "Bearer w".toList], ["Bearer v w".toList]],
    ∃ (s : St) (p : Nat × UpReq) (v token : Str), (Demo.presenting auths).Reaches s ∧ p ∈ s.calls ∧
      dispatch (Demo.presenting auths).E (Demo.presenting auths).c.routes (Demo.presenting auths).rq.requestURI =
        some Demo.guardedRoute ∧
      (Demo.presenting auths).c.jwt.lookup Demo.guardedRoute.jwt = some Demo.guardedJwt ∧
      Demo.guardedJwt.alg ∈ hmacAlgs ∧ Credentials v "Bearer".toList token ∧
      ¬ Verified (Demo.presenting auths).L Demo.guardedJwt token ∧
      ∀ T net, ∀ w ∈ (httpDo T net p.2).1, v ∈ w.header "Authorization".toList := by
  intro auths ha
  have main : ∀ v token, Demo.check (Demo.presenting auths) (Demo.success Demo.ok)
        (fun s => s.calls.length == 1) = true → (Demo.presenting auths).rq.header.WF →
      v ∈ (Demo.presenting auths).rq.header.values "Authorization".toList → Credentials v "Bearer".toList token →
      token ≠ "v".toList →
      ∃ (s : St) (p : Nat × UpReq) (v token : Str), (Demo.presenting auths).Reaches s ∧ p ∈ s.calls ∧
        dispatch (Demo.presenting auths).E (Demo.presenting auths).c.routes (Demo.presenting auths).rq.requestURI =
          some Demo.guardedRoute ∧
        (Demo.presenting auths).c.jwt.lookup Demo.guardedRoute.jwt = some Demo.guardedJwt ∧
        Demo.guardedJwt.alg ∈ hmacAlgs ∧ Credentials v "Bearer".toList token ∧
        ¬ Verified (Demo.presenting auths).L Demo.guardedJwt token ∧
        ∀ T net, ∀ w ∈ (httpDo T net p.2).1, v ∈ w.header "Authorization".toList := by
    intro v token hck hw hv hcr hne
    obtain ⟨s, h1, h2⟩ := Demo.of_check hck
    rw [beq_iff_eq] at h2
    cases hc : s.calls with
    | nil => rw [hc] at h2; cases h2
    | cons p ps =>
      have hp : p ∈ s.calls := by rw [hc]; exact .head _
      have hr : dispatch (Demo.guarded "").E (Demo.guarded "").c.routes Demo.request.requestURI =
          some Demo.guardedRoute := by decide +kernel
      refine ⟨s, p, v, token, Demo.reaches h1, hp, hr, rfl, by decide, hcr, ?_, ?_⟩
      · have no : ∀ alg k, ((Demo.presenting auths).L.parseVerify alg k token).isSome = false := by
          intro alg k
          show (if token = "v".toList ∧ k = 1 then some ({} : Claims) else none).isSome = false
          rw [if_neg (fun h => hne h.1)]
          rfl
        rintro (⟨-, kp, -, h⟩ | ⟨-, kp, -, h⟩ | ⟨-, kp, -, h⟩) <;> rw [no] at h <;> cases h
      · intro T net w hwm
        obtain ⟨j, t, c, -, hpr, -⟩ := checked_token _ s (Demo.reaches h1) (List.ne_nil_of_mem hp) Demo.guardedRoute hr
          (by decide)
        rw [wire_authorization _ s (Demo.reaches h1) hw T net p hp w hwm (presents_some hpr)]
        exact hv
  simp only [List.mem_cons, List.not_mem_nil, or_false] at ha
  rcases ha with rfl | rfl
  · exact main "Bearer w".toList "w".toList (by decide +kernel) ⟨by decide, by decide⟩ (by decide)
      ⟨by decide, by decide⟩ (by decide)
  · exact main "Bearer v w".toList "v w".toList (by decide +kernel) ⟨by decide, by decide⟩ (by decide)
      ⟨by decide, by decide⟩ (by decide)

end J8a

import Verif.Lemmas.Config
import Verif.Lemmas.Char
/-!
# C10–C13: boot time configuration

Hypotheses `boot … = some c'` are met by `exBoot` below.
-/
namespace J8a
open Go
variable {J : Type}

theorem toUpper_idem (s : Str) : toUpper (toUpper s) = toUpper s := by
  simp [toUpper, toUpper_toUpper]

/-! ## C10 connection defaults -/

theorem Downstream.ite_mk {p : Prop} [Decidable p] (a1 a2 a3 a4 : Int) (a5 : Str) (a6 : Int)
    (a7 a8 : Str) (b1 b2 b3 b4 : Int) (b5 : Str) (b6 : Int) (b7 b8 : Str) :
    (if p then (⟨a1, a2, a3, a4, a5, a6, a7, a8⟩ : Downstream) else ⟨b1, b2, b3, b4, b5, b6, b7, b8⟩)
      = ⟨if p then a1 else b1, if p then a2 else b2, if p then a3 else b3, if p then a4 else b4,
         if p then a5 else b5, if p then a6 else b6, if p then a7 else b7, if p then a8 else b8⟩ := by
  split <;> rfl

/-- C10, downstream: each parameter that was zero gets its default, each other keeps its value
(the mode in upper case); the port default depends on whether the mode is some spelling of TLS. -/
theorem C10_downstream_defaults (d : Downstream) :
    let d' := d.setDefaults
    d'.readTimeoutSeconds = (if d.readTimeoutSeconds = 0 then 120 else d.readTimeoutSeconds) ∧
    d'.roundTripTimeoutSeconds
      = (if d.roundTripTimeoutSeconds = 0 then 240 else d.roundTripTimeoutSeconds) ∧
    d'.idleTimeoutSeconds = (if d.idleTimeoutSeconds = 0 then 120 else d.idleTimeoutSeconds) ∧
    d'.maxBodyBytes = (if d.maxBodyBytes = 0 then 2097152 else d.maxBodyBytes) ∧
    d'.mode = (if d.mode = [] then "HTTP".toList else d.mode.map Char.toUpper) ∧
    d'.port = (if d.port = 0 then
        (if d.mode.map Char.toUpper = "TLS".toList then 443 else 8080) else d.port) ∧
    d'.cert = d.cert ∧ d'.key = d.key := by
  obtain ⟨rt, rtt, it, mb, mode, port, cert, key⟩ := d
  simp only [Downstream.setDefaults, Downstream.ite_mk, ite_self, Downstream.isTLSMode, toUpper,
    List.length_eq_zero_iff, beq_iff_eq, true_and, and_true]
  by_cases h5 : port = 0
  · simp only [h5, if_true]
    by_cases hm : mode = []
    · subst hm; simp
    · have e : (Char.toUpper ∘ Char.toUpper) = Char.toUpper := by
        funext c; exact toUpper_toUpper c
      simp [hm, e]
  · simp [h5]

theorem Upstream.ite_mk {p : Prop} [Decidable p] (a1 a2 a3 a4 a5 : Int) (a6 : Bool)
    (b1 b2 b3 b4 b5 : Int) (b6 : Bool) :
    (if p then (⟨a1, a2, a3, a4, a5, a6⟩ : Upstream) else ⟨b1, b2, b3, b4, b5, b6⟩)
      = ⟨if p then a1 else b1, if p then a2 else b2, if p then a3 else b3, if p then a4 else b4,
         if p then a5 else b5, if p then a6 else b6⟩ := by
  split <;> rfl

/-- C10, upstream. -/
theorem C10_upstream_defaults (u : Upstream) :
    let u' := u.setDefaults
    u'.socketTimeoutSeconds = (if u.socketTimeoutSeconds = 0 then 3 else u.socketTimeoutSeconds) ∧
    u'.readTimeoutSeconds = (if u.readTimeoutSeconds = 0 then 120 else u.readTimeoutSeconds) ∧
    u'.idleTimeoutSeconds = (if u.idleTimeoutSeconds = 0 then 120 else u.idleTimeoutSeconds) ∧
    u'.poolSize = (if u.poolSize = 0 then 32768 else u.poolSize) ∧
    u'.maxAttempts = (if u.maxAttempts = 0 then 1 else u.maxAttempts) ∧
    u'.tlsInsecureSkipVerify = u.tlsInsecureSkipVerify := by
  obtain ⟨ps, it, st, rt, ma, sk⟩ := u
  simp only [Upstream.setDefaults, Upstream.ite_mk, ite_self, and_true]

/-- C10: applying the defaults a second time changes nothing. -/
theorem C10_defaults_idempotent (d : Downstream) (u : Upstream) :
    d.setDefaults.setDefaults = d.setDefaults ∧ u.setDefaults.setDefaults = u.setDefaults := by
  constructor
  · obtain ⟨h1, h2, h3, h4, h5, h6, h7, h8⟩ := C10_downstream_defaults d
    obtain ⟨g1, g2, g3, g4, g5, g6, g7, g8⟩ := C10_downstream_defaults d.setDefaults
    apply Downstream.ext
    · rw [g1, h1]; by_cases h : d.readTimeoutSeconds = 0 <;> simp [h]
    · rw [g2, h2]; by_cases h : d.roundTripTimeoutSeconds = 0 <;> simp [h]
    · rw [g3, h3]; by_cases h : d.idleTimeoutSeconds = 0 <;> simp [h]
    · rw [g4, h4]; by_cases h : d.maxBodyBytes = 0 <;> simp [h]
    · rw [g5, h5]
      by_cases h : d.mode = []
      · simp [h]
      · simp [h, toUpper_toUpper]
    · rw [g6, h6]
      by_cases h : d.port = 0
      · simp only [h, if_true]; split <;> simp
      · simp [h]
    · rw [g7]
    · rw [g8]
  · obtain ⟨h1, h2, h3, h4, h5, h6⟩ := C10_upstream_defaults u
    obtain ⟨g1, g2, g3, g4, g5, g6⟩ := C10_upstream_defaults u.setDefaults
    apply Upstream.ext
    · rw [g4, h4]; by_cases h : u.poolSize = 0 <;> simp [h]
    · rw [g3, h3]; by_cases h : u.idleTimeoutSeconds = 0 <;> simp [h]
    · rw [g1, h1]; by_cases h : u.socketTimeoutSeconds = 0 <;> simp [h]
    · rw [g2, h2]; by_cases h : u.readTimeoutSeconds = 0 <;> simp [h]
    · rw [g5, h5]; by_cases h : u.maxAttempts = 0 <;> simp [h]
    · rw [g6]

/-- C10: these are the values a booted gateway runs with. -/
theorem C10_boot_connection {E : Regexp} {validate : Str → J → Option J} {srt} {c c' : Config J}
    (h : boot E validate srt c = some c') :
    c'.connection.downstream = c.connection.downstream.setDefaults ∧
    c'.connection.upstream = c.connection.upstream.setDefaults := by
  obtain ⟨-, -, -, -, -, -, -, hc⟩ := boot_elim h
  rw [hc]; exact ⟨rfl, rfl⟩

/-! ## C11 schemes -/

/-- C11: the normal form of one scheme, by what the string contains. -/
theorem C11_scheme (s : Str) :
    (s = [] → normScheme s = "http".toList) ∧
    ((∃ a b, s = a ++ "https".toList ++ b) → normScheme s = "https".toList) ∧
    (s ≠ [] → (¬ ∃ a b, s = a ++ "https".toList ++ b) → (∃ a b, s = a ++ "http".toList ++ b) →
      normScheme s = "http".toList) ∧
    (s ≠ [] → (¬ ∃ a b, s = a ++ "http".toList ++ b) → normScheme s = s) := by
  have hs : ("https".toList : Str) = "http".toList ++ ['s'] := by decide
  refine ⟨?_, ?_, ?_, ?_⟩
  · rintro rfl; rfl
  · intro h
    have hne : s.length ≠ 0 := by
      obtain ⟨a, b, rfl⟩ := h; simp
    unfold normScheme
    rw [if_neg hne, if_pos (contains_iff.mpr h)]
  · intro hne h1 h2
    unfold normScheme
    rw [if_neg (by simpa using hne), if_neg (fun h => h1 (contains_iff.mp h)),
      if_pos (contains_iff.mpr h2)]
  · intro hne h1
    unfold normScheme
    rw [if_neg (by simpa using hne), if_neg, if_neg (fun h => h1 (contains_iff.mp h))]
    intro h
    obtain ⟨a, b, hab⟩ := contains_iff.mp h
    exact h1 ⟨a, 's' :: b, by rw [hab, hs]; simp⟩

/-- C11: normalising twice is normalising once. -/
theorem C11_idempotent (s : Str) : normScheme (normScheme s) = normScheme s := by
  have h1 : normScheme "http".toList = "http".toList := by decide
  have h2 : normScheme "https".toList = "https".toList := by decide
  by_cases h0 : s.length = 0
  · have : normScheme s = "http".toList := by unfold normScheme; rw [if_pos h0]
    rw [this, h1]
  · by_cases ha : contains s "https".toList = true
    · have : normScheme s = "https".toList := by
        unfold normScheme; rw [if_neg h0, if_pos ha]
      rw [this, h2]
    · by_cases hb : contains s "http".toList = true
      · have : normScheme s = "http".toList := by
          unfold normScheme; rw [if_neg h0, if_neg ha, if_pos hb]
        rw [this, h1]
      · have : normScheme s = s := by
          unfold normScheme; rw [if_neg h0, if_neg ha, if_neg hb]
        rw [this, this]

/-- C11: after boot each resource has the same mappings in the same order; only scheme and name
differ, the scheme being the normal form of the configured one and the name the map key. -/
theorem C11_boot_resources {E : Regexp} {validate : Str → J → Option J} {srt} {c c' : Config J}
    (h : boot E validate srt c = some c') (n : Str) :
    (c'.resources n = none ↔ c.resources n = none) ∧
    ∀ ms, c.resources n = some ms → ∃ ms', c'.resources n = some ms' ∧ ms'.length = ms.length ∧
      ∀ i (hi : i < ms.length) (hi' : i < ms'.length),
        ms'[i].url.scheme = normScheme ms[i].url.scheme ∧ ms'[i].url.host = ms[i].url.host ∧
        ms'[i].url.port = ms[i].url.port ∧ ms'[i].labels = ms[i].labels ∧ ms'[i].name = n := by
  obtain ⟨-, -, -, -, -, -, hr, -⟩ := boot_elim h
  rw [hr]
  constructor
  · simp [Config.reApplyResourceNames, Config.reApplyResourceSchemes]
  · intro ms hms
    refine ⟨ms.map (fun m => ⟨n, m.labels, ⟨normScheme m.url.scheme, m.url.host, m.url.port⟩⟩),
      ?_, by simp, ?_⟩
    · simp only [Config.reApplyResourceNames, Config.reApplyResourceSchemes, hms, Option.map_some,
        List.map_map]
      rfl
    intro i hi hi'
    simp

/-! ## C12 default policy -/

/-- C12: after boot `default` resolves to label `default` whatever the dice, through the real
IEEE sum and any outcome of the sort; all other policies are as configured. -/
theorem C12_default_policy {E : Regexp} {validate : Str → J → Option J} {srt} {c c' : Config J}
    (h : boot E validate srt c = some c') :
    (∃ p, c'.policies "default".toList = some p ∧
      ∀ dice, IsDice dice → ∀ p' label, Policy.ResolveLabel p dice p' label →
        label = "default".toList) ∧
    ∀ n, n ≠ "default".toList → c'.policies n = c.policies n := by
  obtain ⟨-, -, -, -, -, hp, -, -⟩ := boot_elim h
  constructor
  · refine ⟨[⟨"default".toList, F64.one⟩], by rw [hp]; simp [Config.addDefaultPolicy], ?_⟩
    intro dice hd p' label hr
    have hp' : p' = [⟨"default".toList, F64.one⟩] := List.perm_singleton.mp hr.sorted.perm
    rw [hr.result, hp']
    have hsum : Policy.cumulative F64.add [⟨"default".toList, F64.one⟩] = [F64.one] := by
      decide +kernel
    have hi : Policy.pickIndex F64.add [⟨"default".toList, F64.one⟩] dice = some 0 := by
      unfold Policy.pickIndex
      rw [hsum]
      have := hd.2.1
      simp [List.findIdx?_cons, this]
    unfold Policy.pickLabel
    rw [hi]; rfl
  · intro n hn
    rw [hp]; simp only [Config.addDefaultPolicy, if_neg hn]

/-! ## C13 what a successful boot guarantees -/

/-- C13: a booted configuration has only resolvable jwt references, slash-rooted transforms,
compilable patterns, slash-rooted paths, and routes in descending path length; and it has the
configured routes, none lost and none added. -/
theorem C13_boot_sound {E : Regexp} {validate : Str → J → Option J} {srt} (hs : IsRouteSort srt)
    {c c' : Config J} (h : boot E validate srt c = some c') :
    (∀ r ∈ c'.routes, r.jwt ≠ [] → ∃ j, (r.jwt, j) ∈ c'.jwt) ∧
    (∀ r ∈ c'.routes, r.transform ≠ [] → ∃ t, r.transform = '/' :: t) ∧
    (∀ r ∈ c'.routes, ∃ src, r.pathRegex = some src ∧ E.compiles src = true) ∧
    (∀ r ∈ c'.routes, ∃ t, r.path = '/' :: t) ∧
    c'.routes.Pairwise (fun a b => b.path.length ≤ a.path.length) ∧
    c'.routes.length = c.routes.length ∧
    (∀ n j', (n, j') ∈ c'.jwt → ∃ j, (n, j) ∈ c.jwt ∧ validate n j = some j') := by
  obtain ⟨⟨js, hjs, hjw⟩, hcomp, htr, hj, hr, -, -, -⟩ := boot_elim h
  obtain ⟨hperm, hsorted⟩ := hs (c.routes.map fun r =>
        { r with pathRegex := some ('^' :: r.path), path := addSlash r.path })
  rw [← hr] at hperm hsorted
  have hmem : ∀ r ∈ c'.routes, ∃ r0 ∈ c.routes,
      r = { r0 with pathRegex := some ('^' :: r0.path), path := addSlash r0.path } := by
    intro r hr'
    have := hperm.mem_iff.mp hr'
    rw [List.mem_map] at this
    obtain ⟨r0, h0, h1⟩ := this
    exact ⟨r0, h0, h1.symm⟩
  refine ⟨?_, ?_, ?_, ?_, ?_, ?_, ?_⟩
  · intro r hr' hne
    obtain ⟨r0, h0, rfl⟩ := hmem r hr'
    have := hj r0 h0 (by simp only [Route.hasJwt]; simpa [List.length_pos_iff] using hne)
    rw [Option.isSome_iff_exists] at this
    obtain ⟨j, hj⟩ := this
    refine ⟨j, ?_⟩
    rw [List.lookup_eq_some_iff] at hj
    obtain ⟨l1, l2, he, -⟩ := hj
    rw [he]; simp
  · intro r hr' hne
    obtain ⟨r0, h0, rfl⟩ := hmem r hr'
    exact htr r0 h0 hne
  · intro r hr'
    obtain ⟨r0, h0, rfl⟩ := hmem r hr'
    exact ⟨_, rfl, hcomp r0 h0⟩
  · intro r hr'
    obtain ⟨r0, h0, rfl⟩ := hmem r hr'
    exact addSlash_starts r0.path
  · refine hsorted.imp ?_
    intro a b hab
    simpa [routesLess] using hab
  · rw [hperm.length_eq, List.length_map]
  · intro n j' hm
    rw [hjw] at hm
    exact (mapM_validate _ _ hjs).1 n j' hm

/-- C13, the other direction: boot is refused whenever one of the checks fails. -/
theorem C13_boot_refused (E : Regexp) (validate : Str → J → Option J) (srt) (c : Config J)
    (r : Route) (hr : r ∈ c.routes)
    (hbad : E.compiles ('^' :: r.path) = false ∨
      (r.transform ≠ [] ∧ ∀ t, r.transform ≠ '/' :: t) ∨
      (r.jwt ≠ [] ∧ ∀ j, (r.jwt, j) ∉ c.jwt) ∨
      (∃ n j, (n, j) ∈ c.jwt ∧ validate n j = none)) :
    boot E validate srt c = none := by
  cases hb : boot E validate srt c with
  | none => rfl
  | some c' =>
    exfalso
    obtain ⟨⟨js, hjs, hjw⟩, hcomp, htr, hj, hr', -, -, -⟩ := boot_elim hb
    obtain ⟨k1, k2⟩ := mapM_validate _ _ hjs
    rcases hbad with h | ⟨h1, h2⟩ | ⟨h1, h2⟩ | ⟨n, j, h1, h2⟩
    · rw [hcomp r hr] at h; simp at h
    · obtain ⟨t, ht⟩ := htr r hr h1; exact h2 t ht
    · have := hj r hr (by simp only [Route.hasJwt]; simpa [List.length_pos_iff] using h1)
      rw [Option.isSome_iff_exists] at this
      obtain ⟨j, hj⟩ := this
      rw [List.lookup_eq_some_iff] at hj
      obtain ⟨l1, l2, he, -⟩ := hj
      obtain ⟨j0, h0, -⟩ := k1 r.jwt j (by rw [← hjw, he]; simp)
      exact h2 j0 h0
    · exact k2 n j h1 h2

/-! ## Satisfiability -/

/-- A configuration with two routes, a jwt, a policy and a resource. -/
def exConfig : Config Unit where
  policies := fun n => if n = "ab".toList then
    some [⟨"green".toList, F64.one / 4⟩, ⟨"blue".toList, 3 * (F64.one / 4)⟩] else none
  routes := [{ path := "/a".toList, resource := "r".toList, policy := "ab".toList },
    { path := "/a/b".toList, resource := "r".toList, jwt := "j".toList, transform := "/z".toList }]
  jwt := [("j".toList, ())]
  resources := fun n => if n = "r".toList then
    some [⟨[], ["green".toList], ⟨"https:".toList, "host".toList, 8080⟩⟩] else none

/-- A concrete sort of routes: insertion. -/
def exInsert (r : Route) : List Route → List Route
  | [] => [r]
  | x :: xs => if routesLess x r then x :: exInsert r xs else r :: x :: xs

def exSort : List Route → List Route
  | [] => []
  | r :: rs => exInsert r (exSort rs)

theorem exInsert_perm (r : Route) (l : List Route) : (exInsert r l).Perm (r :: l) := by
  induction l with
  | nil => exact List.Perm.refl _
  | cons x xs ih =>
    unfold exInsert
    split
    · exact (List.Perm.cons x ih).trans (List.Perm.swap r x xs)
    · exact List.Perm.refl _

theorem exInsert_sorted (r : Route) (l : List Route)
    (h : l.Pairwise (fun a b => routesLess b a = false)) :
    (exInsert r l).Pairwise (fun a b => routesLess b a = false) := by
  induction l with
  | nil => simp [exInsert]
  | cons x xs ih =>
    rw [List.pairwise_cons] at h
    unfold exInsert
    split
    case isTrue hx =>
      rw [List.pairwise_cons]
      refine ⟨?_, ih h.2⟩
      intro b hb
      rcases List.mem_cons.mp ((exInsert_perm r xs).mem_iff.mp hb) with rfl | hb
      · simp [routesLess] at hx ⊢; omega
      · exact h.1 b hb
    case isFalse hx =>
      rw [List.pairwise_cons, List.pairwise_cons]
      refine ⟨?_, h⟩
      intro b hb
      rcases List.mem_cons.mp hb with rfl | hb
      · simpa using hx
      · have := h.1 b hb
        simp [routesLess] at hx this ⊢; omega

theorem exSort_isSort : IsRouteSort exSort := by
  intro l
  induction l with
  | nil => exact ⟨List.Perm.refl _, List.Pairwise.nil⟩
  | cons r rs ih =>
    exact ⟨(exInsert_perm r _).trans (List.Perm.cons r ih.1), exInsert_sorted r _ ih.2⟩

/-- The boot hypotheses of C10–C13 are satisfiable by a configuration where every check bites. -/
example : (boot literalEngine (fun _ _ => some ()) exSort exConfig).isSome = true := by
  rfl

/-- …and the refusals of C13 by one with a dangling jwt reference. -/
example : ∃ r ∈ ({ exConfig with jwt := [] } : Config Unit).routes,
    r.jwt ≠ [] ∧ ∀ j, (r.jwt, j) ∉ ({ exConfig with jwt := [] } : Config Unit).jwt :=
  ⟨_, by simp [exConfig]; exact Or.inr rfl, by simp, by simp⟩

/-- A sort law hypothesis is satisfiable. -/
example : ∃ srt, IsRouteSort srt := ⟨exSort, exSort_isSort⟩

/-- The dice of C12 exist. -/
example : IsDice 0 ∧ IsDice (F64.one / 2) := by
  unfold IsDice; decide +kernel

end J8a

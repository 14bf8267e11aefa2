import Verif.Model.Target
import Verif.Lemmas.Url
import Verif.Props.Route
import Verif.Props.Requests
/-!
# C91 to C95: request targets
-/
namespace J8a
open Go Uri

variable {K : Type}

/-- A route as it is after boot, when its path is written with a leading slash, without regular expression
syntax, and in the syntax of paths. -/
structure PlainRoute (r : Route) : Prop where
  regex : r.pathRegex = some ('^' :: r.path)
  slash : ∃ t, r.path = '/' :: t
  literal : Literal r.path
  text : pathText r.path = true

/-- Boot makes plain routes of routes with plain paths. -/
theorem boot_plain {J : Type} {E : Regexp} {validate : Str → J → Option J} {srt} (hs : IsRouteSort srt)
    {c c' : Config J} (h : boot E validate srt c = some c')
    (hp : ∀ r ∈ c.routes, (∃ t, r.path = '/' :: t) ∧ Literal r.path ∧ pathText r.path = true) :
    ∀ r ∈ c'.routes, PlainRoute r := by
  obtain ⟨-, -, -, -, hr, -, -, -⟩ := boot_elim h
  intro r hm
  rw [hr, (hs _).1.mem_iff, List.mem_map] at hm
  obtain ⟨r0, hr0, rfl⟩ := hm
  obtain ⟨⟨t, ht⟩, hl, htx⟩ := hp r0 hr0
  have hsl : addSlash r0.path = r0.path := by rw [ht, addSlash_of_slash]
  refine ⟨?_, ⟨t, hsl.trans ht⟩, ?_, ?_⟩
  · show some ('^' :: r0.path) = some ('^' :: addSlash r0.path)
    rw [hsl]
  · show Literal (addSlash r0.path)
    rwa [hsl]
  · show pathText (addSlash r0.path) = true
    rwa [hsl]

/-- The upstreams have a scheme that is supported and a host that is a host. -/
def PlainHosts (c : Config (Jwt K)) : Prop :=
  ∀ name ms, c.resources name = some ms → ∀ m ∈ ms,
    (m.url.scheme = "http".toList ∨ m.url.scheme = "https".toList) ∧ HostName m.url.host

theorem plainRoute_match {E : Regexp} (hE : E.LiteralLaw) {r : Route} (hr : PlainRoute r) (t : Str) :
    r.matchURI E t = true ↔ ∃ rest, t = r.path ++ rest := by
  unfold Route.matchURI
  rw [hr.regex]
  exact (hE r.path hr.literal).2 t

/-- What is known about a request that is sent on. -/
theorem sent_on {x : Setup K} {s : St} (h : x.Reaches s) (hE : x.E.LiteralLaw)
    (hr : ∀ r ∈ x.c.routes, PlainRoute r) (hh : PlainHosts x.c) {p : Nat × UpReq} (hp : p ∈ s.calls) :
    ∃ r ∈ x.c.routes, ∃ rest, x.rq.requestURI = r.path ++ rest ∧ ∃ u : URL,
      (∃ ms, x.c.resources r.resource = some ms ∧ ∃ m ∈ ms, m.url = u) ∧
      (u.scheme = "http".toList ∨ u.scheme = "https".toList) ∧ HostName u.host ∧
      p.2.method = toUpper x.rq.method ∧ p.2.uri = resolveUpstreamURI u r x.rq.uri := by
  obtain ⟨r, u, l, hd, hq⟩ := calls_of_reaches h hp
  obtain ⟨-, -, hdi, -, hm⟩ := decision_forward hd
  have hmem : r ∈ x.c.routes := List.mem_of_find?_eq_some hdi
  have hmat : r.matchURI x.E x.rq.requestURI = true := by
    have := List.find?_some hdi
    exact this
  obtain ⟨rest, hrest⟩ := (plainRoute_match hE (hr r hmem) _).mp hmat
  obtain ⟨ms, hms, m, hmm, hmu, -⟩ := C07_mapped_sound _ _ _ _ _ _ hm
  obtain ⟨h1, h2⟩ := hh _ _ hms m hmm
  rw [hmu] at h1 h2
  exact ⟨r, hmem, rest, hrest, u, ⟨ms, hms, m, hmm, hmu⟩, h1, h2, by rw [hq]; rfl, by rw [hq]; rfl⟩

theorem requestUrl_slash {m t : Str} (h : t.head? = some '/') : requestUrl m t = parseRequestURI t := by
  unfold requestUrl
  rw [if_neg (by simp [h])]

theorem originForm_head {t : Str} (h : OriginForm t) : t.head? = some '/' := by
  obtain ⟨p, -, rfl | ⟨q, -, rfl⟩⟩ := h <;> rfl

/-- The gateway's own idea of the URI is the target as sent. -/
theorem origin_uri {rq : Request} {u : Url} (hf : rq.From u) (ho : OriginForm rq.requestURI) :
    rq.uri = rq.requestURI := by
  have h1 := hf.url
  rw [requestUrl_slash (originForm_head ho)] at h1
  obtain ⟨v, hv, ht⟩ := origin_roundtrip ho
  rw [hv] at h1
  obtain rfl := Option.some.inj h1
  rw [hf.uri, ht]

/-! ## C91: the target reaches the upstream -/

/-- What arrives at an upstream, from what the gateway asks its HTTP client for. -/
theorem wire_of {rq : Request} {u0 : Url} (hf : rq.From u0) (ho : OriginForm rq.requestURI) {r : Route}
    (htext : pathText r.path = true) {rest : Str} (hrest : rq.requestURI = r.path ++ rest) {u : URL}
    (hsch : u.scheme = "http".toList ∨ u.scheme = "https".toList) (hhost : HostName u.host) {w : UpReq}
    (hmeth : w.method = toUpper rq.method) (huri : w.uri = resolveUpstreamURI u r rq.uri) :
    (r.transform = [] → wireTarget w = some rq.requestURI) ∧
    (∀ t, r.transform = '/' :: t → t ≠ [] → pathText r.transform = true →
      wireTarget w = some (r.transform ++ rest)) ∧
    (r.transform = ['/'] → rest = [] ∨ rest.head? = some '/' ∨ rest.head? = some '?' →
      toUpper rq.method ≠ "CONNECT".toList →
      wireTarget w = some (if rest.head? = some '/' then rest else '/' :: rest)) ∧
    (r.transform = [] ∨ (pathText r.transform = true ∧ ∃ t, r.transform = '/' :: t ∧ t ≠ []) ∨
      (r.transform = ['/'] ∧ (rest = [] ∨ rest.head? = some '/' ∨ rest.head? = some '?')) →
      wireHost w = some (u.host ++ ':' :: natToDec u.port) ∧ (Url.parse w.uri).bind Url.user = none) := by
  have hut := origin_uri hf ho
  have hrest' : ∃ p q, rest = p ++ q ∧ pathText p = true ∧ QueryPart q :=
    originForm_rest (hrest ▸ ho) htext
  obtain ⟨p0, q0, hpq, hp0, hq0⟩ := hrest'
  -- the general form: what stands behind the base
  have key : ∀ P, pathText P = true → (P = [] ∨ P.head? = some '/') → ∀ q, QueryPart q →
      w.uri = u.str ++ (P ++ q) →
      (P ≠ [] ∨ toUpper rq.method ≠ "CONNECT".toList →
        wireTarget w = some ((if P = [] then ['/'] else P) ++ q)) ∧
      wireHost w = some (u.host ++ ':' :: natToDec u.port) ∧ (Url.parse w.uri).bind Url.user = none := by
    intro P hP hd q hq hu
    obtain ⟨v, hv, h1, h2, h3, h4⟩ := upstream_roundtrip hsch hhost u.port hP hd hq
    have hv' : Url.parse w.uri = some v := by rw [hu]; exact hv
    refine ⟨?_, ?_, by rw [hv', Option.bind_some]; exact Option.isSome_eq_false_iff.1 h3 |> Option.isNone_iff_eq_none.1⟩
    · intro hc
      unfold wireTarget
      rw [hv', Option.map_some, hmeth, if_neg, h1]
      rintro ⟨hc1, hc2⟩
      rcases hc with hc | hc
      · exact h4 hc hc2
      · exact hc hc1
    · unfold wireHost
      rw [hv', Option.map_some, h2, if_neg]
      intro hl
      have hne : natToDec u.port ≠ [] := Nat.toDigits_ne_nil
      rw [List.getLast?_append] at hl
      have hl2 : (natToDec u.port).getLast? = some ':' := by
        cases hd : natToDec u.port with
        | nil => exact absurd hd hne
        | cons d ds => rw [hd] at hl; simpa using hl
      exact (digit_not _ (digits_mem _ _ (List.mem_of_getLast? hl2))).1 rfl
  obtain ⟨k1, k2, k3⟩ := C08_transform u r rest
  have c1 : r.transform = [] → ∃ P q, pathText P = true ∧ P.head? = some '/' ∧ QueryPart q ∧
      rq.requestURI = P ++ q ∧ w.uri = u.str ++ (P ++ q) := by
    intro ht
    obtain ⟨P, q, he, hd, hP, hq⟩ := originForm_split.mp ho
    exact ⟨P, q, hP, hd, hq, he, by rw [huri, hut, k1 ht, he]⟩
  have c2 : ∀ t, r.transform = '/' :: t → t ≠ [] → pathText r.transform = true →
      pathText (r.transform ++ p0) = true ∧ (r.transform ++ p0).head? = some '/' ∧
      w.uri = u.str ++ (r.transform ++ p0 ++ q0) := by
    intro t ht ht0 htx
    refine ⟨by rw [pathText_append _ htx]; exact hp0, by rw [ht]; rfl, ?_⟩
    rw [huri, hut, hrest, k3 (by rw [ht]; simp) (by rw [ht]; simpa using ht0), hpq]
    simp
  have c3 : r.transform = ['/'] → (rest = [] ∨ rest.head? = some '/' ∨ rest.head? = some '?') →
      (p0 = [] ∨ p0.head? = some '/') ∧ w.uri = u.str ++ (p0 ++ q0) := by
    intro ht hb
    refine ⟨?_, by rw [huri, hut, hrest, k2 ht, hpq]⟩
    match p0 with
    | [] => exact .inl rfl
    | c :: p0 =>
      right
      rw [hpq] at hb
      simp only [List.cons_append, reduceCtorEq, List.head?_cons, false_or] at hb
      rcases hb with hb | hb
      · simpa using hb
      · exfalso
        obtain rfl : c = '?' := by simpa using hb
        exact (pathText_no hp0).1 (by simp)
  refine ⟨?_, ?_, ?_, ?_⟩
  · intro ht
    obtain ⟨P, q, hP, hd, hq, he, hu⟩ := c1 ht
    have hne : P ≠ [] := by rintro rfl; cases hd
    rw [(key P hP (.inr hd) q hq hu).1 (.inl hne), if_neg hne, he]
  · intro t ht ht0 htx
    obtain ⟨hP, hd, hu⟩ := c2 t ht ht0 htx
    have hne : r.transform ++ p0 ≠ [] := by rw [ht]; simp
    rw [(key _ hP (.inr hd) q0 hq0 hu).1 (.inl hne), if_neg hne, hpq, List.append_assoc]
  · intro ht hb hc
    obtain ⟨hd, hu⟩ := c3 ht hb
    rw [(key _ hp0 hd q0 hq0 hu).1 (.inr hc)]
    congr 1
    rw [hpq]
    match p0, hd with
    | [], _ =>
      rcases hq0 with rfl | ⟨q', -, rfl⟩ <;> simp
    | c :: p0, hd =>
      rcases hd with hd | hd
      · cases hd
      · obtain rfl : c = '/' := by simpa using hd
        simp
  · intro hcase
    rcases hcase with ht | ⟨htx, t, ht, ht0⟩ | ⟨ht, hb⟩
    · obtain ⟨P, q, hP, hd, hq, he, hu⟩ := c1 ht
      exact (key P hP (.inr hd) q hq hu).2
    · obtain ⟨hP, hd, hu⟩ := c2 t ht ht0 htx
      exact (key _ hP (.inr hd) q0 hq0 hu).2
    · obtain ⟨hd, hu⟩ := c3 ht hb
      exact (key _ hp0 hd q0 hq0 hu).2

/-- C91: for a target in origin form and plain routes and hosts, the target in the request line sent to the
upstream is, byte for byte, the target of the client, the path of the route that was matched replaced by its
transform; the host is the one of the resource. Full statement: for every transform that is a path; missing:
the transform `/` when what follows the path of the route does not start a new part of the URI (`C91_violated`),
and, for that transform, the method CONNECT. -/
theorem C91_wire_partial (x : Setup K) (s : St) (h : x.Reaches s) (hE : x.E.LiteralLaw)
    (hr : ∀ r ∈ x.c.routes, PlainRoute r) (hh : PlainHosts x.c) (u0 : Url) (hf : x.rq.From u0)
    (ho : OriginForm x.rq.requestURI) (p : Nat × UpReq) (hp : p ∈ s.calls) :
    ∃ r ∈ x.c.routes, ∃ rest, x.rq.requestURI = r.path ++ rest ∧
      (r.transform = [] → wireTarget p.2 = some x.rq.requestURI) ∧
      (∀ t, r.transform = '/' :: t → t ≠ [] → pathText r.transform = true →
        wireTarget p.2 = some (r.transform ++ rest)) ∧
      (r.transform = ['/'] → rest = [] ∨ rest.head? = some '/' ∨ rest.head? = some '?' →
        toUpper x.rq.method ≠ "CONNECT".toList →
        wireTarget p.2 = some (if rest.head? = some '/' then rest else '/' :: rest)) ∧
      (r.transform = [] ∨ (pathText r.transform = true ∧ ∃ t, r.transform = '/' :: t ∧ t ≠ []) ∨
        (r.transform = ['/'] ∧ (rest = [] ∨ rest.head? = some '/' ∨ rest.head? = some '?')) →
        ∃ ms, x.c.resources r.resource = some ms ∧ ∃ m ∈ ms,
          wireHost p.2 = some (m.url.host ++ ':' :: natToDec m.url.port)) := by
  obtain ⟨r, hm, rest, hrest, u, ⟨ms, hms, m, hmm, rfl⟩, hsch, hhost, hmeth, huri⟩ := sent_on h hE hr hh hp
  obtain ⟨h1, h2, h3, h4⟩ := wire_of hf ho (hr r hm).text hrest hsch hhost hmeth huri
  exact ⟨r, hm, rest, hrest, h1, h2, h3, fun hc => ⟨ms, hms, m, hmm, (h4 hc).1⟩⟩

/-- A gateway whose route `/a` has a transform, with package `net/url` as modelled. -/
def Demo.targeted (transform target : String) : Setup Nat :=
  { Demo.setup with
    sv := { Demo.server with uriOk := newRequestOk }
    c := { Demo.config with routes := [{ Demo.route with transform := transform.toList }] }
    rq := { Demo.request with requestURI := target.toList, uri := ((requestUrl "get".toList target.toList).map Url.requestURI).getD [] } }

theorem Demo.targeted_url {transform target : String} {u : Url} (hu : requestUrl "get".toList target.toList = some u) :
    (Demo.targeted transform target).rq.From u := by
  refine ⟨hu, ?_⟩
  show ((requestUrl "get".toList target.toList).map Url.requestURI).getD [] = u.requestURI
  rw [hu]
  rfl

theorem Demo.targeted_from {transform target : String} (h : (requestUrl "get".toList target.toList).isSome = true) :
    ∃ u, (Demo.targeted transform target).rq.From u := by
  obtain ⟨u, hu⟩ := Option.isSome_iff_exists.mp h
  exact ⟨u, Demo.targeted_url hu⟩

theorem Demo.targeted_plain (transform target : String) :
    (∀ r ∈ (Demo.targeted transform target).c.routes, PlainRoute r) ∧ PlainHosts (Demo.targeted transform target).c ∧
      (Demo.targeted transform target).E.LiteralLaw := by
  refine ⟨?_, ?_, literalEngine_law⟩
  · intro r hr
    obtain rfl : r = { Demo.route with transform := transform.toList } := by
      simpa [Demo.targeted] using hr
    exact ⟨rfl, ⟨['a'], rfl⟩, (by decide : Literal "/a".toList), (by decide +kernel : pathText "/a".toList = true)⟩
  · intro name ms hms m hm
    simp only [Demo.targeted, Demo.config] at hms
    split at hms
    · obtain rfl := Option.some.inj hms
      obtain rfl : m = ⟨"r".toList, [], Demo.url⟩ := by simpa using hm
      exact ⟨.inl rfl, .inl ⟨by decide, by decide +kernel⟩⟩
    · cases hms

/-- Byte for byte, with escapes that are not the usual ones, and with the transforms. -/
example : OriginForm "/a/%7ex/b;c?d=%2f&e#".toList.dropLast ∧
    (requestUrl "get".toList "/a/%7ex/b;c?d=%2f&e".toList).isSome = true ∧
    Demo.check (Demo.targeted "" "/a/%7ex/b;c?d=%2f&e") (Demo.success Demo.ok)
      (fun s => s.calls.map (fun p => wireTarget p.2) == [some "/a/%7ex/b;c?d=%2f&e".toList]) = true ∧
    Demo.check (Demo.targeted "/z" "/a/%7ex?") (Demo.success Demo.ok)
      (fun s => s.calls.map (fun p => (wireTarget p.2, wireHost p.2)) == [(some "/z/%7ex?".toList, some "up:80".toList)]) = true ∧
    Demo.check (Demo.targeted "/" "/a?x=1") (Demo.success Demo.ok)
      (fun s => s.calls.map (fun p => wireTarget p.2) == [some "/?x=1".toList]) = true :=
  ⟨⟨"a/%7ex/b;c".toList, by decide +kernel, .inr ⟨"d=%2f&e".toList, by decide +kernel, by decide⟩⟩,
    by decide +kernel, by decide +kernel, by decide +kernel, by decide +kernel⟩

/-- C91 fails: with the transform `/` the target `/a@evil.com/x` arrives as `/x`, at another host. -/
theorem C91_violated : OriginForm "/a@evil.com/x".toList ∧
    (∃ u, (Demo.targeted "/" "/a@evil.com/x").rq.From u) ∧
    ∃ s, (Demo.targeted "/" "/a@evil.com/x").Reaches s ∧
      s.calls.map (fun p => (wireTarget p.2, wireHost p.2)) = [(some "/x".toList, some "evil.com".toList)] := by
  refine ⟨⟨"a@evil.com/x".toList, by decide +kernel, .inl rfl⟩, Demo.targeted_from (by decide +kernel), ?_⟩
  obtain ⟨s, h1, h2⟩ := Demo.of_check (x := Demo.targeted "/" "/a@evil.com/x") (as := Demo.success Demo.ok)
    (p := fun s => s.calls.map (fun p => (wireTarget p.2, wireHost p.2)) == [(some "/x".toList, some "evil.com".toList)])
    (by decide +kernel)
  exact ⟨s, Demo.reaches h1, by simpa using h2⟩

end J8a

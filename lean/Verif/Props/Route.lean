import Verif.Lemmas.Config
import Verif.Props.Config
/-!
# C01, C03, C07, C08, C09: routing, mapping and upstream URIs
-/
namespace J8a
open Go
variable {J : Type}

/-! ## C01 -/

/-- C01: the dispatched route is a configured one, it matches, and no matching route has a longer
path; a request is left unrouted only if no route matches. For every outcome of the sort. -/
theorem C01_longest_match {E : Regexp} {validate : Str → J → Option J} {srt}
    (hs : IsRouteSort srt) {c c' : Config J} (h : boot E validate srt c = some c') (uri : Str) :
    (∀ r, dispatch E c'.routes uri = some r →
      r ∈ c'.routes ∧ r.matchURI E uri = true ∧
      ∀ r' ∈ c'.routes, r'.matchURI E uri = true → r'.path.length ≤ r.path.length) ∧
    (dispatch E c'.routes uri = none ↔ ∀ r ∈ c'.routes, r.matchURI E uri = false) := by
  obtain ⟨-, -, -, -, hsort, -, -⟩ := C13_boot_sound hs h
  constructor
  · intro r hr
    unfold dispatch at hr
    rw [List.find?_eq_some_iff_append] at hr
    obtain ⟨hm, as, bs, heq, has⟩ := hr
    refine ⟨by rw [heq]; simp, hm, ?_⟩
    intro r' hr' hm'
    rw [heq] at hr' hsort
    rw [List.mem_append, List.mem_cons] at hr'
    rcases hr' with h1 | h1 | h1
    · have := has r' h1; simp [hm'] at this
    · rw [h1]; exact Nat.le_refl _
    · rw [List.pairwise_append, List.pairwise_cons] at hsort
      exact hsort.2.1.1 r' h1
  · unfold dispatch
    rw [List.find?_eq_none]
    simp

/-- The path of a configured route with the leading slash it is given at boot. -/
def SlashedFrom (p q : Str) : Prop :=
  (∃ t, p = '/' :: t) ∧ q = p ∨ (∀ t, p ≠ '/' :: t) ∧ q = '/' :: p

theorem slashedFrom_iff {p q : Str} : SlashedFrom p q ↔ q = addSlash p := by
  by_cases hp : ∃ t, p = '/' :: t
  · obtain ⟨t, rfl⟩ := hp
    simp [SlashedFrom, addSlash_of_slash]
  · have hp' : ∀ t, p ≠ '/' :: t := fun t ht => hp ⟨t, ht⟩
    rw [addSlash_of_no_slash hp']
    constructor
    · rintro (⟨h, -⟩ | ⟨-, h⟩)
      · exact absurd h hp
      · exact h
    · intro h; exact .inr ⟨hp', h⟩

/-- C01 in terms of the configuration as written: a request goes to a route taken over from a configured
one, unchanged but for the leading slash of its path, whose anchored pattern matches the request URI; no
configured route whose pattern matches has a longer path; and a request is left unrouted only if no
configured pattern matches. -/
theorem C01_configured {E : Regexp} {validate : Str → J → Option J} {srt}
    (hs : IsRouteSort srt) {c c' : Config J} (h : boot E validate srt c = some c') (uri : Str) :
    (∀ r, dispatch E c'.routes uri = some r →
      ∃ r0 ∈ c.routes, E.isMatch ('^' :: r0.path) uri = true ∧
        SlashedFrom r0.path r.path ∧ r.transform = r0.transform ∧ r.resource = r0.resource ∧
        r.policy = r0.policy ∧ r.jwt = r0.jwt ∧
        ∀ r1 ∈ c.routes, E.isMatch ('^' :: r1.path) uri = true →
          ∀ q, SlashedFrom r1.path q → q.length ≤ r.path.length) ∧
    (dispatch E c'.routes uri = none ↔ ∀ r0 ∈ c.routes, E.isMatch ('^' :: r0.path) uri = false) := by
  obtain ⟨-, -, -, -, hr, -, -, -⟩ := boot_elim h
  have hmem : ∀ r, r ∈ c'.routes ↔ ∃ r0 ∈ c.routes,
      ({ r0 with pathRegex := some ('^' :: r0.path), path := addSlash r0.path } : Route) = r := by
    intro r; rw [hr, (hs _).1.mem_iff, List.mem_map]
  obtain ⟨h1, h2⟩ := C01_longest_match hs h uri
  constructor
  · intro r hd
    obtain ⟨hm, hma, hl⟩ := h1 r hd
    obtain ⟨r0, hr0, rfl⟩ := (hmem r).mp hm
    refine ⟨r0, hr0, hma, slashedFrom_iff.mpr rfl, rfl, rfl, rfl, rfl, ?_⟩
    intro r1 hr1 hm1 q hq
    rw [slashedFrom_iff.mp hq]
    exact hl _ ((hmem _).mpr ⟨r1, hr1, rfl⟩) hm1
  · rw [h2]
    constructor
    · intro ha r0 hr0
      exact ha _ ((hmem _).mpr ⟨r0, hr0, rfl⟩)
    · intro ha r hm
      obtain ⟨r0, hr0, rfl⟩ := (hmem r).mp hm
      exact ha r0 hr0

/-- Where a literal route is reached after boot. -/
theorem matchURI_booted {E : Regexp} (hE : E.LiteralLaw) (r : Route) (hl : Literal r.path)
    (uri : Str) :
    ({ r with pathRegex := some ('^' :: r.path), path := addSlash r.path } : Route).matchURI E uri
      = true ↔ ∃ rest, uri = r.path ++ rest := by
  show E.isMatch _ _ = true ↔ _
  exact (hE r.path hl).2 uri

/-- C01: listing the same literal routes in another order (and any other outcome of the sort)
sends every request to a route with the same path. -/
theorem C01_order_independent {E : Regexp} (hE : E.LiteralLaw) {validate : Str → J → Option J}
    {srt₁ srt₂} (hs₁ : IsRouteSort srt₁) (hs₂ : IsRouteSort srt₂) {c₁ c₂ c₁' c₂' : Config J}
    (hperm : c₁.routes.Perm c₂.routes) (hlit : ∀ r ∈ c₁.routes, Literal r.path)
    (h₁ : boot E validate srt₁ c₁ = some c₁') (h₂ : boot E validate srt₂ c₂ = some c₂')
    (uri : Str) :
    (dispatch E c₁'.routes uri).map Route.path = (dispatch E c₂'.routes uri).map Route.path := by
  let prep : Route → Route := fun r =>
    { r with pathRegex := some ('^' :: r.path), path := addSlash r.path }
  have m₁ : ∀ r, r ∈ c₁'.routes ↔ ∃ r0 ∈ c₁.routes, prep r0 = r := by
    intro r
    obtain ⟨-, -, -, -, hr, -, -, -⟩ := boot_elim h₁
    rw [hr, (hs₁ _).1.mem_iff, List.mem_map]
  have m₂ : ∀ r, r ∈ c₂'.routes ↔ ∃ r0 ∈ c₁.routes, prep r0 = r := by
    intro r
    obtain ⟨-, -, -, -, hr, -, -, -⟩ := boot_elim h₂
    rw [hr, (hs₂ _).1.mem_iff, List.mem_map]
    simp only [hperm.mem_iff]
    rfl
  have hsame : ∀ r, r ∈ c₁'.routes ↔ r ∈ c₂'.routes := fun r => by rw [m₁, m₂]
  obtain ⟨l₁, n₁⟩ := C01_longest_match hs₁ h₁ uri
  obtain ⟨l₂, n₂⟩ := C01_longest_match hs₂ h₂ uri
  cases d₁ : dispatch E c₁'.routes uri with
  | none =>
    have := n₂.mpr fun r hr => n₁.mp d₁ r ((hsame r).mpr hr)
    rw [this]
  | some a =>
    cases d₂ : dispatch E c₂'.routes uri with
    | none =>
      obtain ⟨ha, hma, -⟩ := l₁ a d₁
      have := n₂.mp d₂ a ((hsame a).mp ha)
      rw [hma] at this; simp at this
    | some b =>
      obtain ⟨ha, hma, hla⟩ := l₁ a d₁
      obtain ⟨hb, hmb, hlb⟩ := l₂ b d₂
      have e1 := hla b ((hsame b).mpr hb) hmb
      have e2 := hlb a ((hsame a).mp ha) hma
      have elen : a.path.length = b.path.length := Nat.le_antisymm e2 e1
      obtain ⟨a0, ha0, rfl⟩ := (m₁ a).mp ha
      obtain ⟨b0, hb0, rfl⟩ := (m₂ b).mp hb
      obtain ⟨ra, hra⟩ := (matchURI_booted hE a0 (hlit a0 ha0) uri).mp hma
      obtain ⟨rb, hrb⟩ := (matchURI_booted hE b0 (hlit b0 hb0) uri).mp hmb
      show some (addSlash a0.path) = some (addSlash b0.path)
      have elen' : (addSlash a0.path).length = (addSlash b0.path).length := elen
      rw [addSlash_prefix_eq (hra.symm.trans hrb) elen']

/-- Hypotheses of C01 met: two orders, two sorts of the same literal routes, both booting. -/
example : ∃ (c₁ c₂ c₁' c₂' : Config Unit), c₁.routes.Perm c₂.routes ∧ c₁.routes ≠ c₂.routes ∧
    (∀ r ∈ c₁.routes, Literal r.path) ∧
    boot literalEngine (fun _ _ => some ()) exSort c₁ = some c₁' ∧
    boot literalEngine (fun _ _ => some ()) exSort c₂ = some c₂' ∧
    (dispatch literalEngine c₁'.routes "/a/b/c".toList).map Route.path = some "/a/b".toList :=
  ⟨exConfig, { exConfig with routes := exConfig.routes.reverse }, _, _,
    (List.reverse_perm _).symm, by decide, by decide, rfl, rfl, by decide +kernel⟩

/-! ## C03 -/

/-- C03 fails. For every engine with the literal law and every literal, non-empty path written
without a leading slash, the booted route never matches a request URI starting with a slash,
although the same route written with the slash matches its own path. -/
theorem C03_violated {E : Regexp} (hE : E.LiteralLaw) (p : Str) (hp : Literal p)
    (hne : p ≠ []) (hns : ∀ t, p ≠ '/' :: t) (hslash : Literal ('/' :: p)) :
    ∃ uri, (∃ t, uri = '/' :: t) ∧
      ({ path := addSlash p, pathRegex := some ('^' :: p) } : Route).matchURI E uri = false ∧
      ({ path := addSlash ('/' :: p), pathRegex := some ('^' :: '/' :: p) } : Route).matchURI E uri
        = true := by
  refine ⟨'/' :: p, ⟨p, rfl⟩, ?_, ?_⟩
  · rw [Bool.eq_false_iff]
    intro hm
    obtain ⟨rest, hr⟩ := (matchURI_booted hE { path := p } hp ('/' :: p)).mp hm
    cases p with
    | nil => exact hne rfl
    | cons x xs =>
      simp at hr
      exact hns xs (by rw [← hr.1])
  · exact (matchURI_booted hE { path := '/' :: p } hslash ('/' :: p)).mpr ⟨[], by simp⟩

/-- C03 through the whole boot pipeline on one configuration: `path: todos` leaves `/todos`
unrouted, `path: /todos` does not. -/
theorem C03_violated_boot :
    ∃ c₁ c₂ : Config Unit,
      boot literalEngine (fun _ _ => some ()) exSort { routes := [{ path := "todos".toList }] }
        = some c₁ ∧
      boot literalEngine (fun _ _ => some ()) exSort { routes := [{ path := "/todos".toList }] }
        = some c₂ ∧
      c₁.routes.map Route.path = c₂.routes.map Route.path ∧
      dispatch literalEngine c₁.routes "/todos".toList = none ∧
      (dispatch literalEngine c₂.routes "/todos".toList).isSome = true :=
  ⟨_, _, rfl, rfl, by decide +kernel, by decide +kernel, by decide +kernel⟩

/-- C03 for every booted literal route: it matches exactly the URIs that start with the path as
written. Full statement wanted: "…that start with the path *with a leading slash*", which is this
one when the path already has the slash; missing: paths written without it (see `C03_violated`). -/
theorem C03_partial {E : Regexp} (hE : E.LiteralLaw) {validate : Str → J → Option J} {srt}
    (hs : IsRouteSort srt) {c c' : Config J} (h : boot E validate srt c = some c')
    (hlit : ∀ r ∈ c.routes, Literal r.path) (uri : Str) :
    ∀ r' ∈ c'.routes, ∃ r ∈ c.routes, r'.path = addSlash r.path ∧
      (r'.matchURI E uri = true ↔ ∃ rest, uri = r.path ++ rest) ∧
      ((∃ t, r.path = '/' :: t) → (r'.matchURI E uri = true ↔ ∃ rest, uri = r'.path ++ rest)) := by
  intro r' hr'
  obtain ⟨-, -, -, -, hr, -, -, -⟩ := boot_elim h
  rw [hr, (hs _).1.mem_iff, List.mem_map] at hr'
  obtain ⟨r, hr0, rfl⟩ := hr'
  refine ⟨r, hr0, rfl, matchURI_booted hE r (hlit r hr0) uri, ?_⟩
  rintro ⟨t, ht⟩
  have : addSlash r.path = r.path := by rw [ht, addSlash_of_slash]
  show _ ↔ ∃ rest, uri = addSlash r.path ++ rest
  rw [this]
  exact matchURI_booted hE r (hlit r hr0) uri

example : Literal "todos".toList ∧ Literal "/todos".toList ∧ literalEngine.LiteralLaw :=
  ⟨by decide, by decide, literalEngine_law⟩

/-! ## C07 -/

theorem findLabelled_some {label : Str} {ms : List ResourceMapping} {u : URL}
    (h : findLabelled label ms = some u) : ∃ m ∈ ms, m.url = u ∧ label ∈ m.labels := by
  induction ms with
  | nil => simp [findLabelled] at h
  | cons m ms ih =>
    unfold findLabelled at h
    split at h
    case isTrue hm =>
      injection h with h
      rw [List.any_eq_true] at hm
      obtain ⟨l, hl, he⟩ := hm
      have : label = l := by simpa using he
      exact ⟨m, by simp, h, by rw [this]; exact hl⟩
    case isFalse =>
      obtain ⟨m', hm', hr⟩ := ih h
      exact ⟨m', by simp [hm'], hr⟩

theorem findLabelled_none {label : Str} {ms : List ResourceMapping}
    (h : findLabelled label ms = none) : ∀ m ∈ ms, label ∉ m.labels := by
  induction ms with
  | nil => simp
  | cons m ms ih =>
    unfold findLabelled at h
    split at h
    case isTrue => simp at h
    case isFalse hm =>
      intro m' hm'
      rcases List.mem_cons.mp hm' with rfl | hm'
      · intro hl
        apply hm
        rw [List.any_eq_true]
        exact ⟨label, hl, by simp⟩
      · exact ih h m' hm'

/-- C07: a mapped URL is listed under the route's resource; with a policy, under an entry carrying
the label the policy resolved to (for the dice drawn and whatever the sort left in the slice). -/
theorem C07_mapped_sound (pick : Policy → Str) (policies : Str → Option Policy)
    (resources : Str → Option (List ResourceMapping)) (r : Route) (u : URL) (label : Str)
    (h : r.mapURL pick policies resources = .mapped u label) :
    ∃ ms, resources r.resource = some ms ∧ ∃ m ∈ ms, m.url = u ∧
      (r.policy ≠ [] → label ∈ m.labels ∧ label = pick ((policies r.policy).getD [])) ∧
      (r.policy = [] → ms.head? = some m ∧ label = "default".toList) := by
  unfold Route.mapURL at h
  cases hr : resources r.resource with
  | none => rw [hr] at h; simp at h
  | some ms =>
    rw [hr] at h
    refine ⟨ms, rfl, ?_⟩
    simp only at h
    split at h
    case isTrue hp =>
      split at h
      case h_2 => simp at h
      case h_1 u' hf =>
        injection h with h1 h2
        subst h1 h2
        obtain ⟨m, hm, hu, hl⟩ := findLabelled_some hf
        refine ⟨m, hm, hu, fun _ => ⟨hl, rfl⟩, ?_⟩
        intro h0; simp [h0] at hp
    case isFalse hp =>
      have h0 : r.policy = [] := by
        cases hpol : r.policy with
        | nil => rfl
        | cons _ _ => simp [hpol] at hp
      cases ms with
      | nil => simp at h
      | cons m ms =>
        simp only at h
        injection h with h1 h2
        exact ⟨m, by simp, h1, fun hne => absurd h0 hne, fun _ => ⟨by simp, h2.symm⟩⟩

/-- C07: mapping fails exactly when the resource is unknown, or a policy is named and no entry
carries the resolved label. -/
theorem C07_not_mapped_iff (pick : Policy → Str) (policies : Str → Option Policy)
    (resources : Str → Option (List ResourceMapping)) (r : Route) :
    r.mapURL pick policies resources = .notMapped ↔
      resources r.resource = none ∨
      (r.policy ≠ [] ∧ ∃ ms, resources r.resource = some ms ∧
        ∀ m ∈ ms, pick ((policies r.policy).getD []) ∉ m.labels) := by
  unfold Route.mapURL
  cases hr : resources r.resource with
  | none => simp
  | some ms =>
    simp only [Option.some.injEq, exists_eq_left', reduceCtorEq, false_or]
    by_cases h0 : r.policy = []
    · simp only [h0, List.length_nil, Nat.lt_irrefl, if_false]
      cases ms <;> simp
    · have hp : 0 < r.policy.length := List.length_pos_iff.mpr h0
      simp only [if_pos hp]
      cases hf : findLabelled (pick ((policies r.policy).getD [])) ms with
      | none =>
        simp only [true_iff]
        exact ⟨h0, findLabelled_none hf⟩
      | some u =>
        simp only [reduceCtorEq, false_iff]
        rintro ⟨-, hno⟩
        obtain ⟨m, hm, -, hl⟩ := findLabelled_some hf
        exact hno m hm hl

/-- A mapped request under a policy exists. -/
example : ({ path := "/a".toList, resource := "r".toList, policy := "ab".toList } : Route).mapURL
    (fun _ => "green".toList) exConfig.policies exConfig.resources
    = .mapped ⟨"https:".toList, "host".toList, 8080⟩ "green".toList := by decide +kernel

/-! ## C08 -/

/-- C08: when the request URI starts with the route path (which is when a literal route matches),
the upstream URI is the base, the transform (nothing for `/`), and the rest of the URI untouched;
without a transform it is the base and the URI. -/
theorem C08_transform (u : URL) (r : Route) (rest : Str) :
    (r.transform = [] → ∀ uri, resolveUpstreamURI u r uri = u.str ++ uri) ∧
    (r.transform = ['/'] → resolveUpstreamURI u r (r.path ++ rest) = u.str ++ rest) ∧
    (r.transform ≠ [] → r.transform ≠ ['/'] →
      resolveUpstreamURI u r (r.path ++ rest) = u.str ++ (r.transform ++ rest)) := by
  refine ⟨?_, ?_, ?_⟩
  · intro h uri; simp [resolveUpstreamURI, h]
  · intro h; simp [resolveUpstreamURI, h, replace1_prefix]
  · intro h h'
    have : 0 < r.transform.length := List.length_pos_iff.mpr h
    simp [resolveUpstreamURI, this, h', replace1_prefix]

/-- C08 for a booted gateway: a dispatched literal route with leading slash and the URI it matched. -/
theorem C08_booted {E : Regexp} (hE : E.LiteralLaw) {validate : Str → J → Option J} {srt}
    (hs : IsRouteSort srt) {c c' : Config J} (h : boot E validate srt c = some c')
    (hlit : ∀ r ∈ c.routes, Literal r.path ∧ ∃ t, r.path = '/' :: t) (uri : Str) (r : Route)
    (hd : dispatch E c'.routes uri = some r) (u : URL) :
    ∃ rest, uri = r.path ++ rest ∧ resolveUpstreamURI u r uri =
      (if r.transform = [] then u.str ++ (r.path ++ rest)
       else if r.transform = ['/'] then u.str ++ rest
       else u.str ++ (r.transform ++ rest)) := by
  obtain ⟨hr, hm, -⟩ := (C01_longest_match hs h uri).1 r hd
  obtain ⟨r0, h0, hp, -, hiff⟩ := C03_partial hE hs h (fun r hr => (hlit r hr).1) uri r hr
  obtain ⟨rest, hrest⟩ := (hiff (hlit r0 h0).2).mp hm
  refine ⟨rest, hrest, ?_⟩
  obtain ⟨k1, k2, k3⟩ := C08_transform u r rest
  rw [hrest]
  split
  case isTrue ht => exact k1 ht _
  case isFalse ht =>
    split
    case isTrue ht' => exact k2 ht'
    case isFalse ht' => exact k3 ht ht'

/-- A URI that repeats the route path: only the first occurrence is replaced. -/
example : resolveUpstreamURI ⟨"http".toList, "h".toList, 80⟩
    { path := "/a".toList, transform := "/z".toList } "/a/b/a?x=/a".toList
    = "http://h:80/z/b/a?x=/a".toList := by decide +kernel

/-! ## C09 -/

/-- Host names as they may appear in a resource: no URL delimiter. -/
def PlainHost (h : Str) : Prop := ∀ c ∈ h, c ≠ '/' ∧ c ≠ '?' ∧ c ≠ '#' ∧ c ≠ '@'

instance (h : Str) : Decidable (PlainHost h) := by unfold PlainHost; infer_instance

/-- C09 fails: with transform `/` the client chooses the host. The route is `/mse6`, the resource
is localhost:60083, the request URI `/mse6@evil.com/x`. -/
theorem C09_violated :
    urlAuthority (resolveUpstreamURI ⟨"http".toList, "localhost".toList, 60083⟩
      { path := "/mse6".toList, transform := "/".toList } "/mse6@evil.com/x".toList)
      = "evil.com".toList ∧
    (dispatch literalEngine [{ path := "/mse6".toList, pathRegex := some "^/mse6".toList }]
      "/mse6@evil.com/x".toList).isSome = true := by
  decide +kernel

theorem takeWhile_stop {p : Char → Bool} {a b : Str} (ha : ∀ c ∈ a, p c = true)
    (hb : b = [] ∨ ∃ c t, b = c :: t ∧ p c = false) : (a ++ b).takeWhile p = a := by
  induction a with
  | nil =>
    rcases hb with rfl | ⟨c, t, rfl, hc⟩
    · rfl
    · simp [hc]
  | cons x a ih =>
    have hx : p x = true := ha x (by simp)
    simp only [List.cons_append, List.takeWhile_cons, hx, if_true]
    rw [ih (fun c hc => ha c (by simp [hc]))]

theorem natToDec_digits (n : Nat) : ∀ c ∈ natToDec n, c.isDigit = true := by
  intro c hc
  exact Nat.isDigit_of_mem_toDigits (by decide) (by decide) hc

/-- Authority of a URL whose part after the base is empty or starts with a delimiter. -/
theorem authority_base (u : URL) (hsch : u.scheme = "http".toList ∨ u.scheme = "https".toList)
    (hh : PlainHost u.host) (tail : Str)
    (ht : tail = [] ∨ ∃ c t, tail = c :: t ∧ (c = '/' ∨ c = '?' ∨ c = '#')) :
    urlAuthority (u.str ++ tail) = u.host ++ ":".toList ++ natToDec u.port := by
  have hidx : ∃ n, index (u.str ++ tail) "://".toList = some n ∧
      (u.str ++ tail).drop (n + 3) = u.host ++ ":".toList ++ natToDec u.port ++ tail := by
    rcases hsch with h | h
    · refine ⟨4, ?_, ?_⟩
      · rw [URL.str, h]
        simp only [String.reduceToList, List.cons_append, List.nil_append, index,
          List.isPrefixOf_cons_cons]
        simp
      · rw [URL.str, h]; simp
    · refine ⟨5, ?_, ?_⟩
      · rw [URL.str, h]
        simp only [String.reduceToList, List.cons_append, List.nil_append, index,
          List.isPrefixOf_cons_cons]
        simp
      · rw [URL.str, h]; simp
  obtain ⟨n, hn, hd⟩ := hidx
  have hplain : ∀ c ∈ u.host ++ ":".toList ++ natToDec u.port,
      c ≠ '/' ∧ c ≠ '?' ∧ c ≠ '#' ∧ c ≠ '@' := by
    intro c hc
    simp only [List.mem_append] at hc
    rcases hc with (hc | hc) | hc
    · exact hh c hc
    · have : c = ':' := by simpa using hc
      subst this; decide
    · have := natToDec_digits _ c hc
      refine ⟨?_, ?_, ?_, ?_⟩ <;> (rintro rfl; revert this; decide)
  unfold urlAuthority
  rw [hn]
  simp only
  rw [hd, takeWhile_stop]
  · unfold dropUserinfo
    have : ((u.host ++ ":".toList ++ natToDec u.port).reverse.takeWhile (· ≠ '@'))
        = (u.host ++ ":".toList ++ natToDec u.port).reverse := by
      have := takeWhile_stop (p := fun c => decide (c ≠ '@'))
        (a := (u.host ++ ":".toList ++ natToDec u.port).reverse) (b := [])
        (by intro c hc; rw [List.mem_reverse] at hc; simpa using (hplain c hc).2.2.2) (Or.inl rfl)
      simpa using this
    rw [this, List.reverse_reverse]
  · intro c hc
    obtain ⟨h1, h2, h3, -⟩ := hplain c hc
    simp [h1, h2, h3]
  · rcases ht with h | ⟨c, t, h, hc⟩
    · exact Or.inl h
    · refine Or.inr ⟨c, t, h, ?_⟩
      rcases hc with rfl | rfl | rfl <;> decide

/-- The replacement keeps a leading slash unless the transform is `/`. -/
theorem replace1_slash (uri path t : Str) (hu : ∃ x, uri = '/' :: x)
    (ht : ∃ x, t = '/' :: x) : ∃ x, replace1 uri path t = '/' :: x := by
  obtain ⟨x, rfl⟩ := hu
  obtain ⟨y, rfl⟩ := ht
  unfold replace1
  cases index ('/' :: x) path with
  | none => exact ⟨x, rfl⟩
  | some i =>
    cases i with
    | zero => exact ⟨_, rfl⟩
    | succ i => exact ⟨_, rfl⟩

/-- C09 for every transform other than `/`: whatever the client sends, the authority of the
upstream URI is the mapped host and port. Full statement: for every transform; missing: `/`, for
which it is false (`C09_violated`). -/
theorem C09_partial (u : URL) (hsch : u.scheme = "http".toList ∨ u.scheme = "https".toList)
    (hh : PlainHost u.host) (r : Route) (htr : r.transform = [] ∨ ∃ t, r.transform = '/' :: t)
    (hne : r.transform ≠ ['/']) (uri : Str) (huri : ∃ t, uri = '/' :: t) :
    urlAuthority (resolveUpstreamURI u r uri) = u.host ++ ":".toList ++ natToDec u.port := by
  unfold resolveUpstreamURI
  split
  case isTrue hp =>
    show urlAuthority (u.str ++ replace1 uri r.path r.transform) = _
    have ht : ∃ t, r.transform = '/' :: t := by
      rcases htr with h | h
      · rw [h] at hp; simp at hp
      · exact h
    obtain ⟨x, hx⟩ := replace1_slash uri r.path r.transform huri ht
    rw [hx]
    exact authority_base u hsch hh _ (Or.inr ⟨'/', x, rfl, Or.inl rfl⟩)
  case isFalse =>
    obtain ⟨x, rfl⟩ := huri
    exact authority_base u hsch hh _ (Or.inr ⟨'/', x, rfl, Or.inl rfl⟩)

/-- C09 for transform `/`: the exact condition under which the authority is still right. -/
theorem C09_root_transform_partial (u : URL)
    (hsch : u.scheme = "http".toList ∨ u.scheme = "https".toList) (hh : PlainHost u.host)
    (r : Route) (htr : r.transform = ['/']) (rest : Str)
    (hrest : rest = [] ∨ ∃ c t, rest = c :: t ∧ (c = '/' ∨ c = '?' ∨ c = '#')) :
    urlAuthority (resolveUpstreamURI u r (r.path ++ rest))
      = u.host ++ ":".toList ++ natToDec u.port := by
  rw [(C08_transform u r rest).2.1 htr]
  exact authority_base u hsch hh rest hrest

example : PlainHost "localhost".toList ∧ PlainHost "10.0.0.1".toList := by decide

end J8a

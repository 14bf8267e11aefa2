import Verif.Lemmas.Redirect
import Verif.Props.Server
/-!
# C149: where the redirections of the gateway lead
-/
namespace J8a
open Go Uri

/-- The answer of the mux to a request that is redirected. -/
theorem moved_cases {routes : List Route} {x : Mux} (hx : mapPathsToHandler routes = some x)
    {method target path p : Str} (ht : target ≠ ['*']) (hm : method ≠ "CONNECT".toList)
    (h : x.serve method target path = .moved p) :
    (x.shouldRedirect (cleanPath path) = true ∧ p = canonicalPath path ++ ['/'] ∧
      GainsSlash (aboutPaths routes) (canonicalPath path)) ∨
    (x.shouldRedirect (cleanPath path) = false ∧ p = canonicalPath path ∧ canonicalPath path ≠ path ∧
      ¬ GainsSlash (aboutPaths routes) (canonicalPath path)) := by
  obtain ⟨h1, h2, h3, h4⟩ := C65_answer hx method target path ht hm
  have hr : x.shouldRedirect (cleanPath path) = true ↔ GainsSlash (aboutPaths routes) (canonicalPath path) := by
    rw [cleanPath_eq, shouldRedirect_iff hx _ (canonical_ne_nil path), ne_eq, ends_slash_iff]; rfl
  by_cases hg : GainsSlash (aboutPaths routes) (canonicalPath path)
  · rw [h1 hg] at h
    exact .inl ⟨hr.mpr hg, (MuxAnswer.moved.inj h).symm, hg⟩
  · right
    have hn : x.shouldRedirect (cleanPath path) = false := by
      cases hc : x.shouldRedirect (cleanPath path) with
      | false => rfl
      | true => exact absurd (hr.mp hc) hg
    by_cases hc : canonicalPath path = path
    · by_cases ha : path ∈ aboutPaths routes ∨ Under (aboutPaths routes) path
      · rw [h3 hg hc ha] at h; cases h
      · rw [h4 hg hc ha] at h; cases h
    · rw [h2 hg hc] at h
      exact ⟨hn, (MuxAnswer.moved.inj h).symm, hc, hg⟩

/-- The path that a redirection leads to is canonical, names what the path of the request names, and is not redirected
again. -/
theorem moved_path {routes : List Route} {x : Mux} (hx : mapPathsToHandler routes = some x)
    {method target path p : Str} (ht : target ≠ ['*']) (hm : method ≠ "CONNECT".toList)
    (h : x.serve method target path = .moved p) :
    canonicalPath p = p ∧ segments p = segments path ∧ ¬ GainsSlash (aboutPaths routes) p := by
  rcases moved_cases hx ht hm h with ⟨-, rfl, hg⟩ | ⟨-, rfl, -, hg⟩
  · have hl : (canonicalPath path).getLast? ≠ some '/' := by
      rw [ne_eq, ends_slash_iff]; exact hg.2.2
    refine ⟨canonical_snoc (canonical_canonical path) hl, by rw [segments_snoc, segments_canonical], ?_⟩
    intro hg'
    exact hg'.2.2 ⟨_, rfl⟩
  · exact ⟨canonical_canonical path, segments_canonical path, hg⟩

/-- `Location` of every redirection of a target that begins with a slash, in terms of the model. -/
theorem location_origin {routes : List Route} {x : Mux} (hx : mapPathsToHandler routes = some x)
    {method target user loc : Str} {u : Url} (hs : target.head? = some '/') (hb : ∀ c ∈ target, c.toNat < 256)
    (hm : method ≠ "CONNECT".toList) (hu : requestUrl method target = some u)
    (h : x.location method target user u = some loc) :
    ∃ p q, canonicalPath p = p ∧ (∀ c ∈ p, c.toNat < 256) ∧ segments p = segments u.path ∧
      ¬ GainsSlash (aboutPaths routes) p ∧
      (q = writtenQuery target ∨ (q = [] ∧ writtenQuery target = ['?'])) ∧
      loc = escape .path p ++ hexEscapeNonASCII q := by
  have hu' : parseRequestURI target = some u := by
    unfold requestUrl at hu
    rwa [if_neg (fun h => hm h.1)] at hu
  have ht : target ≠ ['*'] := by rintro rfl; cases hs
  obtain ⟨o1, o2, o3, o4, o5, o6, o7, o8⟩ := origin_url hs hu'
  have hbp : ∀ c ∈ u.path, c.toNat < 256 := unescape_bytes (fun c hc => hb c
    (by rw [← written_append target]; exact List.mem_append_left _ hc)) o5
  unfold Mux.location at h
  cases hsv : x.serve method target u.path with
  | badRequest => rw [hsv] at h; cases h
  | notFound => rw [hsv] at h; cases h
  | served d => rw [hsv] at h; cases h
  | moved p =>
    rw [hsv] at h
    simp only [Option.some.injEq] at h
    obtain ⟨hc, hseg, hg⟩ := moved_path hx ht hm hsv
    have hp : ∀ c ∈ p, c.toNat < 256 := by
      intro c hcp
      have : c = '/' ∨ c ∈ u.path := by
        rcases moved_cases hx ht hm hsv with ⟨-, rfl, -⟩ | ⟨-, rfl, -⟩
        · rcases List.mem_append.mp hcp with h | h
          · exact mem_canonical h
          · exact .inl (by simpa using h)
        · exact mem_canonical hcp
      rcases this with rfl | h
      · decide
      · exact hbp c h
    obtain ⟨s, hps, -⟩ := canonical_second hc
    have hstar : p ≠ ['*'] := by rw [hps]; intro he; exact absurd (List.cons.inj he).1 (by decide)
    have hesc : escape .path p = '/' :: escape .path s := by rw [hps, escape_cons_slash]
    rcases moved_cases hx ht hm hsv with ⟨hr, -, -⟩ | ⟨hr, hpe, hne, -⟩
    · refine ⟨p, if u.rawQuery ≠ [] then '?' :: u.rawQuery else [], hc, hp, hseg, hg, ?_, ?_⟩
      · rw [o7]
        rcases writtenQuery_head target with e | e
        · rw [e]; exact .inl rfl
        · cases hw : writtenQuery target with
          | nil => rw [hw] at e; cases e
          | cons d q =>
            rw [hw] at e
            have : d = '?' := by simpa using e
            subst this
            by_cases hq : q = []
            · subst hq; exact .inr ⟨rfl, rfl⟩
            · left; simp [hq]
      · rw [← h]
        unfold movedUrl
        rw [if_pos hr]
        have e1 : ({ path := p, rawQuery := u.rawQuery } : Url).escapedPath = '/' :: escape .path s := by
          rw [escapedPath_other (u := { rawQuery := u.rawQuery }) (by simp) hstar, hesc]
        rw [string_path rfl rfl rfl rfl e1, ← hesc]
        rw [← redirectLocation_origin hp hc]
        · simp
        · split <;> simp
    · refine ⟨p, writtenQuery target, hc, hp, hseg, hg, .inl rfl, ?_⟩
      rw [← h]
      unfold movedUrl
      rw [hr, if_neg (by simp)]
      have hraw : u.rawPath ≠ [] → unescape .path u.rawPath ≠ some p := by
        intro hn
        rcases o6 with e | e
        · exact absurd e hn
        · rw [e, o5]
          intro he
          rw [← Option.some.inj he] at hpe
          exact hne hpe.symm
      have e1 : ({ u with path := p } : Url).escapedPath = '/' :: escape .path s := by
        rw [escapedPath_other hraw hstar, hesc]
      rw [string_path (u := { u with path := p }) o1 o2 o3 o4 e1, ← hesc]
      simp only
      rw [o8, redirectLocation_origin hp hc (writtenQuery_head target)]

theorem written_parts {e q : Str} (he : '?' ∉ e) (hq : q = [] ∨ q.head? = some '?') :
    writtenPath (e ++ q) = e ∧ writtenQuery (e ++ q) = q := by
  unfold writtenPath writtenQuery
  match q, hq with
  | [], _ =>
    have hs : ∀ d ∈ e, decide (d ≠ '?') = true := fun d hd => by
      simp only [decide_eq_true_eq]; rintro rfl; exact he hd
    rw [List.append_nil, takeWhile_all hs, dropWhile_all hs]
    exact ⟨rfl, rfl⟩
  | c :: q, hq =>
    have : c = '?' := by simpa using hq
    subst this
    exact ⟨takeWhile_sep he q, dropWhile_sep he q⟩

theorem hexEscape_query {q : Str} (hq : q = [] ∨ q.head? = some '?') :
    hexEscapeNonASCII q = [] ∨ (hexEscapeNonASCII q).head? = some '?' := by
  match q, hq with
  | [], _ => exact .inl rfl
  | c :: q, hq =>
    have : c = '?' := by simpa using hq
    subst this
    rw [hexEscape_cons_low (by decide)]
    exact .inr rfl

theorem named_escape {p q : Str} (hp : ∀ c ∈ p, c.toNat < 256) (hq : q = [] ∨ q.head? = some '?') :
    named (escape .path p ++ q) = segments p := by
  unfold named segments
  rw [(written_parts (fun hm => (escape_plain hp _ hm).1 rfl) hq).1, split_decoded _ (unescape_escape hp)]
  have key : ∀ {s : Str}, (∀ c ∈ s, c.toNat < 256) → ∀ b, b = 'F' ∨ b = 'f' → ¬ ['%', '2', b] <:+: escape .path s := by
    intro s
    induction s with
    | nil => 
      intro _ b _ h
      have := h.length_le
      simp [escape] at this
    | cons c s ih =>
      intro hs b hb h
      have hc := hs c (by simp)
      have ih := ih (fun d hd => hs d (by simp [hd])) b hb
      have hx : ∀ n < 16, upperHex n ≠ '%' := by decide
      rw [escape] at h
      split at h
      · rename_i hsh
        rw [List.infix_cons_iff] at h
        rcases h with h | h
        · obtain ⟨t, ht⟩ := h
          simp only [List.cons_append, List.nil_append, List.cons.injEq, true_and] at ht
          obtain ⟨h1, h2, -⟩ := ht
          have inv : ∀ n < 16, (upperHex n = '2' → n = 2) ∧ (upperHex n = 'F' → n = 15) ∧ upperHex n ≠ 'f' := by decide
          have e1 := (inv _ (show c.toNat / 16 < 16 by omega)).1 h1.symm
          have i2 := inv _ (show c.toNat % 16 < 16 by omega)
          rcases hb with rfl | rfl
          · have e2 := i2.2.1 h2.symm
            have : c = '/' := by
              have : c.toNat = 47 := by omega
              rw [← Char.ofNat_toNat c, this]
            rw [this, shouldEscape_slash] at hsh
            cases hsh
          · exact i2.2.2 h2.symm
        · rw [List.infix_cons_iff] at h
          rcases h with ⟨t, ht⟩ | h
          · simp only [List.cons_append, List.cons.injEq] at ht
            exact hx _ (by omega) ht.1.symm
          · rw [List.infix_cons_iff] at h
            rcases h with ⟨t, ht⟩ | h
            · simp only [List.cons_append, List.cons.injEq] at ht
              exact hx _ (by omega) ht.1.symm
            · exact ih h
      · rename_i hsh
        rw [List.infix_cons_iff] at h
        rcases h with ⟨t, ht⟩ | h
        · simp only [List.cons_append, List.cons.injEq] at ht
          rw [← ht.1, shouldEscape_pct] at hsh
          exact hsh rfl
        · exact ih h
  exact ⟨key hp 'F' (.inl rfl), key hp 'f' (.inr rfl)⟩

/-- C149, in part: a target that begins with a slash is redirected to a path on this server, never to another host. What
is sent can stand in a header. If no slash is encoded in the target, the resource is the same, and the query always has the
same bytes; only an empty query may be dropped. -/
theorem C149_location_partial {routes : List Route} {x : Mux} (hx : mapPathsToHandler routes = some x)
    {method target user loc : Str} {u : Url} (hs : target.head? = some '/') (hb : ∀ c ∈ target, c.toNat < 256)
    (hm : method ≠ "CONNECT".toList) (hu : requestUrl method target = some u)
    (h : x.location method target user u = some loc) :
    loc.head? = some '/' ∧ loc.tail.head? ≠ some '/' ∧ loc.tail.head? ≠ some '\\' ∧
    (∀ c ∈ loc, 0x20 ≤ c.toNat ∧ c.toNat < 0x7f) ∧
    (NoEncodedSlash (writtenPath target) → named loc = named target) ∧
    ((decoded (writtenQuery loc) = decoded (writtenQuery target) ∧
        ((∀ c ∈ writtenQuery target, c.toNat < 128) → writtenQuery loc = writtenQuery target)) ∨
      (writtenQuery loc = [] ∧ writtenQuery target = ['?'])) := by
  obtain ⟨p, q, hc, hp, hseg, -, hq, rfl⟩ := location_origin hx hs hb hm hu h
  have hu' : parseRequestURI target = some u := by
    unfold requestUrl at hu
    rwa [if_neg (fun h => hm h.1)] at hu
  obtain ⟨-, -, -, -, o5, -⟩ := origin_url hs hu'
  have hctl := parseRequestURI_ctl hu'
  have hqm : ∀ c ∈ q, c ∈ target := by
    intro c hcq
    rcases hq with rfl | ⟨rfl, -⟩
    · rw [← written_append target]; exact List.mem_append_right _ hcq
    · cases hcq
  have hqh : q = [] ∨ q.head? = some '?' := by
    rcases hq with rfl | ⟨rfl, -⟩
    · exact writtenQuery_head target
    · exact .inl rfl
  have hqh' := hexEscape_query hqh
  have hpl := escape_plain hp
  have has := escape_ascii hp
  have hnq : '?' ∉ escape .path p := fun hm => (hpl _ hm).1 rfl
  obtain ⟨s, hps, hsh⟩ := canonical_second hc
  have hw := written_parts hnq hqh'
  have hsb : ∀ c ∈ s, c.toNat < 256 := fun c hc => hp c (by rw [hps]; simp [hc])
  have htail : ∀ d, d = '/' ∨ d = '\\' → (escape .path s ++ hexEscapeNonASCII q).head? ≠ some d := by
    intro d hd
    cases s with
    | nil =>
      rw [escape, List.nil_append]
      rcases hqh' with e | e
      · rw [e]; simp
      · rw [e]; rcases hd with rfl | rfl <;> decide
    | cons c s =>
      rw [escape]
      split
      · rcases hd with rfl | rfl <;> simp
      · rename_i hn
        simp only [List.cons_append, List.head?_cons, ne_eq, Option.some.injEq]
        rcases hd with rfl | rfl
        · rintro rfl; exact hsh rfl
        · rintro rfl; exact hn (by decide +kernel)
  have heq : escape .path p ++ hexEscapeNonASCII q = '/' :: (escape .path s ++ hexEscapeNonASCII q) := by
    rw [hps, escape_cons_slash]; rfl
  refine ⟨by rw [heq]; rfl, by rw [heq]; exact htail _ (.inl rfl), by rw [heq]; exact htail _ (.inr rfl), ?_, ?_, ?_⟩
  · intro c hcm
    rcases List.mem_append.mp hcm with hcm | hcm
    · have h1 := hpl c hcm
      have h2 := has c hcm
      omega
    · rcases hexEscape_mem (fun d hd => hb d (hqm d hd)) c hcm with ⟨h1, h2⟩ | h1
      · rw [containsCTL, List.any_eq_false] at hctl
        have := hctl c (hqm c h1)
        simp only [Bool.or_eq_true, decide_eq_true_eq, not_or] at this
        omega
      · omega
  · intro hn
    rw [named_escape hp hqh', hseg]
    unfold named segments
    rw [split_decoded hn o5]
  · rw [hw.2]
    rcases hq with rfl | ⟨rfl, e⟩
    · exact .inl ⟨decoded_hexEscape _ (Nat.le_refl _) (fun c hc => hb c (hqm c hc)), fun ha => hexEscape_ascii ha⟩
    · exact .inr ⟨rfl, e⟩

/-- C149, in part: who follows the redirection of a target that begins with a slash, with whatever method but CONNECT, is
served and not redirected again. Clients do not send the fragment. -/
theorem C149_followed_partial {routes : List Route} {x : Mux} (hx : mapPathsToHandler routes = some x)
    {method target user loc : Str} {u : Url} (hs : target.head? = some '/') (hb : ∀ c ∈ target, c.toNat < 256)
    (hm : method ≠ "CONNECT".toList) (hu : requestUrl method target = some u)
    (h : x.location method target user u = some loc) (method' user' : Str) (hm' : method' ≠ "CONNECT".toList) :
    ∃ u', requestUrl method' (loc.takeWhile (· ≠ '#')) = some u' ∧
      (∃ d, x.serve method' (loc.takeWhile (· ≠ '#')) u'.path = .served d) ∧
      x.location method' (loc.takeWhile (· ≠ '#')) user' u' = none := by
  obtain ⟨p, q, hc, hp, -, hg, hq, rfl⟩ := location_origin hx hs hb hm hu h
  have hu' : parseRequestURI target = some u := by
    unfold requestUrl at hu
    rwa [if_neg (fun h => hm h.1)] at hu
  have hctl := parseRequestURI_ctl hu'
  have hqm : ∀ c ∈ q, c ∈ target := by
    intro c hcq
    rcases hq with rfl | ⟨rfl, -⟩
    · rw [← written_append target]; exact List.mem_append_right _ hcq
    · cases hcq
  have hqh : q = [] ∨ q.head? = some '?' := by
    rcases hq with rfl | ⟨rfl, -⟩
    · exact writtenQuery_head target
    · exact .inl rfl
  have hpl := escape_plain hp
  have hnq : '?' ∉ escape .path p := fun hm => (hpl _ hm).1 rfl
  have hfr : (escape .path p ++ hexEscapeNonASCII q).takeWhile (· ≠ '#') =
      escape .path p ++ (hexEscapeNonASCII q).takeWhile (· ≠ '#') := by
    rw [List.takeWhile_append_of_pos]
    intro c hc
    have := (hpl c hc).2.1
    simpa using this
  rw [hfr]
  have hqh' : (hexEscapeNonASCII q).takeWhile (· ≠ '#') = [] ∨
      ((hexEscapeNonASCII q).takeWhile (· ≠ '#')).head? = some '?' := by
    rcases hexEscape_query hqh with e | e
    · rw [e]; exact .inl rfl
    · cases hq' : hexEscapeNonASCII q with
      | nil => rw [hq'] at e; cases e
      | cons d r =>
        rw [hq'] at e
        have : d = '?' := by simpa using e
        subst this
        right
        rw [List.takeWhile_cons]
        rfl
  have hsub : ∀ c ∈ (hexEscapeNonASCII q).takeWhile (· ≠ '#'), c ∈ hexEscapeNonASCII q :=
    fun c hc => (List.takeWhile_sublist _).subset hc
  generalize (hexEscapeNonASCII q).takeWhile (· ≠ '#') = r at hqh' hsub
  have hcl : containsCTL (escape .path p ++ r) = false := by
    rw [containsCTL, List.any_eq_false]
    intro c hcm
    simp only [Bool.or_eq_true, decide_eq_true_eq, not_or]
    rcases List.mem_append.mp hcm with hcm | hcm
    · have h1 := hpl c hcm
      omega
    · rcases hexEscape_mem (fun d hd => hb d (hqm d hd)) c (hsub c hcm) with ⟨h1, h2⟩ | h1
      · rw [containsCTL, List.any_eq_false] at hctl
        have := hctl c (hqm c h1)
        simp only [Bool.or_eq_true, decide_eq_true_eq, not_or] at this
        omega
      · omega
  obtain ⟨s, hps, hsh⟩ := canonical_second hc
  have heq : escape .path p ++ r = '/' :: (escape .path s ++ r) := by
    rw [hps, escape_cons_slash]; rfl
  have hpath := splitQuery_raw hnq hqh'
  obtain ⟨u', hu1, hu2⟩ : ∃ u', parseRequestURI (escape .path p ++ r) = some u' ∧ u'.path = p := by
    rw [heq] at hcl hpath ⊢
    rw [parseRequestURI_slash hcl, hpath]
    unfold Url.setPath
    rw [unescape_escape hp]
    exact ⟨_, rfl, rfl⟩
  have hstar : escape .path p ++ r ≠ ['*'] := by
    rw [heq]; intro he; exact absurd (List.cons.inj he).1 (by decide)
  have hserved : ∃ d, x.serve method' (escape .path p ++ r) u'.path = .served d := by
    rw [hu2]
    obtain ⟨-, -, h3, h4⟩ := C65_answer hx method' (escape .path p ++ r) p hstar hm'
    rw [hc] at h3 h4
    by_cases ha : p ∈ aboutPaths routes ∨ Under (aboutPaths routes) p
    · exact ⟨_, h3 hg rfl ha⟩
    · exact ⟨_, h4 hg rfl ha⟩
  refine ⟨u', ?_, hserved, ?_⟩
  · unfold requestUrl
    rw [if_neg (fun h => hm' h.1), hu1]
  · obtain ⟨d, hd⟩ := hserved
    unfold Mux.location
    rw [hd]

/-- The two results on a request for about with a query, and on one whose path climbs. -/
example : Demo.aboutMux.location "GET".toList "/about?v=1".toList [] { path := "/about".toList, rawQuery := "v=1".toList } =
      some "/about/?v=1".toList ∧
    requestUrl "GET".toList "/about?v=1".toList = some { path := "/about".toList, rawQuery := "v=1".toList } ∧
    named "/about?v=1".toList = ["about".toList] ∧ named "/about/?v=1".toList = ["about".toList] ∧
    (requestUrl "GET".toList "//evil.example/%2e%2e/a%20b".toList).bind
        (Demo.aboutMux.location "GET".toList "//evil.example/%2e%2e/a%20b".toList []) = some "/a%20b".toList ∧
    named "//evil.example/%2e%2e/a%20b".toList = ["a b".toList] := by
  decide +kernel

/-- C149 as stated fails. A target with an encoded slash in a segment is redirected to another resource, also if there is
nothing to clean in what is written. -/
theorem C149_violated_slash : ∃ routes x target loc, mapPathsToHandler routes = some x ∧ OriginForm target ∧
    (requestUrl "GET".toList target).bind (x.location "GET".toList target []) = some loc ∧
    named target = ["files".toList, "a//b".toList] ∧ named loc = ["files".toList, "a".toList, "b".toList] :=
  ⟨Demo.aboutRoutes, Demo.aboutMux, "/files/a%2F%2Fb".toList, "/files/a/b".toList, Demo.aboutMux_eq,
    ⟨"files/a%2F%2Fb".toList, by decide +kernel, .inl rfl⟩, by decide +kernel, by decide +kernel, by decide +kernel⟩

/-- C149 as stated fails: a target that is a URI with an opaque part is sent back as it is. That is no place on this
server, and who asks for it again gets the same answer. -/
theorem C149_violated_opaque : ∃ routes x target u, mapPathsToHandler routes = some x ∧
    requestUrl "GET".toList target = some u ∧ target.head? ≠ some '/' ∧
    x.location "GET".toList target [] u = some target :=
  ⟨Demo.aboutRoutes, Demo.aboutMux, "javascript:alert(1)".toList,
    { scheme := "javascript".toList, opaq := "alert(1)".toList }, Demo.aboutMux_eq,
    by decide +kernel, by decide, by decide +kernel⟩

/-- C149 as stated fails: a number sign in the query, which `net/http` takes for a part of the query, begins a fragment in
`Location`; clients ask without it. -/
theorem C149_violated_fragment : ∃ routes x target loc u, mapPathsToHandler routes = some x ∧
    requestUrl "GET".toList target = some u ∧ u.rawQuery = "x=1#2&y=3".toList ∧
    x.location "GET".toList target [] u = some loc ∧ writtenQuery (loc.takeWhile (· ≠ '#')) = "?x=1".toList :=
  ⟨Demo.aboutRoutes, Demo.aboutMux, "/about?x=1#2&y=3".toList, "/about/?x=1#2&y=3".toList,
    { path := "/about".toList, rawQuery := "x=1#2&y=3".toList }, Demo.aboutMux_eq,
    by decide +kernel, by decide, by decide +kernel, by decide +kernel⟩

end J8a

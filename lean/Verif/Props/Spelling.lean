import Verif.Props.Target
/-!
# C93 to C95: which targets a route answers for
-/
namespace J8a
open Go Uri

variable {K : Type}

/-! ## C93: spellings of a path -/

theorem normal_cons {c : Char} (h : c ≠ '%') (r : Str) : normal (c :: r) = c :: normal r := by
  rw [normal.eq_def]
  simp only
  split
  · exact absurd rfl h
  · rfl

theorem unencoded_tail {c : Char} {r : Str} (h : Unencoded (c :: r)) : Unencoded r := by
  rw [Unencoded.eq_def] at h
  simp only at h
  split at h
  · exact h.2
  · exact h

/-- Normalising does not change what stands in front of the first `%`, nor that it stands there. -/
theorem normal_prefix : ∀ {w s : Str}, '%' ∉ w → Unencoded s → (w <+: normal s ↔ w <+: s)
  | [], s, _, _ => by simp
  | d :: w, [], _, _ => by simp [normal]
  | d :: w, c :: r, hw, hs => by
    simp only [List.mem_cons, not_or] at hw
    by_cases hc : c = '%'
    · subst hc
      have h1 : ∃ y, normal ('%' :: r) = '%' :: y := by
        rw [Unencoded.eq_def] at hs
        rw [normal.eq_def]
        simp only at hs ⊢
        split
        · rename_i h0
          simp only at hs
          split
          · rename_i hab
            rw [if_neg (hs.1 hab)]
            exact ⟨_, rfl⟩
          · exact ⟨_, rfl⟩
        · exact ⟨_, rfl⟩
      obtain ⟨y, hy⟩ := h1
      rw [hy, List.cons_prefix_cons, List.cons_prefix_cons]
      constructor <;> (rintro ⟨h, -⟩; exact absurd h.symm hw.1)
    · rw [normal_cons hc, List.cons_prefix_cons, List.cons_prefix_cons,
        normal_prefix hw.2 (unencoded_tail hs)]

theorem plainRoute_prefix {E : Regexp} (hE : E.LiteralLaw) {r : Route} (hr : PlainRoute r) (t : Str) :
    r.matchURI E t = true ↔ r.path <+: t := by
  rw [plainRoute_match hE hr]
  exact ⟨fun ⟨rest, h⟩ => ⟨rest, h.symm⟩, fun ⟨rest, h⟩ => ⟨rest, h.symm⟩⟩

/-- C93: with plain routes without `%`, equivalent spellings of a target get the same decision, and so the
same route and the same token check, if neither encodes an unreserved character. Full statement: for all
equivalent spellings; missing: encoded unreserved characters (`C93_violated`). -/
theorem C93_same_partial (E : Regexp) (hE : E.LiteralLaw) (L : Jwx K) (c : Config (Jwt K))
    (hr : ∀ r ∈ c.routes, PlainRoute r ∧ '%' ∉ r.path) (pick : Policy → Str) (now : Int) (pb : ParsedBody)
    (rq : Request) (t : Str) (he : Equivalent rq.requestURI t) (h1 : Unencoded rq.requestURI)
    (h2 : Unencoded t) :
    dispatch E c.routes rq.requestURI = dispatch E c.routes t ∧
    decision E L c pick now pb rq = decision E L c pick now pb { rq with requestURI := t } := by
  have hd : ∀ l : List Route, (∀ r ∈ l, PlainRoute r ∧ '%' ∉ r.path) →
      l.find? (fun r => r.matchURI E rq.requestURI) = l.find? (fun r => r.matchURI E t) := by
    intro l hl
    induction l with
    | nil => rfl
    | cons r l ih =>
      have hrr := hl r (by simp)
      have : r.matchURI E rq.requestURI = r.matchURI E t := by
        rw [Bool.eq_iff_iff, plainRoute_prefix hE hrr.1, plainRoute_prefix hE hrr.1,
          ← normal_prefix hrr.2 h1, ← normal_prefix hrr.2 h2, he]
      rw [List.find?_cons, List.find?_cons, this, ih (fun r hr => hl r (by simp [hr]))]
  have hdis : dispatch E c.routes rq.requestURI = dispatch E c.routes t := hd _ hr
  refine ⟨hdis, ?_⟩
  unfold decision
  simp only [hdis]
  rfl

/-- An encoded byte. -/
def encoded (c : Char) : Str := ['%', upperHex (c.toNat / 16), upperHex (c.toNat % 16)]

theorem encoded_normal : ∀ c ∈ unreserved, ∀ r, normal (encoded c ++ r) = c :: normal r := by
  intro c hc r
  have h : ∀ c ∈ unreserved, upperHex (c.toNat / 16) ∈ hexdig ∧ upperHex (c.toNat % 16) ∈ hexdig ∧
      Char.ofNat (16 * hexVal (upperHex (c.toNat / 16)) + hexVal (upperHex (c.toNat % 16))) = c := by decide +kernel
  obtain ⟨h1, h2, h3⟩ := h c hc
  show normal ('%' :: upperHex (c.toNat / 16) :: upperHex (c.toNat % 16) :: r) = _
  rw [normal.eq_def]
  simp only
  rw [if_pos ⟨h1, h2⟩, h3, if_pos hc]

/-- C93 fails for every plain route with something behind the slash: the target with that character encoded is
another spelling of the same, and the route does not match it. -/
theorem C93_violated (E : Regexp) (hE : E.LiteralLaw) (r : Route) (hr : PlainRoute r) (c : Char) (t rest : Str)
    (hp : r.path = '/' :: c :: t) (hc : c ∈ unreserved) :
    Equivalent (r.path ++ rest) ('/' :: encoded c ++ t ++ rest) ∧
    r.matchURI E (r.path ++ rest) = true ∧ r.matchURI E ('/' :: encoded c ++ t ++ rest) = false := by
  have hn : c ≠ '%' := by rintro rfl; revert hc; decide
  refine ⟨?_, (plainRoute_prefix hE hr _).mpr ⟨rest, rfl⟩, ?_⟩
  · unfold Equivalent
    rw [hp]
    rw [show '/' :: c :: t ++ rest = '/' :: c :: (t ++ rest) from rfl, normal_cons (by decide), normal_cons hn,
      show '/' :: encoded c ++ t ++ rest = '/' :: (encoded c ++ (t ++ rest)) from by simp,
      normal_cons (by decide), encoded_normal c hc]
  · rw [← Bool.not_eq_true, plainRoute_prefix hE hr, hp]
    rw [show '/' :: encoded c ++ t ++ rest = '/' :: '%' :: (upperHex (c.toNat / 16) :: upperHex (c.toNat % 16) :: (t ++ rest)) from by
      simp [encoded]]
    rw [List.cons_prefix_cons, List.cons_prefix_cons]
    exact fun h => hn h.2.1

/-- A gateway whose route `/a` asks for a token and whose route `/` does not. -/
def Demo.tokenOnA (target : String) : Setup Nat :=
  { Demo.targeted "" target with
    c := { Demo.config with
      routes := [{ Demo.route with jwt := "j".toList }, { Demo.route with path := ['/'], pathRegex := some ['^', '/'] }]
      jwt := [("j".toList, { alg := "HS256".toList, secret := [⟨"k".toList, 1⟩] })] } }

/-- C93 fails: `/a/x` is refused without a token, `/%61/x` is sent on to the upstream. -/
theorem C93_violated_token : Equivalent "/a/x".toList "/%61/x".toList ∧
    (∃ msg, (Demo.tokenOnA "/a/x").dec = .respond 401 msg) ∧
    ∃ s, (Demo.tokenOnA "/%61/x").Reaches s ∧ s.calls.map (fun p => wireTarget p.2) = [some "/%61/x".toList] := by
  refine ⟨(by decide +kernel : normal "/a/x".toList = normal "/%61/x".toList), ⟨"jwt bearer token missing, invalid, expired or unauthorized".toList, by decide +kernel⟩, ?_⟩
  obtain ⟨s, h1, h2⟩ := Demo.of_check (x := Demo.tokenOnA "/%61/x") (as := Demo.success Demo.ok)
    (p := fun s => s.calls.map (fun p => wireTarget p.2) == [some "/%61/x".toList]) (by decide +kernel)
  exact ⟨s, Demo.reaches h1, by simpa using h2⟩

/-- The hypotheses of `C93_same_partial`: two spellings of an encoded slash. -/
example : Equivalent "/a%2fb".toList "/a%2Fb".toList ∧ Unencoded "/a%2fb".toList ∧ Unencoded "/a%2Fb".toList ∧
    "/a%2fb".toList ≠ "/a%2Fb".toList := by
  refine ⟨(by decide +kernel : normal "/a%2fb".toList = normal "/a%2Fb".toList), ?_, ?_, by decide⟩ <;> simp [Unencoded] <;> decide +kernel

/-! ## C94: targets in absolute form -/

/-- C94 fails everywhere: with plain routes a target that does not start with a slash, in absolute form or
the authority form of CONNECT, is never sent on; a proper request is answered with 404. -/
theorem C94_violated (x : Setup K) (s : St) (h : x.Reaches s) (hE : x.E.LiteralLaw)
    (hr : ∀ r ∈ x.c.routes, PlainRoute r) (hs : x.rq.requestURI.head? ≠ some '/') :
    s.calls = [] ∧ (-1 ≤ x.rq.contentLength → toUpper x.rq.method ∈ proxiedMethods →
      ¬ DeclaredTooLarge x.maxBody x.rq → s.pc = .done →
      s.sent = [jsonResponse x.respEnv 404 notFoundMsg]) := by
  have hno : ∀ r ∈ x.c.routes, r.matchURI x.E x.rq.requestURI = false := by
    intro r hm
    rw [← Bool.not_eq_true, plainRoute_match hE (hr r hm)]
    rintro ⟨rest, h0⟩
    obtain ⟨t, ht⟩ := (hr r hm).slash
    rw [h0, ht] at hs
    exact hs rfl
  refine ⟨?_, fun hl hm hb hd => (C02_unrouted x s h hl hm hb hno).2.2 hd⟩
  cases hc : s.calls with
  | nil => rfl
  | cons p ps =>
    obtain ⟨r, u, l, hd⟩ := forward_of_calls h (by rw [hc]; simp)
    obtain ⟨-, -, hdi, -⟩ := decision_forward hd
    have h0 : dispatch x.E x.c.routes x.rq.requestURI = none := dispatch_none.2 hno
    rw [h0] at hdi
    cases hdi

theorem absoluteForm_head {t : Str} (h : AbsoluteForm t) : t.head? ≠ some '/' := by
  obtain ⟨s, rest, hs, hc, rfl⟩ := h
  match s, hs, hc with
  | c :: s, _, hc =>
    have := hc c (by simp)
    intro h0
    obtain rfl : c = '/' := by simpa using h0
    revert this
    decide

/-- C94, a case: the same request in origin form and in absolute form. `net/http` takes both. -/
theorem C94_violated_demo : AbsoluteForm "http://gw/a/x".toList ∧
    (∃ u, (Demo.targeted "" "http://gw/a/x").rq.From u ∧ u.requestURI = "/a/x".toList) ∧
    (∃ r u l, (Demo.targeted "" "/a/x").dec = .forward r u l) ∧
    (Demo.targeted "" "http://gw/a/x").dec = .respond 404 "upstream resource not found".toList := by
  refine ⟨⟨"http".toList, "gw/a/x".toList, by decide, by decide, by decide⟩, ?_,
    ⟨Demo.route, Demo.url, "default".toList, by decide +kernel⟩, by decide +kernel⟩
  have h0 : (requestUrl "get".toList "http://gw/a/x".toList).map Url.requestURI = some "/a/x".toList := by decide +kernel
  obtain ⟨u, hu, hu'⟩ := Option.map_eq_some_iff.mp h0
  exact ⟨u, Demo.targeted_url hu, hu'⟩

/-! ## C95: segments are not torn apart -/

/-- C95: a request sent on was matched by a route that its target starts with; for routes ending in a slash
it is at the path of the route or below it. Full statement: for every route; missing: routes that do not end
in a slash (`C95_violated`). -/
theorem C95_below_partial (x : Setup K) (s : St) (h : x.Reaches s) (hE : x.E.LiteralLaw)
    (hr : ∀ r ∈ x.c.routes, PlainRoute r) (hc : s.calls ≠ []) :
    ∃ r ∈ x.c.routes, dispatch x.E x.c.routes x.rq.requestURI = some r ∧
      (∃ rest, x.rq.requestURI = r.path ++ rest) ∧
      (r.path.getLast? = some '/' → Below r.path x.rq.requestURI) ∧
      ∀ r' ∈ x.c.routes, Below r'.path x.rq.requestURI → x.c.routes.Pairwise (fun a b => b.path.length ≤ a.path.length) →
        r'.path.length ≤ r.path.length := by
  obtain ⟨r, u, l, hd⟩ := forward_of_calls h hc
  obtain ⟨-, -, hdi, -⟩ := decision_forward hd
  have hmem : r ∈ x.c.routes := List.mem_of_find?_eq_some hdi
  have hmat : r.matchURI x.E x.rq.requestURI = true := by
    have := List.find?_some hdi
    exact this
  obtain ⟨rest, hrest⟩ := (plainRoute_match hE (hr r hmem) _).mp hmat
  refine ⟨r, hmem, hdi, ⟨rest, hrest⟩, fun hl => .inr (.inr ⟨hl, rest, hrest⟩), ?_⟩
  intro r' hr' hb hsorted
  have hm' : r'.matchURI x.E x.rq.requestURI = true := by
    rw [plainRoute_match hE (hr r' hr')]
    rcases hb with h | ⟨rest, h | h⟩ | ⟨-, rest, h⟩
    · exact ⟨[], by simp [h]⟩
    · exact ⟨_, h⟩
    · exact ⟨_, h⟩
    · exact ⟨_, h⟩
  obtain ⟨-, as, bs, hl, hno⟩ := List.find?_eq_some_iff_append.mp hdi
  rw [hl] at hsorted hr'
  rcases List.mem_append.mp hr' with h1 | h1
  · have := hno r' h1
    rw [hm'] at this
    cases this
  · rcases List.mem_cons.mp h1 with rfl | h1
    · exact Nat.le_refl _
    · exact (List.pairwise_cons.mp (List.pairwise_append.mp hsorted).2.1).1 r' h1

/-- C95 fails for every plain route that does not end in a slash: it answers for its path with anything
appended to its last segment. -/
theorem C95_violated (E : Regexp) (hE : E.LiteralLaw) (r : Route) (hr : PlainRoute r)
    (hl : r.path.getLast? ≠ some '/') (c : Char) (rest : Str) (hc : c ≠ '/' ∧ c ≠ '?') :
    r.matchURI E (r.path ++ c :: rest) = true ∧ ¬ Below r.path (r.path ++ c :: rest) := by
  refine ⟨(plainRoute_match hE hr _).mpr ⟨_, rfl⟩, ?_⟩
  rintro (h | ⟨rest', h | h⟩ | ⟨h, -⟩)
  · simp at h
  · exact hc.1 (List.cons.inj (List.append_cancel_left h)).1
  · exact hc.2 (List.cons.inj (List.append_cancel_left h)).1
  · exact hl h

/-- A gateway whose route `/a` is open and whose route `/` asks for a token. -/
def Demo.fenced (target : String) : Setup Nat :=
  { Demo.targeted "" target with
    c := { Demo.config with
      routes := [Demo.route, { Demo.route with path := ['/'], pathRegex := some ['^', '/'], jwt := "j".toList }]
      jwt := [("j".toList, { alg := "HS256".toList, secret := [⟨"k".toList, 1⟩] })] } }

/-- C95 fails: `/b` is refused without a token; `/account` is sent on, because the open route is `/a`. -/
theorem C95_violated_token : ¬ Below "/a".toList "/account".toList ∧
    (∃ msg, (Demo.fenced "/b").dec = .respond 401 msg) ∧
    ∃ s, (Demo.fenced "/account").Reaches s ∧ s.calls.map (fun p => wireTarget p.2) = [some "/account".toList] := by
  refine ⟨?_, ⟨"jwt bearer token missing, invalid, expired or unauthorized".toList, by decide +kernel⟩, ?_⟩
  · rintro (h | ⟨rest', h | h⟩ | ⟨h, -⟩) <;> simp at h
  · obtain ⟨s, h1, h2⟩ := Demo.of_check (x := Demo.fenced "/account") (as := Demo.success Demo.ok)
      (p := fun s => s.calls.map (fun p => wireTarget p.2) == [some "/account".toList]) (by decide +kernel)
    exact ⟨s, Demo.reaches h1, by simpa using h2⟩

/-- The hypotheses of `C95_below_partial`: both kinds of route. -/
example : ∃ s, (Demo.tokenOnA "/b/c").Reaches s ∧ s.calls ≠ [] ∧
    dispatch literalEngine (Demo.tokenOnA "/b/c").c.routes "/b/c".toList =
      some { Demo.route with path := ['/'], pathRegex := some ['^', '/'] } ∧ Below ['/'] "/b/c".toList := by
  obtain ⟨s, h1, h2⟩ := Demo.of_check (x := Demo.tokenOnA "/b/c") (as := Demo.success Demo.ok)
    (p := fun s => !s.calls.isEmpty) (by decide +kernel)
  exact ⟨s, Demo.reaches h1, by simpa using h2, by decide +kernel, .inr (.inr ⟨rfl, "b/c".toList, rfl⟩)⟩

end J8a

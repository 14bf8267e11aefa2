import Verif.Lemmas.Anchor
import Verif.Lemmas.RePhrases
import Verif.Lemmas.Config
import Verif.Props.Route
/-!
# C108–C111 — route paths as regular expressions
-/
namespace J8a
open Go Syn

variable {J : Type}

/-! ## Literal texts -/

theorem tok1_literal {c : Char} (h : c ∉ metaChars) (r : Str) : tok1 c r = ([.piece (.lit c)], some r) := by
  have h' : ∀ d ∈ metaChars, c ≠ d := fun d hd hc => h (hc ▸ hd)
  unfold tok1
  rw [if_neg (h' '^' (by decide)), if_neg (h' '$' (by decide)), if_neg (h' '.' (by decide)),
    if_neg (h' '|' (by decide)), if_neg (h' ')' (by decide)), if_neg (h' '*' (by decide)),
    if_neg (h' '+' (by decide)), if_neg (h' '?' (by decide)), if_neg]
  intro hc
  have : c ∈ metaChars := (show ∀ d ∈ "({[\\".toList, d ∈ metaChars by decide) c hc
  exact h this

theorem tok_literal : ∀ (p s : Str), Literal p →
    tokens (p ++ s) = p.map (fun c => .piece (.lit c)) ++ tokens s := by
  intro p
  induction p with
  | nil => intro s _; rfl
  | cons c p ih =>
    intro s h
    have := ih s fun d hd => h d (by simp [hd])
    unfold tokens at this ⊢
    simp only [List.cons_append, List.length_cons, tok]
    rw [tok1_literal (h c (by simp))]
    simp only [List.map_cons, List.cons_append, List.nil_append]
    rw [this]

theorem fold_literal (p : Str) : ∀ (f : Frame) (below : List Frame),
    (p.map (fun c => Tok.piece (.lit c))).foldl pstep (.run f below false) =
      .run { f with pieces := p.reverse.map .lit ++ f.pieces } below false := by
  induction p with
  | nil => intro f below; rfl
  | cons c p ih => intro f below; simp [pstep, ih]

/-- `p` stands in `w` at position `i`. -/
def At (w p : Str) (i : Nat) : Prop := ∃ a b, w = a ++ (p ++ b) ∧ a.length = i

theorem lit_iff (w : Str) (c : Char) (i j : Nat) : Re.Matches w (.lit c) i j ↔ j = i + 1 ∧ w[i]? = some c := by
  simp only [Re.lit, Re.Matches, List.mem_singleton]
  constructor
  · rintro ⟨h, d, hd, ⟨-, p, rfl, h1, h2⟩ | ⟨h, -⟩⟩
    · exact ⟨h, by rw [hd]; congr 1; exact Char.le_antisymm h2 h1⟩
    · cases h
  · rintro ⟨h, hd⟩
    exact ⟨h, c, hd, .inl ⟨trivial, _, rfl, Char.le_refl c, Char.le_refl c⟩⟩

theorem literal_iff (w : Str) : ∀ (p : Str) (i j : Nat), i ≤ w.length →
    (Re.Matches w (catRev (p.reverse.map .lit)) i j ↔ j = i + p.length ∧ At w p i) := by
  intro p
  induction p with
  | nil =>
    intro i j hi
    simp only [List.reverse_nil, List.map_nil, catRev, Re.Matches, List.length_nil, Nat.add_zero]
    refine ⟨fun h => ⟨h.symm, w.take i, w.drop i, by simp, by simp [hi]⟩, fun h => h.1.symm⟩
  | cons c p ih =>
    intro i j hi
    simp only [List.reverse_cons, List.map_append, List.map_cons, List.map_nil, catRev_append, lit_iff]
    constructor
    · rintro ⟨k, ⟨rfl, hc⟩, h⟩
      obtain ⟨hlt, hc⟩ := List.getElem?_eq_some_iff.1 hc
      obtain ⟨h1, a, b, h2, h3⟩ := (ih (i + 1) j (by omega)).1 h
      refine ⟨by simp; omega, w.take i, b, ?_, by simp [hi]⟩
      have ha : a = w.take (i + 1) := by rw [h2, ← h3]; simp
      rw [List.take_succ_eq_append_getElem hlt, hc] at ha
      exact h2.trans ((congrArg (· ++ (p ++ b)) ha).trans (by simp))
    · rintro ⟨h1, a, b, h2, h3⟩
      refine ⟨i + 1, ⟨rfl, ?_⟩, ?_⟩
      · rw [h2, ← h3]; simp
      · have hl : i < w.length := by rw [h2, ← h3]; simp
        refine (ih (i + 1) j (by omega)).2 ⟨by simp at h1; omega, a ++ [c], b, by simp [h2], by simp [h3]⟩

theorem parse_literal {p : Str} (h : Literal p) : parseRe p = .ok (catRev (p.reverse.map .lit)) := by
  unfold parseRe
  have := tok_literal p [] h
  rw [List.append_nil] at this
  rw [this, show tokens [] = [] from rfl, List.append_nil, fold_literal]
  simp [pfinish, Frame.close, altRev]

theorem parse_anchored_literal {p : Str} (h : Literal p) :
    parseRe ('^' :: p) = .ok (catRev (p.reverse.map .lit ++ [.bol])) := by
  unfold parseRe
  have := tok_literal p [] h
  rw [List.append_nil] at this
  rw [tokens_bol, this, show tokens [] = [] from rfl, List.append_nil, List.foldl_cons]
  simp only [pstep, fold_literal]
  simp [pfinish, Frame.close, altRev]

/-- The law that other statements assume holds for this engine. -/
theorem goRegexp_law (X : Regexp) : (goRegexp X).LiteralLaw := by
  intro p hp
  simp only [goRegexp, parse_anchored_literal hp, true_and]
  intro s
  rw [matchString_iff]
  simp only [catRev_append, Re.Matches]
  constructor
  · rintro ⟨i, hi, j, k, ⟨rfl, rfl⟩, h⟩
    obtain ⟨-, a, b, h1, h2⟩ := (literal_iff s p 0 j (by omega)).1 h
    rw [List.eq_nil_of_length_eq_zero h2] at h1
    exact ⟨b, h1⟩
  · rintro ⟨rest, h⟩
    exact ⟨0, by omega, 0 + p.length, 0, ⟨rfl, rfl⟩, (literal_iff s p 0 _ (by omega)).2 ⟨rfl, [], rest, h, rfl⟩⟩

/-! ## C108 -/

theorem booted_mem {E : Regexp} {validate : Str → J → Option J} {srt} (hs : IsRouteSort srt) {c c' : Config J}
    (h : boot E validate srt c = some c') : ∀ r, r ∈ c'.routes ↔
      ∃ r0 ∈ c.routes, r = { r0 with pathRegex := some ('^' :: r0.path), path := addSlash r0.path } := by
  intro r
  obtain ⟨-, -, -, -, hr, -, -, -⟩ := boot_elim h
  rw [hr, (hs _).1.mem_iff, List.mem_map]
  constructor
  · rintro ⟨r0, h0, h1⟩; exact ⟨r0, h0, h1.symm⟩
  · rintro ⟨r0, h0, h1⟩; exact ⟨r0, h0, h1.symm⟩

theorem fold_bad (ts : List Tok) : ts.foldl pstep .bad = .bad := by
  induction ts with
  | nil => rfl
  | cons t ts ih => exact ih

theorem repFirst_bad : ∀ {ts : List Tok}, repFirst ts = true → ts.foldl pstep (.run {} [] false) = .bad := by
  intro ts
  induction ts with
  | nil => intro h; cases h
  | cons k ts ih =>
    intro h
    cases k with
    | rep op => simp [pstep, fold_bad]
    | nop => exact ih h
    | _ => cases h

theorem startsWithRep_bad {p : Str} (h : startsWithRep p = true) : parseRe p = .bad := by
  unfold parseRe
  rw [repFirst_bad h]
  rfl

theorem not_startsWithRep {p : Str} {e : Re} (h : parseRe p = .ok e) : startsWithRep p = false := by
  cases hs : startsWithRep p with
  | false => rfl
  | true => rw [startsWithRep_bad hs] at h; cases h

/-- What a route path that is a regular expression matches. Its alternatives outside of parentheses are
`first` and `later`. The anchor belongs to `first` only. -/
theorem C108_exact (X : Regexp) (p : Str) (e : Re) (hs : Syntax p e) :
    ∃ (first : Re) (later : List Re),
      (∀ w i j, Re.Matches w e i j ↔ Re.Matches w first i j ∨ ∃ r ∈ later, Re.Matches w r i j) ∧
      ('|' ∉ p → later = []) ∧
      (goRegexp X).compiles ('^' :: p) = true ∧
      ∀ t, (goRegexp X).isMatch ('^' :: p) t = true ↔
        (∃ j, Re.Matches t first 0 j) ∨ ∃ r ∈ later, ∃ i ≤ t.length, ∃ j, Re.Matches t r i j := by
  have he := (parse_iff p e).2 hs
  obtain ⟨b, hb, hb'⟩ : ∃ b : Bool, (b = true → Tok.bar ∉ tokens p) ∧ ('|' ∉ p → b = true) := by
    by_cases h : '|' ∈ p
    · exact ⟨false, by simp, fun h' => absurd h h'⟩
    · exact ⟨true, fun _ hm => h (bar_mem _ _ hm), fun _ => rfl⟩
  have ha := parse_anchor p (not_startsWithRep he) b hb
  rw [he] at ha
  generalize hq : parseRe ('^' :: p) = q at ha
  cases ha with
  | ok later ps hl =>
    refine ⟨catRev ps, later, fun w i j => ?_, fun h => hl (hb' h), by simp [goRegexp, hq], fun t => ?_⟩
    · rw [altRev_iff _ _ _ _ (by simp)]
      simp only [List.mem_append, List.mem_singleton]
      constructor
      · rintro ⟨r, h | rfl, hm⟩
        · exact .inr ⟨r, h, hm⟩
        · exact .inl hm
      · rintro (hm | ⟨r, h, hm⟩)
        · exact ⟨_, .inr rfl, hm⟩
        · exact ⟨r, .inl h, hm⟩
    · simp only [goRegexp, hq, matchString_iff]
      constructor
      · rintro ⟨i, hi, j, hm⟩
        rw [altRev_iff _ _ _ _ (by simp)] at hm
        obtain ⟨r, hr, hm⟩ := hm
        rw [List.mem_append, List.mem_singleton] at hr
        rcases hr with hr | rfl
        · exact .inr ⟨r, hr, i, hi, j, hm⟩
        · obtain ⟨k, ⟨rfl, rfl⟩, hm⟩ := (catRev_append t .bol ps i j).1 hm
          exact .inl ⟨j, hm⟩
      · rintro (⟨j, hm⟩ | ⟨r, hr, i, hi, j, hm⟩)
        · exact ⟨0, by omega, j, (altRev_iff _ _ _ _ (by simp)).2
            ⟨_, List.mem_append_right _ (List.mem_singleton.2 rfl),
              (catRev_append t .bol ps 0 j).2 ⟨0, ⟨rfl, rfl⟩, hm⟩⟩⟩
        · exact ⟨i, hi, j, (altRev_iff _ _ _ _ (by simp)).2 ⟨r, List.mem_append_left _ hr, hm⟩⟩

/-- C108, the part that holds: a route whose path is a regular expression without `|` matches exactly the
targets at whose beginning the expression matches. Missing: paths with `|`, for which `C108_exact` says what
happens. -/
theorem C108_anchored_partial (X : Regexp) {validate : Str → J → Option J} {srt} (hs : IsRouteSort srt)
    {c c' : Config J} (h : boot (goRegexp X) validate srt c = some c') :
    ∀ r ∈ c'.routes, ∃ r0 ∈ c.routes, r.path = addSlash r0.path ∧ r.transform = r0.transform ∧ r.jwt = r0.jwt ∧
      ∀ e, Syntax r0.path e → '|' ∉ r0.path → ∀ t,
        (r.matchURI (goRegexp X) t = true ↔ ∃ j, Re.Matches t e 0 j) := by
  intro r hr
  obtain ⟨r0, h0, rfl⟩ := (booted_mem hs h r).1 hr
  refine ⟨r0, h0, rfl, rfl, rfl, fun e he hb t => ?_⟩
  obtain ⟨first, later, h1, h2, -, h4⟩ := C108_exact X r0.path e he
  rw [h2 hb] at h1 h4
  show (goRegexp X).isMatch _ t = true ↔ _
  rw [h4]
  simp [h1]

theorem tokens_bar (p : Str) : tokens ('|' :: p) = .bar :: tokens p := by
  simp [tokens, tok, tok1]

/-- C108 fails for every two literal texts: as the path `p|q` they match every target that begins with `p` and
every target that has `q` anywhere. -/
theorem C108_violated_always (X : Regexp) (p q : Str) (hp : Literal p) (hq : Literal q) :
    (goRegexp X).compiles ('^' :: (p ++ '|' :: q)) = true ∧
    ∀ t, (goRegexp X).isMatch ('^' :: (p ++ '|' :: q)) t = true ↔ p <+: t ∨ q <:+: t := by
  have hpar : parseRe ('^' :: (p ++ '|' :: q)) =
      .ok (altRev [catRev (q.reverse.map .lit), catRev (p.reverse.map .lit ++ [.bol])]) := by
    unfold parseRe
    have hq' := tok_literal q [] hq
    rw [List.append_nil, show tokens [] = [] from rfl, List.append_nil] at hq'
    rw [tokens_bol, tok_literal _ _ hp, tokens_bar, hq', List.foldl_cons, List.foldl_append, List.foldl_cons]
    simp only [pstep, fold_literal]
    simp [pfinish, Frame.close]
  refine ⟨by simp [goRegexp, hpar], fun t => ?_⟩
  simp only [goRegexp, hpar, matchString_iff]
  constructor
  · rintro ⟨i, hi, j, hm⟩
    rw [altRev_iff _ _ _ _ (by simp)] at hm
    obtain ⟨r, hr, hm⟩ := hm
    simp only [List.mem_cons, List.not_mem_nil, or_false] at hr
    rcases hr with rfl | rfl
    · obtain ⟨-, a, b, h1, -⟩ := (literal_iff t q i j hi).1 hm
      exact .inr ⟨a, b, by simp [h1]⟩
    · obtain ⟨k, ⟨rfl, rfl⟩, hm⟩ := (catRev_append t .bol _ i j).1 hm
      obtain ⟨-, a, b, h1, h2⟩ := (literal_iff t p 0 j (by omega)).1 hm
      rw [List.eq_nil_of_length_eq_zero h2] at h1
      exact .inl ⟨b, h1.symm⟩
  · rintro (⟨b, h⟩ | ⟨a, b, h⟩)
    · exact ⟨0, by omega, 0 + p.length, (altRev_iff _ _ _ _ (by simp)).2 ⟨_, .tail _ (.head _),
        (catRev_append t .bol _ 0 _).2 ⟨0, ⟨rfl, rfl⟩,
          (literal_iff t p 0 _ (by omega)).2 ⟨rfl, [], b, h.symm, rfl⟩⟩⟩⟩
    · have hl : a.length ≤ t.length := by rw [← h]; simp
      exact ⟨a.length, hl, a.length + q.length, (altRev_iff _ _ _ _ (by simp)).2 ⟨_, .head _,
        (literal_iff t q a.length _ hl).2 ⟨rfl, a, b, by simp [← h], rfl⟩⟩⟩

/-- C108 fails: a gateway with the one route `/a|/b` sends a request for `/x/b` there. -/
theorem C108_violated :
    ∃ (c' : Config Unit) (e : Re),
      boot (goRegexp literalEngine) (fun _ _ => some ()) exSort { routes := [{ path := "/a|/b".toList }] } = some c' ∧
      Syntax "/a|/b".toList e ∧
      (dispatch (goRegexp literalEngine) c'.routes "/x/b".toList).isSome = true ∧
      ∀ j, ¬ Re.Matches "/x/b".toList e 0 j := by
  refine ⟨_, .alt (.cat (.lit '/') (.lit 'a')) (.cat (.lit '/') (.lit 'b')), rfl, (parse_iff _ _).1 (by decide +kernel),
    by decide +kernel, fun j hj => ?_⟩
  have := ((mem_ends "/x/b".toList _).2 0 j (by decide)).2 hj
  rw [show Re.ends "/x/b".toList (.alt (.cat (.lit '/') (.lit 'a')) (.cat (.lit '/') (.lit 'b'))) 0 = []
    by decide +kernel] at this
  cases this

/-- The hypotheses of `C108_anchored_partial` hold for a path with a class and a repetition, which matches one
target and not another. -/
example : ∃ (c' : Config Unit) (r : Route) (e : Re),
    boot (goRegexp literalEngine) (fun _ _ => some ()) exSort { routes := [{ path := "/v[0-9]+/x".toList }] } = some c' ∧
    Syntax "/v[0-9]+/x".toList e ∧ '|' ∉ "/v[0-9]+/x".toList ∧ c'.routes = [r] ∧
    r.matchURI (goRegexp literalEngine) "/v12/x/y".toList = true ∧
    r.matchURI (goRegexp literalEngine) "/w/v12/x/y".toList = false := by
  refine ⟨_, _, _, rfl, (parse_iff _ _).1 rfl, by decide, rfl, by decide +kernel, by decide +kernel⟩

/-! ## C109 -/

/-- C109, the part that holds: a path that is no regular expression, and does not begin with a repetition,
stops the boot. Missing: paths like `*a` (`C109_violated_always`), and paths with syntax that is not modelled. -/
theorem C109_refused_partial (X : Regexp) (validate : Str → J → Option J) (srt) (c : Config J) (r : Route)
    (hr : r ∈ c.routes) (hn : ∀ e, ¬ Syntax r.path e) (ho : parseRe r.path ≠ .other)
    (hs : ¬ BeginsWithRep r.path) :
    boot (goRegexp X) validate srt c = none := by
  have hb : parseRe r.path = .bad := by
    cases h : parseRe r.path with
    | ok e => exact absurd ((parse_iff _ _).1 h) (hn e)
    | bad => rfl
    | other => exact absurd h ho
  have hs : startsWithRep r.path = false := by
    cases h : startsWithRep r.path with
    | false => rfl
    | true => exact absurd (repFirst_begins _ _ h) hs
  refine C13_boot_refused _ validate srt c r hr (.inl ?_)
  have ha := parse_anchor r.path hs false (by simp)
  rw [hb] at ha
  generalize hq : parseRe ('^' :: r.path) = q at ha
  cases ha
  simp [goRegexp, hq]

/-- What compiles, among texts in the modelled syntax: exactly the regular expressions. -/
theorem C109_exact (X : Regexp) (p : Str) (ho : parseRe p ≠ .other) :
    (goRegexp X).compiles p = true ↔ ∃ e, Syntax p e := by
  simp only [← parse_iff, goRegexp]
  generalize parseRe p = q at ho
  cases q with
  | ok e => simp
  | bad => simp
  | other => exact absurd rfl ho

/-- A path that is a regular expression never stops the boot by itself. -/
theorem C109_accepted (X : Regexp) (c : Config J) (h : ∀ r ∈ c.routes, ∃ e, Syntax r.path e) :
    (c.compileRoutePaths (goRegexp X)).isSome = true := by
  unfold Config.compileRoutePaths
  rw [if_pos]
  · rfl
  · rw [List.all_eq_true]
    intro r hr
    obtain ⟨e, he⟩ := h r hr
    obtain ⟨_, _, -, -, h3, -⟩ := C108_exact X r.path e he
    exact h3

theorem dropLazy_literal {q : Str} (h : Literal q) : dropLazy q = q := by
  unfold dropLazy
  split
  · exact absurd (h '?' (by simp)) (by decide)
  · rfl

theorem tokens_star {q : Str} (h : Literal q) : tokens ('*' :: q) = .rep .star :: tokens q := by
  simp [tokens, tok, tok1, dropLazy_literal h]

/-- C109 fails for every literal text `q`: `*q` is no regular expression, but as a path it compiles, and matches
every target that has `q` anywhere. -/
theorem C109_violated_always (X : Regexp) (q : Str) (hq : Literal q) :
    (∀ e, ¬ Syntax ('*' :: q) e) ∧ (goRegexp X).compiles ('^' :: '*' :: q) = true ∧
    ∀ t, (goRegexp X).isMatch ('^' :: '*' :: q) t = true ↔ q <:+: t := by
  have hpar : parseRe ('^' :: '*' :: q) = .ok (catRev (q.reverse.map .lit ++ [.star .bol])) := by
    unfold parseRe
    have hq' := tok_literal q [] hq
    rw [List.append_nil, show tokens [] = [] from rfl, List.append_nil] at hq'
    rw [tokens_bol, tokens_star hq, hq', List.foldl_cons, List.foldl_cons]
    cases q with
    | nil => rfl
    | cons c q => simp [pstep, applyRep, fold_literal, pfinish, Frame.close, altRev]
  refine ⟨fun e he => absurd ((parse_iff _ e).2 he) (by
    rw [startsWithRep_bad (by simp [startsWithRep, repFirst, tokens_star hq])]; simp), by simp [goRegexp, hpar], fun t => ?_⟩
  simp only [goRegexp, hpar, matchString_iff]
  constructor
  · rintro ⟨i, hi, j, hm⟩
    obtain ⟨k, ⟨n, hn⟩, hm⟩ := (catRev_append t _ _ i j).1 hm
    have hk : i = k := by
      revert hn
      clear hm
      induction n with
      | zero => exact fun hn => hn
      | succ n ih => rintro ⟨l, ⟨rfl, -⟩, h⟩; exact ih h
    subst hk
    obtain ⟨-, a, b, h1, -⟩ := (literal_iff t q i j hi).1 hm
    exact ⟨a, b, by simp [h1]⟩
  · rintro ⟨a, b, h⟩
    have hl : a.length ≤ t.length := by rw [← h]; simp
    exact ⟨a.length, hl, a.length + q.length, (catRev_append t _ _ _ _).2 ⟨a.length, ⟨0, rfl⟩,
      (literal_iff t q a.length _ hl).2 ⟨rfl, a, b, by simp [← h], rfl⟩⟩⟩

/-- C109 fails: a gateway with the one route `*b` boots, and sends a request for `/a/b` there. -/
theorem C109_violated :
    ∃ c' : Config Unit,
      boot (goRegexp literalEngine) (fun _ _ => some ()) exSort { routes := [{ path := "*b".toList }] } = some c' ∧
      (∀ e, ¬ Syntax "*b".toList e) ∧
      (dispatch (goRegexp literalEngine) c'.routes "/a/b".toList).isSome = true :=
  ⟨_, rfl, (C109_violated_always literalEngine ['b'] (by decide)).1, by decide +kernel⟩

/-- Expressions that stop the boot. -/
example : ∀ p ∈ ["/a(b", "/a)", "/[z-a]", "/a**", "/a{1001}", "/a\\"].map String.toList,
    (∀ e, ¬ Syntax p e) ∧ parseRe p ≠ .other ∧ ¬ BeginsWithRep p := by
  intro p hp
  have h : parseRe p = .bad ∧ startsWithRep p = false :=
    (by decide +kernel : ∀ p ∈ ["/a(b", "/a)", "/[z-a]", "/a**", "/a{1001}", "/a\\"].map String.toList,
      parseRe p = .bad ∧ startsWithRep p = false) p hp
  simp [← parse_iff, ← begins_iff, h.1, h.2]

/-! ## C110 -/

/-- C110, the part that holds: a route whose path is literal and begins with a slash, and that has a transform,
replaces its path by the transform in every target it is chosen for. Other routes may have any path.
Missing: routes whose path is a regular expression (`C110_violated_always`). -/
theorem C110_literal_partial (X : Regexp) {validate : Str → J → Option J} {srt} (hs : IsRouteSort srt)
    {c c' : Config J} (h : boot (goRegexp X) validate srt c = some c') (t : Str) (r : Route)
    (hd : dispatch (goRegexp X) c'.routes t = some r)
    (hl : ∀ r0 ∈ c.routes, addSlash r0.path = r.path → Literal r0.path ∧ ∃ s, r0.path = '/' :: s)
    (ht : r.transform ≠ []) (u : URL) :
    ∃ rest, t = r.path ++ rest ∧
      resolveUpstreamURI u r t = u.str ++ ((if r.transform = ['/'] then [] else r.transform) ++ rest) := by
  obtain ⟨hr, hm, -⟩ := (C01_longest_match hs h t).1 r hd
  obtain ⟨r0, h0, rfl⟩ := (booted_mem hs h r).1 hr
  obtain ⟨hlit, s, hsl⟩ := hl r0 h0 rfl
  obtain ⟨rest, hrest⟩ := (matchURI_booted (goRegexp_law X) r0 hlit t).1 hm
  have hp : addSlash r0.path = r0.path := by rw [hsl, addSlash_of_slash]
  refine ⟨rest, by simpa [hp] using hrest, ?_⟩
  have := C08_transform u { r0 with pathRegex := some ('^' :: r0.path), path := addSlash r0.path } rest
  simp only [hp] at this ⊢
  rw [hrest]
  split
  · rename_i h1; simpa using this.2.1 h1
  · rename_i h1; simpa using this.2.2 ht h1

theorem tokens_dotstar : tokens ".*".toList = [.piece (.cls true [('\n', '\n')]), .rep .star] := by decide +kernel

theorem parse_dotstar {p : Str} (h : Literal p) : parseRe ('^' :: (p ++ ".*".toList)) =
    .ok (catRev (.star (.cls true [('\n', '\n')]) :: (p.reverse.map .lit ++ [.bol]))) := by
  unfold parseRe
  rw [tokens_bol, tok_literal _ _ h, tokens_dotstar, List.foldl_cons, List.foldl_append]
  simp only [pstep, fold_literal]
  simp [pstep, applyRep, pfinish, Frame.close, altRev]

/-- The path `p.*` matches what `p` matches. -/
theorem dotstar_iff (X : Regexp) (p : Str) (h : Literal p) :
    (goRegexp X).compiles ('^' :: (p ++ ".*".toList)) = true ∧
    ∀ t, (goRegexp X).isMatch ('^' :: (p ++ ".*".toList)) t = true ↔ ∃ rest, t = p ++ rest := by
  refine ⟨by simp only [goRegexp, parse_dotstar h], fun t => ?_⟩
  simp only [goRegexp, parse_dotstar h, matchString_iff, catRev_cons, catRev_append]
  constructor
  · rintro ⟨i, hi, j, k, ⟨l, ⟨rfl, rfl⟩, hm⟩, -⟩
    obtain ⟨-, a, b, h1, h2⟩ := (literal_iff t p 0 k (by omega)).1 hm
    rw [List.eq_nil_of_length_eq_zero h2] at h1
    exact ⟨b, h1⟩
  · rintro ⟨rest, hr⟩
    exact ⟨0, by omega, 0 + p.length, 0 + p.length, ⟨0, ⟨rfl, rfl⟩,
      (literal_iff t p 0 _ (by omega)).2 ⟨rfl, [], rest, hr, rfl⟩⟩, 0, rfl⟩

/-- C110 fails for every literal `p`: as the path `p.*` with a transform it matches every target that begins with
`p`, and sends every one of them without a `*` to the upstream unchanged. -/
theorem C110_violated_always (X : Regexp) {validate : Str → J → Option J} {srt} (hs : IsRouteSort srt)
    {c c' : Config J} (h : boot (goRegexp X) validate srt c = some c') (p : Str) (hp : Literal p)
    (r : Route) (hr : r ∈ c'.routes) (hpath : r.path = '/' :: (p ++ ".*".toList))
    (hslash : ∀ r0 ∈ c.routes, ∃ s, r0.path = '/' :: s) (u : URL) (rest : Str)
    (hstar : '*' ∉ '/' :: (p ++ rest)) :
    r.matchURI (goRegexp X) ('/' :: (p ++ rest)) = true ∧
    resolveUpstreamURI u r ('/' :: (p ++ rest)) = u.str ++ ('/' :: (p ++ rest)) := by
  obtain ⟨r0, h0, rfl⟩ := (booted_mem hs h r).1 hr
  obtain ⟨s, hsl⟩ := hslash r0 h0
  have h1 : addSlash r0.path = r0.path := by rw [hsl, addSlash_of_slash]
  have h2 : r0.path = '/' :: (p ++ ".*".toList) := by rw [← hpath]; exact h1.symm
  constructor
  · show (goRegexp X).isMatch ('^' :: r0.path) _ = true
    rw [h2]
    refine ((dotstar_iff X ('/' :: p) ?_).2 _).2 ⟨rest, rfl⟩
    intro d hd
    rcases List.mem_cons.1 hd with rfl | hd
    · decide
    · exact hp d hd
  · unfold resolveUpstreamURI
    split
    · dsimp only
      rw [replace1_absent]
      rw [Bool.eq_false_iff]
      intro hc
      obtain ⟨x, y, hxy⟩ := contains_iff.1 hc
      refine hstar ?_
      rw [hxy, h1, h2]
      simp
    · rfl

/-- C110 fails: `/v[0-9]/` with the transform `/w/` sends `/v1/x` on as `/v1/x`. -/
theorem C110_violated :
    ∃ (c' : Config Unit) (r : Route),
      boot (goRegexp literalEngine) (fun _ _ => some ()) exSort
        { routes := [{ path := "/v[0-9]/".toList, transform := "/w/".toList }] } = some c' ∧
      dispatch (goRegexp literalEngine) c'.routes "/v1/x".toList = some r ∧ r.transform = "/w/".toList ∧
      ∀ u, resolveUpstreamURI u r "/v1/x".toList = u.str ++ "/v1/x".toList :=
  ⟨_, { path := "/v[0-9]/".toList, transform := "/w/".toList, pathRegex := some "^/v[0-9]/".toList },
    rfl, by decide +kernel, rfl, fun _ => rfl⟩

/-! ## C111 -/

/-- C111, the part that holds: when all paths are literal and begin with a slash, a request for exactly the path
of a route goes to a route with that path. Missing: gateways with paths that are regular expressions
(`C111_violated_always`). -/
theorem C111_exact_partial (X : Regexp) {validate : Str → J → Option J} {srt} (hs : IsRouteSort srt)
    {c c' : Config J} (h : boot (goRegexp X) validate srt c = some c')
    (hl : ∀ r ∈ c.routes, Literal r.path ∧ ∃ s, r.path = '/' :: s) (r0 : Route) (h0 : r0 ∈ c.routes) :
    ∃ r, dispatch (goRegexp X) c'.routes r0.path = some r ∧ r.path = r0.path := by
  obtain ⟨k1, k2⟩ := C01_longest_match hs h r0.path
  have hp : ∀ q ∈ c.routes, addSlash q.path = q.path := by
    intro q hq
    obtain ⟨-, s, hsl⟩ := hl q hq
    rw [hsl, addSlash_of_slash]
  have hm0 := (matchURI_booted (goRegexp_law X) r0 (hl r0 h0).1 r0.path).2 ⟨[], by simp⟩
  have hmem0 := (booted_mem hs h _).2 ⟨r0, h0, rfl⟩
  cases hd : dispatch (goRegexp X) c'.routes r0.path with
  | none => rw [k2.1 hd _ hmem0] at hm0; cases hm0
  | some r =>
    refine ⟨r, rfl, ?_⟩
    obtain ⟨hr, hm, hmax⟩ := k1 r hd
    have hlen := hmax _ hmem0 hm0
    obtain ⟨q, hq, rfl⟩ := (booted_mem hs h r).1 hr
    obtain ⟨rest, hrest⟩ := (matchURI_booted (goRegexp_law X) q (hl q hq).1 _).1 hm
    simp only [hp q hq, hp r0 h0] at hlen ⊢
    have : rest = [] := by
      rw [hrest, List.length_append] at hlen
      exact List.eq_nil_of_length_eq_zero (by omega)
    rw [hrest, this, List.append_nil]

/-- C111 fails for every literal path `p`: next to a route with the path `p.*`, the route with the path `p` is never
chosen, whatever it asks of its clients. -/
theorem C111_violated_always (X : Regexp) {validate : Str → J → Option J} {srt} (hs : IsRouteSort srt)
    {c c' : Config J} (h : boot (goRegexp X) validate srt c = some c') (p : Str) (hp : Literal ('/' :: p))
    (b : Route) (hb : b ∈ c.routes)
    (hpb : b.path = '/' :: p ++ ".*".toList) (hslash : ∀ q ∈ c.routes, ∃ s, q.path = '/' :: s) (t : Str) :
    ∀ r, dispatch (goRegexp X) c'.routes t = some r → r.path ≠ '/' :: p := by
  intro r hd he
  obtain ⟨hr, hm, hmax⟩ := (C01_longest_match hs h t).1 r hd
  have hsl : ∀ q ∈ c.routes, addSlash q.path = q.path := by
    intro q hq
    obtain ⟨s, hq⟩ := hslash q hq
    rw [hq, addSlash_of_slash]
  obtain ⟨q, hq, rfl⟩ := (booted_mem hs h r).1 hr
  simp only [hsl q hq] at he
  have hm' : (goRegexp X).isMatch ('^' :: q.path) t = true := hm
  rw [he, ((goRegexp_law X) _ hp).2 t] at hm'
  have := hmax _ ((booted_mem hs h _).2 ⟨b, hb, rfl⟩) (show (goRegexp X).isMatch ('^' :: b.path) t = true by
    rw [hpb]; exact ((dotstar_iff X _ hp).2 t).2 hm')
  have h1 := hsl q hq
  have h2 := hsl b hb
  simp only [h1, h2] at this
  rw [he, hpb] at this
  simp at this
  omega

/-- C111 fails: the public route `/[a-z]+` is chosen for `/admin`, the path of a route with a jwt. -/
theorem C111_violated :
    ∃ (c' : Config Unit) (r : Route),
      boot (goRegexp literalEngine) (fun _ _ => some ()) exSort
        { routes := [{ path := "/admin".toList, jwt := "j".toList }, { path := "/[a-z]+".toList }],
          jwt := [("j".toList, ())] } = some c' ∧
      dispatch (goRegexp literalEngine) c'.routes "/admin".toList = some r ∧ r.jwt = [] :=
  ⟨_, { path := "/[a-z]+".toList, pathRegex := some "^/[a-z]+".toList }, rfl, by decide +kernel, rfl⟩

example : ∃ c' : Config Unit,
    boot (goRegexp literalEngine) (fun _ _ => some ()) exSort
      { routes := [{ path := "/a".toList }, { path := "/a/b".toList, transform := "/z".toList }] } = some c' ∧
    dispatch (goRegexp literalEngine) c'.routes "/a/b".toList =
      some { path := "/a/b".toList, transform := "/z".toList, pathRegex := some "^/a/b".toList } :=
  ⟨_, rfl, by decide +kernel⟩

end J8a

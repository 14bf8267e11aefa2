import Verif.Model.Config
import Verif.Spec.Route
import Verif.Lemmas.Str
/-! # Helper lemmas about the boot pipeline -/
namespace J8a
open Go
variable {J : Type}

theorem literalEngine_law : literalEngine.LiteralLaw := by
  intro p _
  refine ⟨rfl, fun s => ?_⟩
  simp only [literalEngine, List.drop_one, List.tail_cons, List.isPrefixOf_iff_prefix]
  constructor
  · rintro ⟨t, h⟩; exact ⟨t, h.symm⟩
  · rintro ⟨t, h⟩; exact ⟨t, h.symm⟩

/-- Everything a successful boot tells about the result, in one place. -/
theorem boot_elim {E : Regexp} {validate : Str → J → Option J} {srt} {c c' : Config J}
    (h : boot E validate srt c = some c') :
    (∃ js, c.jwt.mapM (fun (n, j) => (validate n j).map fun j' => (n, j')) = some js ∧ c'.jwt = js)
    ∧ (∀ r ∈ c.routes, E.compiles ('^' :: r.path) = true)
    ∧ (∀ r ∈ c.routes, r.transform ≠ [] → ∃ t, r.transform = '/' :: t)
    ∧ (∀ r ∈ c.routes, r.hasJwt = true → (c'.jwt.lookup r.jwt).isSome = true)
    ∧ c'.routes = srt (c.routes.map fun r =>
        { r with pathRegex := some ('^' :: r.path), path := addSlash r.path })
    ∧ c'.policies = c.addDefaultPolicy.policies
    ∧ c'.resources = c.reApplyResourceSchemes.reApplyResourceNames.resources
    ∧ c'.connection = ⟨c.connection.downstream.setDefaults, c.connection.upstream.setDefaults⟩ := by
  unfold boot Config.validateJwt Config.compileRoutePaths Config.compileRouteTransforms
    Config.validateRoutes at h
  simp only [Option.bind_eq_bind, Option.bind_eq_some_iff, Option.map_eq_some_iff] at h
  obtain ⟨c1, ⟨js, hjs, rfl⟩, c2, h2, c3, h3, c4, h4, h5⟩ := h
  split at h2
  case isFalse => simp at h2
  case isTrue hcomp =>
    simp only [Option.some.injEq] at h2; subst h2
    split at h3
    case isFalse => simp at h3
    case isTrue htr =>
      simp only [Option.some.injEq] at h3; subst h3
      split at h4
      case isFalse => simp at h4
      case isTrue hj =>
        simp only [Option.some.injEq] at h4; subst h4
        simp only [pure, Option.some.injEq] at h5; subst h5
        simp only [List.all_eq_true, List.all_map] at hcomp htr hj
        refine ⟨⟨js, hjs, rfl⟩, hcomp, ?_, ?_, ?_, rfl, rfl, rfl⟩
        · intro r hr hne
          have := htr r hr
          simp only [Function.comp] at this
          cases ht : r.transform with
          | nil => exact absurd ht hne
          | cons a t =>
            rw [ht] at this
            simp at this
            exact ⟨t, by rw [this]⟩
        · intro r hr hjw
          have := hj r hr
          simp only [Function.comp, Route.hasJwt] at this hjw
          show (js.lookup r.jwt).isSome = true
          simpa [hjw] using this
        · show srt (List.map _ (List.map _ c.routes)) = _
          rw [List.map_map]; rfl

theorem mapM_validate {validate : Str → J → Option J} (l : List (Str × J)) (js : List (Str × J))
    (h : l.mapM (fun (n, j) => (validate n j).map fun j' => (n, j')) = some js) :
    (∀ n j', (n, j') ∈ js → ∃ j, (n, j) ∈ l ∧ validate n j = some j') ∧
    (∀ n j, (n, j) ∈ l → validate n j ≠ none) := by
  induction l generalizing js with
  | nil => simp at h; subst h; simp
  | cons a l ih =>
    rw [List.mapM_cons] at h
    simp only [Option.bind_eq_bind, Option.bind_eq_some_iff, Option.map_eq_some_iff, pure,
      Option.some.injEq] at h
    obtain ⟨b, ⟨j1, hj1, rfl⟩, bs, hbs, rfl⟩ := h
    obtain ⟨i1, i2⟩ := ih bs hbs
    constructor
    · intro n j' hm
      rcases List.mem_cons.mp hm with he | hm
      · injection he with e1 e2
        subst e1 e2
        exact ⟨a.2, by simp, hj1⟩
      · obtain ⟨j, hj, hv⟩ := i1 n j' hm
        exact ⟨j, by simp [hj], hv⟩
    · intro n j hm
      rcases List.mem_cons.mp hm with he | hm
      · subst he; simp at hj1; simp [hj1]
      · exact i2 n j hm

theorem index_slash {p : Str} : index p ['/'] = some 0 ↔ ∃ t, p = '/' :: t := by
  constructor
  · intro h
    obtain ⟨a, b, hab, hl⟩ := index_some h
    have : a = [] := List.length_eq_zero_iff.mp hl
    subst this
    exact ⟨b, by simpa using hab⟩
  · rintro ⟨t, rfl⟩
    exact index_prefix ['/'] t

theorem addSlash_of_slash (t : Str) : addSlash ('/' :: t) = '/' :: t := by
  unfold addSlash; rw [if_pos (index_slash.mpr ⟨t, rfl⟩)]

theorem addSlash_of_no_slash {p : Str} (h : ∀ t, p ≠ '/' :: t) : addSlash p = '/' :: p := by
  unfold addSlash
  rw [if_neg]
  intro hi
  obtain ⟨t, ht⟩ := index_slash.mp hi
  exact h t ht

theorem addSlash_starts (p : Str) : ∃ t, addSlash p = '/' :: t := by
  by_cases h : ∃ t, p = '/' :: t
  · obtain ⟨t, rfl⟩ := h; exact ⟨t, addSlash_of_slash t⟩
  · exact ⟨p, addSlash_of_no_slash fun t ht => h ⟨t, ht⟩⟩

/-- Two prefixes of one string whose slashed forms have equal length have equal slashed forms. -/
theorem addSlash_prefix_eq {p q ra rb : Str} (heq : p ++ ra = q ++ rb)
    (hlen : (addSlash p).length = (addSlash q).length) : addSlash p = addSlash q := by
  by_cases sp : ∃ t, p = '/' :: t
  · obtain ⟨tp, rfl⟩ := sp
    by_cases sq : ∃ t, q = '/' :: t
    · obtain ⟨tq, rfl⟩ := sq
      simp only [addSlash_of_slash] at hlen ⊢
      exact (List.append_inj heq hlen).1
    · have hq := addSlash_of_no_slash (fun t ht => sq ⟨t, ht⟩)
      rw [hq, addSlash_of_slash] at hlen ⊢
      cases q with
      | nil =>
        have : tp = [] := by simpa using hlen
        rw [this]
      | cons x xs =>
        simp at heq
        exact absurd ⟨xs, by rw [heq.1]⟩ sq
  · have hp := addSlash_of_no_slash (fun t ht => sp ⟨t, ht⟩)
    by_cases sq : ∃ t, q = '/' :: t
    · obtain ⟨tq, rfl⟩ := sq
      rw [hp, addSlash_of_slash] at hlen ⊢
      cases p with
      | nil =>
        have : tq = [] := by simpa using hlen
        rw [this]
      | cons x xs =>
        simp at heq
        exact absurd ⟨xs, by rw [heq.1]⟩ sp
    · have hq := addSlash_of_no_slash (fun t ht => sq ⟨t, ht⟩)
      rw [hp, hq] at hlen ⊢
      have : p.length = q.length := by simpa using hlen
      rw [(List.append_inj heq this).1]

end J8a

import Verif.Lemmas.Str
import Verif.Spec.Mux
import Verif.Model.Mux
/-! # The mux and the list of about paths -/
namespace J8a
open Go

theorem mem_appendSorted (e x : Str × Served) (es : List (Str × Served)) :
    x ∈ appendSorted e es ↔ x = e ∨ x ∈ es := by
  induction es with
  | nil => simp [appendSorted]
  | cons y es ih =>
    simp only [appendSorted]
    split
    · simp
    · simp only [List.mem_cons, ih]
      constructor
      · rintro (h | h | h)
        · exact .inr (.inl h)
        · exact .inl h
        · exact .inr (.inr h)
      · rintro (h | h | h)
        · exact .inr (.inl h)
        · exact .inl h
        · exact .inr (.inr h)

theorem appendSorted_end {e : Str × Served} {es : List (Str × Served)}
    (h : ∀ x ∈ es, ¬ x.1.length < e.1.length) : appendSorted e es = es ++ [e] := by
  induction es with
  | nil => rfl
  | cons y es ih =>
    simp only [appendSorted]
    rw [if_neg (h y (by simp)), ih fun x hx => h x (by simp [hx])]; rfl

/-- The mux has exactly these about patterns. -/
structure MuxHas (x : Mux) (A : List Str) : Prop where
  lookup : ∀ p, x.m.lookup p = if p ∈ A then some Served.about else none
  es : ∀ e, e ∈ x.es ↔ e.2 = .about ∧ e.1 ∈ A ∧ e.1.getLast? = some '/'

theorem MuxHas.handle {x : Mux} {A : List Str} (h : MuxHas x A) (p : Str) :
    (x.handle p .about).isSome ↔ p ≠ [] ∧ p ∉ A := by
  unfold Mux.handle
  by_cases h1 : p = []
  · simp [h1]
  · rw [if_neg h1, h.lookup]
    by_cases h2 : p ∈ A
    · simp [h2]
    · simp [h2, h1]

theorem MuxHas.step {x y : Mux} {A : List Str} (h : MuxHas x A) {p : Str}
    (hy : x.handle p .about = some y) : MuxHas y (p :: A) := by
  unfold Mux.handle at hy
  split at hy
  · cases hy
  · split at hy
    · cases hy
    · cases hy
      constructor
      · intro q
        simp only [List.lookup_cons, List.mem_cons]
        by_cases hq : q = p
        · subst hq; simp
        · have : (q == p) = false := by simpa using hq
          rw [this, h.lookup]
          simp [hq]
      · intro e
        show e ∈ (if p.getLast? = some '/' then appendSorted (p, .about) x.es else x.es) ↔ _
        split
        · rename_i hl
          rw [mem_appendSorted, h.es, List.mem_cons]
          constructor
          · rintro (rfl | ⟨h1, h2, h3⟩)
            · exact ⟨rfl, .inl rfl, hl⟩
            · exact ⟨h1, .inr h2, h3⟩
          · rintro ⟨h1, h2 | h2, h3⟩
            · left
              rcases e with ⟨a, b⟩
              simp only at h1 h2
              rw [h1, h2]
            · exact .inr ⟨h1, h2, h3⟩
        · rename_i hl
          rw [h.es, List.mem_cons]
          constructor
          · rintro ⟨h1, h2, h3⟩; exact ⟨h1, .inr h2, h3⟩
          · rintro ⟨h1, h2 | h2, h3⟩
            · rw [h2] at h3; exact absurd h3 hl
            · exact ⟨h1, h2, h3⟩

theorem MuxHas.congr {x : Mux} {A B : List Str} (h : MuxHas x A) (hAB : ∀ p, p ∈ A ↔ p ∈ B) : MuxHas x B where
  lookup p := by
    rw [h.lookup p]
    by_cases hp : p ∈ A
    · rw [if_pos hp, if_pos ((hAB p).mp hp)]
    · rw [if_neg hp, if_neg (fun hb => hp ((hAB p).mpr hb))]
  es e := by rw [h.es e, hAB]

theorem aboutPaths_cons (r : Route) (rs : List Route) : aboutPaths (r :: rs) =
    if r.resource = "about".toList then r.path :: aboutPaths rs else aboutPaths rs := by
  unfold aboutPaths
  by_cases h : r.resource = "about".toList
  · rw [if_pos h, List.filter_cons_of_pos (by simpa using h)]; rfl
  · rw [if_neg h, List.filter_cons_of_neg (by simpa using h)]

theorem addAbout_some : ∀ (rs : List Route) (x y : Mux) (A : List Str), MuxHas x A →
    Mux.addAbout rs x = some y → MuxHas y (A ++ aboutPaths rs) := by
  intro rs
  induction rs with
  | nil =>
    intro x y A h hy
    simp only [Mux.addAbout, Option.some.injEq] at hy
    subst hy
    simpa [aboutPaths] using h
  | cons r rs ih =>
    intro x y A h hy
    simp only [Mux.addAbout] at hy
    rw [aboutPaths_cons]
    split at hy
    · rename_i hr
      rw [if_pos hr]
      split at hy
      · rename_i z hz
        refine (ih z y _ (h.step hz) hy).congr ?_
        intro p
        simp only [List.mem_append, List.mem_cons]
        constructor
        · rintro ((h | h) | h)
          · exact .inr (.inl h)
          · exact .inl h
          · exact .inr (.inr h)
        · rintro (h | h | h)
          · exact .inl (.inr h)
          · exact .inl (.inl h)
          · exact .inr h
      · cases hy
    · rename_i hr
      rw [if_neg hr]
      exact ih x y A h hy

theorem addAbout_isSome : ∀ (rs : List Route) (x : Mux) (A : List Str), MuxHas x A →
    ((Mux.addAbout rs x).isSome ↔
      (aboutPaths rs).Nodup ∧ [] ∉ aboutPaths rs ∧ ∀ p ∈ aboutPaths rs, p ∉ A) := by
  intro rs
  induction rs with
  | nil => intro x A _; simp [Mux.addAbout, aboutPaths]
  | cons r rs ih =>
    intro x A h
    simp only [Mux.addAbout]
    rw [aboutPaths_cons]
    by_cases hr : r.resource = "about".toList
    · rw [if_pos hr, if_pos hr]
      have hh := h.handle r.path
      cases hz : x.handle r.path .about with
      | none =>
        rw [hz] at hh
        simp only [Option.isSome_none, Bool.false_eq_true, false_iff] at hh ⊢
        rintro ⟨-, h2, h3⟩
        apply hh
        exact ⟨fun he => h2 (by simp [he]), h3 r.path (by simp)⟩
      | some z =>
        rw [hz] at hh
        have hh := hh.mp rfl
        show (Mux.addAbout rs z).isSome = true ↔ _
        rw [ih z _ (h.step hz), List.nodup_cons]
        simp only [List.mem_cons, not_or]
        constructor
        · rintro ⟨h1, h2, h3⟩
          refine ⟨⟨fun hm => (h3 _ hm).1 rfl, h1⟩, ⟨fun he => hh.1 he.symm, h2⟩, ?_⟩
          rintro p (rfl | hp)
          · exact hh.2
          · exact (h3 p hp).2
        · rintro ⟨⟨h1, h2⟩, ⟨h3, h4⟩, h5⟩
          exact ⟨h2, h4, fun p hp => ⟨fun he => h1 (he ▸ hp), h5 p (.inr hp)⟩⟩
    · rw [if_neg hr, if_neg hr]
      exact ih x A h

theorem muxHas_nil : MuxHas {} [] := ⟨fun p => rfl, fun e => by simp⟩

/-- The server starts iff no two about routes have the same path and none is empty or the root. -/
theorem mapPathsToHandler_isSome (routes : List Route) :
    (mapPathsToHandler routes).isSome ↔
      (aboutPaths routes).Nodup ∧ [] ∉ aboutPaths routes ∧ ['/'] ∉ aboutPaths routes := by
  unfold mapPathsToHandler
  have hi := addAbout_isSome routes {} [] muxHas_nil
  cases hx : Mux.addAbout routes {} with
  | none =>
    rw [hx] at hi
    simp only [Option.isSome_none, Bool.false_eq_true, List.not_mem_nil, not_false_iff, implies_true,
      and_true, false_iff] at hi ⊢
    rintro ⟨h1, h2, -⟩
    exact hi ⟨h1, h2⟩
  | some x =>
    rw [hx] at hi
    have h0 := hi.mp rfl
    have hs := addAbout_some routes {} x [] muxHas_nil hx
    simp only [List.nil_append] at hs
    show (x.handle ['/'] .proxy).isSome = true ↔ _
    unfold Mux.handle
    rw [if_neg (by simp), hs.lookup]
    by_cases hr : ['/'] ∈ aboutPaths routes
    · simp [hr]
    · simp [hr, h0.1, h0.2.1]

/-- What the finished mux knows. -/
theorem mapPathsToHandler_some {routes : List Route} {x : Mux} (h : mapPathsToHandler routes = some x) :
    (∀ p, x.m.lookup p = if p = ['/'] then some Served.proxy
      else if p ∈ aboutPaths routes then some Served.about else none) ∧
    ∃ es, x.es = es ++ [(['/'], Served.proxy)] ∧
      ∀ e, e ∈ es ↔ e.2 = .about ∧ e.1 ∈ aboutPaths routes ∧ e.1.getLast? = some '/' := by
  have hsome : (mapPathsToHandler routes).isSome := by rw [h]; rfl
  obtain ⟨hnd, hne, hroot⟩ := (mapPathsToHandler_isSome routes).mp hsome
  unfold mapPathsToHandler at h
  cases hx : Mux.addAbout routes {} with
  | none => rw [hx] at h; cases h
  | some y =>
    rw [hx] at h
    have hs := addAbout_some routes {} y [] muxHas_nil hx
    simp only [List.nil_append] at hs
    have h : y.handle ['/'] .proxy = some x := h
    unfold Mux.handle at h
    rw [if_neg (by simp), hs.lookup, if_neg hroot] at h
    simp only [Option.isSome_none, Bool.false_eq_true, if_false, Option.some.injEq] at h
    subst h
    constructor
    · intro p
      simp only [List.lookup_cons]
      by_cases hp : p = ['/']
      · subst hp; simp
      · have : (p == ['/']) = false := by simpa using hp
        rw [this, if_neg hp, hs.lookup]
    · refine ⟨y.es, ?_, hs.es⟩
      show (if (['/'] : Str).getLast? = some '/' then appendSorted (['/'], .proxy) y.es else y.es) = _
      rw [if_pos (by simp)]
      apply appendSorted_end
      intro e he
      obtain ⟨-, h2, h3⟩ := (hs.es e).mp he
      cases h4 : e.1 with
      | nil => rw [h4] at h2; exact absurd h2 hne
      | cons c t => simp

theorem ends_slash_iff (p : Str) : p.getLast? = some '/' ↔ ∃ b, p = b ++ ['/'] := by
  constructor
  · intro h
    rcases List.eq_nil_or_concat p with rfl | ⟨b, c, rfl⟩
    · simp at h
    · rw [List.concat_eq_append] at *
      rw [List.getLast?_concat, Option.some.injEq] at h
      exact ⟨b, by rw [h]⟩
  · rintro ⟨b, rfl⟩; simp

/-- `match` of the finished mux. -/
theorem match_eq {routes : List Route} {x : Mux} (h : mapPathsToHandler routes = some x) (p : Str) :
    ((p ≠ ['/'] ∧ (p ∈ aboutPaths routes ∨ Under (aboutPaths routes) p)) → x.match p = some .about) ∧
    (¬ (p ≠ ['/'] ∧ (p ∈ aboutPaths routes ∨ Under (aboutPaths routes) p)) →
      x.match p = if p.head? = some '/' then some .proxy else none) := by
  obtain ⟨hl, es, he, hm⟩ := mapPathsToHandler_some h
  constructor
  · rintro ⟨h1, h2⟩
    unfold Mux.match
    rw [hl, if_neg h1]
    by_cases hA : p ∈ aboutPaths routes
    · rw [if_pos hA]
    · rw [if_neg hA]
      obtain ⟨a, ha, hb, s, hs⟩ := h2.resolve_left hA
      show (x.es.find? _).map _ = _
      rw [he, List.find?_append]
      have hex : (es.find? fun e => hasPrefix p e.1).isSome := by
        rw [List.find?_isSome]
        exact ⟨(a, .about), (hm _).mpr ⟨rfl, ha, (ends_slash_iff a).mpr hb⟩,
          hasPrefix_iff.mpr ⟨s, hs⟩⟩
      obtain ⟨e, hee⟩ := Option.isSome_iff_exists.mp hex
      rw [hee]
      have := List.mem_of_find?_eq_some hee
      have := ((hm e).mp this).1
      simp [this]
  · intro hn
    unfold Mux.match
    rw [hl]
    by_cases h1 : p = ['/']
    · subst h1; simp
    · have hA : p ∉ aboutPaths routes := fun ha => hn ⟨h1, .inl ha⟩
      have hU : ¬ Under (aboutPaths routes) p := fun hu => hn ⟨h1, .inr hu⟩
      rw [if_neg h1, if_neg hA]
      show (x.es.find? _).map _ = _
      rw [he, List.find?_append]
      have hnone : es.find? (fun e => hasPrefix p e.1) = none := by
        rw [List.find?_eq_none]
        intro e hee hp
        obtain ⟨-, h3, h4⟩ := (hm e).mp hee
        obtain ⟨s, hs⟩ := hasPrefix_iff.mp hp
        exact hU ⟨e.1, h3, (ends_slash_iff _).mp h4, s, hs⟩
      rw [hnone]
      cases p with
      | nil => rfl
      | cons c p =>
        by_cases hc : c = '/'
        · subst hc; simp [hasPrefix]
        · have hc' : ¬ '/' = c := fun h => hc h.symm
          simp [hasPrefix, hc, hc']

/-- The redirection to a path with a slash. -/
theorem shouldRedirect_iff {routes : List Route} {x : Mux} (h : mapPathsToHandler routes = some x)
    (p : Str) (hp : p ≠ []) : x.shouldRedirect p = true ↔
      p ∉ aboutPaths routes ∧ p ++ ['/'] ∈ aboutPaths routes ∧ p.getLast? ≠ some '/' := by
  obtain ⟨hl, -⟩ := mapPathsToHandler_some h
  have hroot : ['/'] ∉ aboutPaths routes :=
    ((mapPathsToHandler_isSome routes).mp (by rw [h]; rfl)).2.2
  unfold Mux.shouldRedirect
  rw [hl, hl]
  by_cases h1 : p = ['/']
  · subst h1; simp
  · rw [if_neg h1]
    have h2 : ¬ p ++ ['/'] = ['/'] := by simpa using hp
    rw [if_neg h2]
    by_cases h3 : p ∈ aboutPaths routes
    · simp [h3]
    · by_cases h4 : p ++ ['/'] ∈ aboutPaths routes
      · simp [h3, h4, hp]
      · simp [h3, h4, hp]

end J8a

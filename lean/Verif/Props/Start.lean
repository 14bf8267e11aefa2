import Verif.Props.Refuse
import Verif.Lemmas.Mux
/-!
# C116 — a configuration that is accepted is served
-/
namespace J8a
open Go

variable {J : Type}

theorem addSlash_eq (p : Str) : addSlash p = withSlash p := by
  cases p with
  | nil => rfl
  | cons c t =>
    by_cases hc : c = '/'
    · subst hc
      rw [addSlash_of_slash]
      rfl
    · rw [addSlash_of_no_slash (by intro t' h; exact hc (List.cons.inj h).1)]
      simp [withSlash, hc]

theorem aboutPaths_booted (srt) (hs : IsRouteSort srt) (routes : List Route) :
    (aboutPaths (srt (routes.map fun r =>
      { r with pathRegex := some ('^' :: r.path), path := addSlash r.path }))).Perm
    ((aboutPaths routes).map withSlash) := by
  have h := ((hs (routes.map fun r =>
    { r with pathRegex := some ('^' :: r.path), path := addSlash r.path })).1.filter
      fun r => decide (r.resource = "about".toList)).map (·.path)
  refine h.trans (List.Perm.of_eq ?_)
  clear h
  unfold aboutPaths
  induction routes with
  | nil => rfl
  | cons r rs ih =>
    simp only [List.map_cons, List.filter_cons]
    split
    · rw [List.map_cons, ih, addSlash_eq]; simp only [*, if_true, List.map_cons]
    · rw [ih]

theorem withSlash_ne_nil (p : Str) : withSlash p ≠ [] := by
  unfold withSlash
  split
  · rename_i h; intro h'; rw [h'] at h; cases h
  · simp

theorem withSlash_root (p : Str) : withSlash p = ['/'] ↔ p = [] ∨ p = ['/'] := by
  unfold withSlash
  split
  · rename_i h
    constructor
    · exact .inr
    · rintro (rfl | h')
      · cases h
      · exact h'
  · rename_i h
    constructor
    · intro h'; exact .inl (List.cons.inj h').2
    · rintro (rfl | rfl)
      · rfl
      · exact absurd rfl h

/-- C116, part: exactly when a gateway whose configuration was accepted listens. -/
theorem C116_partial {E : Regexp} {validate : Str → J → Option J} {srt} (hs : IsRouteSort srt)
    {c c' : Config J} (h : boot E validate srt c = some c') (tlsStarts : Str → Str → Bool) :
    start tlsStarts c' ≠ .exits ↔
      ((aboutPaths c.routes).map withSlash).Nodup ∧ [] ∉ aboutPaths c.routes ∧ ['/'] ∉ aboutPaths c.routes ∧
      0 ≤ c.connection.downstream.port ∧ c.connection.downstream.port ≤ 65535 ∧
      (c.connection.downstream.mode.map Char.toUpper = "TLS".toList →
        tlsStarts c.connection.downstream.cert c.connection.downstream.key = true) := by
  obtain ⟨-, -, -, -, hr, -, -, hc⟩ := boot_elim h
  have hperm := aboutPaths_booted srt hs c.routes
  rw [← hr] at hperm
  have hm := mapPathsToHandler_isSome c'.routes
  rw [hperm.nodup_iff, hperm.mem_iff, hperm.mem_iff] at hm
  have h1 : [] ∉ (aboutPaths c.routes).map withSlash := by
    rw [List.mem_map]; rintro ⟨p, -, hp⟩; exact withSlash_ne_nil p hp
  have h2 : ['/'] ∉ (aboutPaths c.routes).map withSlash ↔
      [] ∉ aboutPaths c.routes ∧ ['/'] ∉ aboutPaths c.routes := by
    rw [List.mem_map]
    constructor
    · intro hn
      exact ⟨fun hp => hn ⟨[], hp, rfl⟩, fun hp => hn ⟨_, hp, rfl⟩⟩
    · rintro ⟨ha, hb⟩ ⟨p, hp, he⟩
      rcases (withSlash_root p).1 he with rfl | rfl
      · exact ha hp
      · exact hb hp
  rw [h2] at hm
  have hserve : ∀ d : Downstream, (match d.setDefaults.serve tlsStarts with
      | .plain port => if listen port then Serving.plain port else .exits
      | .tls port => if listen port then .tls port else .exits
      | .exits => .exits) ≠ .exits ↔ 0 ≤ d.port ∧ d.port ≤ 65535 ∧
        (d.mode.map Char.toUpper = "TLS".toList → tlsStarts d.cert d.key = true) := by
    intro d
    have hl : ∀ q : Int, 0 < q → q ≤ 65535 → (listen (if d.port = 0 then q else d.port) = true ↔
        0 ≤ d.port ∧ d.port ≤ 65535) := by
      intro q h1 h2
      unfold listen
      rw [Bool.and_eq_true, decide_eq_true_eq, decide_eq_true_eq]
      split <;> omega
    by_cases hmode : d.mode.map Char.toUpper = "TLS".toList
    · cases ht : tlsStarts d.cert d.key with
      | false =>
        rw [(C89_partial tlsStarts d 443).2 hmode ht]
        simp [hmode]
      | true =>
        rw [((C89_partial tlsStarts d _).1).2 ⟨hmode, ht, rfl⟩]
        have := hl 443 (by omega) (by omega)
        simp only [implies_true, and_true]
        rw [← this]
        split <;> simp_all
    · rw [C89_violated_always tlsStarts d hmode]
      have := hl 8080 (by omega) (by omega)
      simp only [hmode, false_implies, and_true]
      rw [← this]
      split <;> simp_all
  unfold start
  rw [hc]
  cases hx : mapPathsToHandler c'.routes with
  | none =>
    rw [hx] at hm
    constructor
    · intro h; exact absurd rfl h
    · rintro ⟨ha, hb, hc, -⟩
      exact absurd (hm.2 ⟨ha, h1, hb, hc⟩) (by simp)
  | some x =>
    rw [hx] at hm
    obtain ⟨ha, -, hb, hc⟩ := hm.1 rfl
    simp only [ha, hb, hc, not_false_iff, true_and]
    exact hserve c.connection.downstream

/-- A gateway with an about route that listens. -/
example : (boot literalEngine (fun _ _ => some ()) exSort
      ({ exConfig with routes := { path := "about".toList, resource := "about".toList } :: exConfig.routes } : Config Unit)).map
    (start fun _ _ => true) = some (.plain 8080) := by decide +kernel

/-- C116 fails for every accepted configuration with two about routes that differ by the leading slash. -/
theorem C116_violated_always {E : Regexp} {validate : Str → J → Option J} {srt} (hs : IsRouteSort srt)
    {c c' : Config J} (h : boot E validate srt c = some c') (tlsStarts : Str → Str → Bool) (p : Str)
    (h1 : p ∈ aboutPaths c.routes) (h2 : '/' :: p ∈ aboutPaths c.routes) (h3 : p.head? ≠ some '/') :
    start tlsStarts c' = .exits := by
  by_cases hn : start tlsStarts c' = .exits
  · exact hn
  have := ((C116_partial hs h tlsStarts).1 hn).1
  rw [List.nodup_iff_pairwise_ne, List.pairwise_map] at this
  exfalso
  have hne : p ≠ '/' :: p := fun h => by
    have := congrArg List.length h
    simp at this
  rw [List.pairwise_iff_forall_sublist] at this
  have key : ∀ l : List Str, p ∈ l → '/' :: p ∈ l → [p, '/' :: p].Sublist l ∨ ['/' :: p, p].Sublist l := by
    intro l
    induction l with
    | nil => intro h; cases h
    | cons a l ih =>
      intro ha hb
      rcases List.mem_cons.1 ha with rfl | ha'
      · rcases List.mem_cons.1 hb with hb | hb
        · exact absurd hb.symm hne
        · exact .inl ((List.singleton_sublist.2 hb).cons_cons _)
      · rcases List.mem_cons.1 hb with rfl | hb
        · exact .inr ((List.singleton_sublist.2 ha').cons_cons _)
        · exact (ih ha' hb).imp (·.cons _) (·.cons _)
  have e : withSlash p = withSlash ('/' :: p) := by
    simp [withSlash, h3]
  rcases key _ h1 h2 with hk | hk
  · exact this hk e
  · exact this hk e.symm

/-- C116 fails: configurations that are accepted, but with which the process ends: the path of about is `/`,
there are about routes `about` and `/about`, the port is 70000 or -1. -/
theorem C116_violated :
    (∀ c ∈ [{ exConfig with routes := [{ path := "/".toList, resource := "about".toList }] },
      { exConfig with routes := [{ path := "about".toList, resource := "about".toList }, { path := "/about".toList, resource := "about".toList }] },
      { exConfig with connection := { downstream := { port := 70000 } } },
      { exConfig with connection := { downstream := { port := -1 } } }],
      (boot literalEngine (fun _ _ => some ()) exSort c).map (start fun _ _ => true) = some .exits) := by
  simp only [List.mem_cons, List.not_mem_nil, or_false, forall_eq_or_imp, forall_eq]
  refine ⟨?_, ?_, ?_, ?_⟩ <;> decide +kernel

end J8a

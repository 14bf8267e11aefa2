import Verif.Props.Everyone
/-!
# C180: clients that read nothing
-/
namespace J8a
open Go Uri

variable {K : Type}

theorem crashed {x : Setup K} {s : St} (h : x.Reaches s) (hd : x.dec = .panic) : s.pc = .panicked ∧ s.sent = [] ∧ s.calls = [] := by
  obtain ⟨as, h⟩ := h
  have := run_invariant (P := fun s => s.n = 0 ∧ s.sent = [] ∧ s.pc = .panicked ∧ s.calls = [])
    (fun s a s' hi hs => by
      obtain ⟨h0, h1, h2, h3⟩ := hi
      cases a <;> step_cases hs <;> simp_all) (s := initial x.dec) (by simp [hd, initial]) h
  exact ⟨this.2.2.1, this.2.1, this.2.2.2⟩

/-- The document protects the target: whatever route with the longest path selects it, names a jwt entry, and every entry of that
name asks for a signature. -/
def Settings.Protects (t : Settings) (target : Str) : Prop :=
  (∃ r ∈ t.routes, Selects r.path target) ∧
  ∀ r ∈ t.routes, Selects r.path target → (∀ r' ∈ t.routes, Selects r'.path target → r'.path.length ≤ r.path.length) →
    r.jwt ≠ [] ∧ ∀ e, (r.jwt, e) ∈ t.jwt → e.alg ∈ rsaAlgs ∨ e.alg ∈ ecAlgs ∨ e.alg ∈ hmacAlgs

/-- C180 is violated by every document that protects a target, whatever else stands in it: a client that sends a message for
that target, with a text in its Authorization field that is no token, reads nothing, in whatever the gateway does. -/
theorem C180_violated_always (B : Machinery K) (src : Sources) (t : Settings) (served : Str → List (Jwk K) → Prop)
    (hB : Started B src t served) (A : Around K) (g : Hub K) (h : g.Reached A) (k : Task K) (hk : k ∈ g.tasks) (m : HttpRequest)
    (hsm : SentAs B src served k.x m) (hm : toUpper m.method ∈ proxiedMethods) (hl : m.body.length < t.bodyLimit)
    (hpr : t.Protects m.target) (token : Str) (htok : m.PresentsToken token) (hmal : k.x.L.signatures token = none) :
    k.s.pc = .panicked ∧ k.s.sent = [] ∧ k.s.calls = [] := by
  have hr : k.x.Reaches k.s := (C174_alone A g h k hk).2.1
  refine crashed hr ?_
  obtain ⟨stream, rest, rest', b1, b2⟩ := hsm.bytes
  obtain ⟨hwf, -⟩ := C165_sound_partial stream k.x.rq rest' b2
  obtain ⟨d1, d2, d3, d4, -, d6, -⟩ := C165_delivered_partial stream rest m b1 hsm.acceptable hsm.bare hsm.short k.x.rq rest' b2
  have hp := message_presents (d6 "Authorization".toList (by decide) (by decide) (by decide)) htok
  obtain ⟨c', hbf, hb⟩ := started_boot hB.write hsm.running.started
  obtain ⟨hroutes, -, -, hconn, hjwt⟩ := hsm.running.config c' hbf
  obtain ⟨-, -, -, hhas, -, -, -, hcc⟩ := boot_elim hb
  have hfrom := booted_routes hB.sort hb fun r hr => (hB.plain.paths r hr).1
  have hmatch : ∀ r0 ∈ t.routes, r0.served.matchURI B.E k.x.rq.requestURI = true ↔ Selects r0.path k.x.rq.requestURI :=
    fun r0 hr0 => served_match (hB.engine r0 hr0) _
  have hmax : k.x.maxBody = t.bodyLimit := by
    unfold Setup.maxBody
    rw [hconn, hcc]
    exact (C10_downstream_defaults t.connection.downstream).2.2.2.1
  have hsmall : ¬ DeclaredTooLarge k.x.maxBody k.x.rq := by
    rintro ⟨h0, h1⟩
    rw [hmax] at h1
    rw [← d3, bodyText_length] at hl
    by_cases h2 : 0 ≤ k.x.rq.contentLength
    · have := hwf.complete h2 d4
      omega
    · omega
  have hd := decision_legal (x := k.x) (by show toUpper k.x.rq.method ∈ proxiedMethods; rw [d1]; exact hm) (not_tooLarge hwf.length hsmall)
  rw [← d2] at hpr
  obtain ⟨⟨r1, hr1, hs1⟩, hpr⟩ := hpr
  cases hdis : dispatch k.x.E k.x.c.routes k.x.rq.requestURI with
  | none =>
    rw [hsm.running.engine, hroutes] at hdis
    have := (C01_longest_match hB.sort hb _).2.1 hdis _ ((hfrom _).2 ⟨r1, hr1, rfl⟩)
    rw [(hmatch r1 hr1).2 hs1] at this
    cases this
  | some r =>
    rw [hdis] at hd
    rw [hsm.running.engine, hroutes] at hdis
    obtain ⟨hmem, hmat, hlong⟩ := (C01_longest_match hB.sort hb _).1 r hdis
    obtain ⟨r0, hr0, rfl⟩ := (hfrom r).1 hmem
    obtain ⟨hne, hent⟩ := hpr r0 hr0 ((hmatch r0 hr0).1 hmat) fun r' hr' hpre =>
      hlong _ ((hfrom _).2 ⟨r', hr', rfl⟩) ((hmatch r' hr').2 hpre)
    have hj' : r0.served.hasJwt = true := by
      unfold Route.hasJwt
      simpa [List.length_pos_iff, RouteSettings.served] using hne
    have hjv : r0.served.jwt = r0.jwt := rfl
    have ha : authorise k.x.L k.x.c.jwt k.x.now r0.served k.x.rq = .panic := by
      unfold authorise
      rw [if_pos hj']
      simp only [hjv]
      cases hlk : k.x.c.jwt.lookup r0.jwt with
      | none => simp only [(presents_iff _ _).1 hp, Option.isSome_some, if_true]
      | some j =>
        obtain ⟨j0, docs, hj0, hdocs, -⟩ := hjwt _ _ hlk
        obtain ⟨-, -, -, -, -, -, hval⟩ := C13_boot_sound hB.sort hb
        obtain ⟨j1, hj1, hv1⟩ := hval _ _ hj0
        obtain ⟨⟨en, ev⟩, he, hee⟩ := List.mem_map.1 hj1
        simp only [Prod.mk.injEq] at hee
        obtain ⟨hen, rfl⟩ := hee
        have hj2 : ({ (ev.meant : Jwt K) with name := r0.jwt } : Jwt K).validate B.X B.hmacKey (B.uuid r0.jwt)
            (B.fetch r0.jwt) = .done j0 false := by
          have hv2 := hv1
          unfold Machinery.validate bootJwt at hv2
          split at hv2
          · rename_i j2 hj2
            rw [hj2, Option.some.inj hv2]
          · cases hv2
        obtain ⟨halg0, -⟩ := C25_validate_sound _ _ _ _ _ _ hj2
        obtain ⟨hsame, -⟩ := refreshes_same hdocs
        have hja : j.alg = ev.alg := hsame.trans halg0
        have hfam := hent ev (hen ▸ he)
        rw [← hja] at hfam
        obtain ⟨ks, hks⟩ := Option.isSome_iff_exists.1 ((keySet_isSome j).2 hfam)
        have hvs : verifySignature k.x.L j.alg token ks = .panic := by
          unfold verifySignature
          rw [hmal]
        unfold validateToken
        simp only [(presents_iff _ _).1 hp, hks, hvs]
    simp only [ha] at hd
    exact hd

/-- The assumptions hold for a client of the example document, beside another one. -/
example : Started (exGateway "/z") { env := "…".toList } (exSettings "/z") (fun _ _ => False) ∧
    (∃ (A : Around Nat) (g : Hub Nat), g.Reached A ∧ g.tasks.length = 2 ∧ ∃ k ∈ g.tasks, k.x = Demo.malformed) ∧
    SentAs (exGateway "/z") { env := "…".toList } (fun _ _ => False) Demo.malformed (Demo.tokenMessage "/a/d") ∧
    toUpper (Demo.tokenMessage "/a/d").method ∈ proxiedMethods ∧ (Demo.tokenMessage "/a/d").body.length < (exSettings "/z").bodyLimit ∧
    (exSettings "/z").Protects (Demo.tokenMessage "/a/d").target ∧ (Demo.tokenMessage "/a/d").PresentsToken "v".toList ∧
    Demo.malformed.L.signatures "v".toList = none := by
  have hs := Demo.written_sent (target := "/a/d") (by decide) (by decide +kernel) (by decide +kernel)
  refine ⟨Demo.started, ⟨{ T := Demo.lib, keyOf := fun _ => "up".toList, comes := fun x => x = Demo.malformed }, _,
      (Hub.Reached.new.step (.accept Demo.malformed rfl)).step (.accept Demo.malformed rfl), rfl, _, .head _, rfl⟩,
    ⟨⟨hs.running.started, hs.running.engine, hs.running.config⟩, hs.bytes, hs.acceptable, hs.bare, hs.short⟩,
    by decide, by decide, ⟨⟨_, .head _, (selects_literal (by decide)).2 (by decide)⟩, ?_⟩,
    ⟨"Bearer v".toList, by decide, "Bearer".toList, [], by decide, by decide, by decide, .inl rfl⟩, rfl⟩
  intro r hr _ _
  obtain rfl := List.mem_singleton.1 hr
  refine ⟨by decide, fun e he => ?_⟩
  obtain ⟨-, rfl⟩ := Prod.mk.inj (List.mem_singleton.1 he)
  exact .inr (.inr (by decide))

end J8a

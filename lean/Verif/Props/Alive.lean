import Verif.Props.Passed
/-!
# C184: good traffic does not crash a handler
-/
namespace J8a
open Go Uri

variable {K : Type}

/-! ## URLs for upstreams -/

/-- The gateway with a library that takes every URL. -/
def Setup.lenient (x : Setup K) : Setup K := { x with sv := { x.sv with uriOk := fun _ => true } }

theorem called (e : Env) (he : ∀ v, e.uriOk v = true) (r : Route) (u : URL) (l : Str) :
    ∃ s, run e (initial (.forward r u l)) [.main .complete, .hgCall 0] = some s ∧ s.calls ≠ [] := by
  simp [run, initial, step, stepMain, stepOther, he, St.upd, St.cur]

/-- If a message is passed on, the URL for the upstream parses. -/
theorem passed_uri {B : Machinery K} {src : Sources} {t : Settings} {served : Str → List (Jwk K) → Prop} (hB : Started B src t served)
    {x : Setup K} {m : HttpRequest} (hcm : CameAs B src t served x m) {r : Route} {u : URL} {l : Str} (hd : x.dec = .forward r u l) :
    newRequestOk (resolveUpstreamURI u r x.rq.uri) = true := by
  obtain ⟨stream, rest, rest', b1, b2⟩ := hcm.bytes
  obtain ⟨-, ⟨u0, hf⟩, -⟩ := C165_sound_partial stream x.rq rest' b2
  obtain ⟨d1, d2, -⟩ := C165_delivered_partial stream rest m b1 hcm.acceptable hcm.bare hcm.short x.rq rest' b2
  have hd' : x.lenient.dec = .forward r u l := hd
  obtain ⟨s, hs, p, hp⟩ : ∃ s, x.lenient.Reaches s ∧ ∃ p, p ∈ s.calls := by
    have hrun : ∃ s, run x.lenient.env (initial x.lenient.dec) [.main .complete, .hgCall 0] = some s ∧ s.calls ≠ [] := by
      rw [hd']
      exact called _ (fun _ => rfl) r u l
    obtain ⟨s, h1, h2⟩ := hrun
    exact ⟨s, ⟨_, h1⟩, List.exists_mem_of_ne_nil _ h2⟩
  obtain ⟨r', u', l', hd1, hq⟩ := calls_of_reaches hs hp
  rw [hd'] at hd1
  cases hd1
  have hx : Running B src served x.lenient := ⟨hcm.running.started, hcm.running.engine, hcm.running.config⟩
  obtain ⟨⟨r2, -, -, -, ⟨rest2, -, e3⟩, -⟩, -⟩ := sends_plain B hB.sort src t hB.engine hB.write hB.plain served
    hB.fetch x.lenient hx u0 hf (by show Originates t x.rq.requestURI; rw [d2]; exact hcm.origin)
    (fun r hr ht rest hrest => ⟨hcm.breaks r hr ht rest (by rw [← d2]; exact hrest), by
      show toUpper x.rq.method ≠ _
      rw [d1]; exact hcm.connect⟩) s hs p hp
  have huri : p.2.uri = resolveUpstreamURI u r x.rq.uri := by rw [hq]; rfl
  unfold newRequestOk
  rw [← huri]
  cases hpar : Url.parse p.2.uri with
  | some v => rfl
  | none =>
    unfold wireTarget at e3
    rw [hpar] at e3
    cases e3

/-! ## The decision -/

/-- If tokens that are presented are tokens, and no resource is without servers, the decision does not crash the handler. -/
theorem decides {B : Machinery K} {src : Sources} {t : Settings} {served : Str → List (Jwk K) → Prop} (hB : Started B src t served)
    {x : Setup K} {m : HttpRequest} (hsm : SentAs B src served x m)
    (hkeep : ∀ n e, (n, e) ∈ t.jwt → (x.c.jwt.lookup n).isSome = true) (hres : ∀ e ∈ t.resources, e.2 ≠ [])
    (htok : ∀ token, m.PresentsToken token → (∃ n, x.L.signatures token = some n) ∧ (x.L.parse token).isSome = true) :
    x.dec ≠ .panic := by
  obtain ⟨stream, rest, rest', b1, b2⟩ := hsm.bytes
  obtain ⟨-, -, -, -, -, d6, -⟩ := C165_delivered_partial stream rest m b1 hsm.acceptable hsm.bare hsm.short x.rq rest' b2
  have hauthv := d6 "Authorization".toList (by decide) (by decide) (by decide)
  obtain ⟨c', hbf, hb⟩ := started_boot hB.write hsm.running.started
  obtain ⟨hroutes, -, hrs, -, -⟩ := hsm.running.config c' hbf
  obtain ⟨-, -, -, hhas, -⟩ := boot_elim hb
  have hfrom := booted_routes hB.sort hb fun r hr => (hB.plain.paths r hr).1
  intro hd
  by_cases hl : x.pb.tooLarge = true
  · rw [decision_tooLarge hl] at hd
    cases hd
  have hl : x.pb.tooLarge = false := by simpa using hl
  by_cases hm : parseMethod x.rq ∈ legalMethods
  rotate_left
  · rw [decision_illegal hm hl] at hd
    cases hd
  rw [decision_legal hm hl] at hd
  cases hdis : dispatch x.E x.c.routes x.rq.requestURI with
  | none => rw [hdis] at hd; cases hd
  | some r =>
    rw [hdis] at hd
    simp only at hd
    rw [hsm.running.engine, hroutes] at hdis
    obtain ⟨hmem, -, -⟩ := (C01_longest_match hB.sort hb _).1 r hdis
    obtain ⟨r0, hr0, rfl⟩ := (hfrom r).1 hmem
    cases ha : authorise x.L x.c.jwt x.now r0.served x.rq with
    | reject => rw [ha] at hd; cases hd
    | accept =>
      rw [ha] at hd
      simp only at hd
      cases hmap : r0.served.mapURL x.pick x.c.policies x.c.resources with
      | mapped u l => rw [hmap] at hd; cases hd
      | notMapped => rw [hmap] at hd; cases hd
      | panics =>
        rw [hrs] at hmap
        unfold Route.mapURL at hmap
        cases hc : c'.resources r0.served.resource with
        | none => rw [hc] at hmap; cases hmap
        | some ms =>
          obtain ⟨l0, hl0, rfl⟩ := booted_resources hb hc
          have hne := hres _ hl0
          rw [hc] at hmap
          cases l0 with
          | nil => exact hne rfl
          | cons a l =>
            simp only [List.map_cons] at hmap
            split at hmap
            · split at hmap <;> cases hmap
            · cases hmap
    | panic =>
      unfold authorise at ha
      split at ha
      · rename_i hj
        have hne : r0.jwt ≠ [] := by
          unfold Route.hasJwt at hj
          simpa [List.length_pos_iff, RouteSettings.served] using hj
        have hjv : r0.served.jwt = r0.jwt := rfl
        simp only [hjv] at ha
        have hent : ∃ e, (r0.jwt, e) ∈ t.jwt := by
          obtain ⟨r1, hr1, hr1e⟩ : ∃ r1 ∈ (t.present (K := K)).routes, r1.jwt = r0.jwt := ⟨_, List.mem_map.2 ⟨r0, hr0, rfl⟩, rfl⟩
          have := hhas r1 hr1 (by unfold Route.hasJwt; rw [hr1e]; simpa [List.length_pos_iff] using hne)
          rw [hr1e] at this
          obtain ⟨j0, hj0⟩ := Option.isSome_iff_exists.1 this
          obtain ⟨-, -, -, -, -, -, hval⟩ := C13_boot_sound hB.sort hb
          obtain ⟨j1, hj1, -⟩ := hval _ _ (mem_of_lookup hj0)
          obtain ⟨⟨en, ev⟩, he, hee⟩ := List.mem_map.1 hj1
          simp only [Prod.mk.injEq] at hee
          obtain ⟨rfl, -⟩ := hee
          exact ⟨ev, he⟩
        obtain ⟨e0, he0⟩ := hent
        obtain ⟨j, hlk⟩ := Option.isSome_iff_exists.1 (hkeep _ _ he0)
        rw [hlk] at ha
        exact token_alive (fun token ht => htok token (presents_message hauthv ((presents_iff _ _).2 ht))) ha
      · cases ha

/-! ## Nothing crashes -/

/-- C184 for documents without empty resources, entries that are there, messages whose tokens are tokens and, if they are passed on,
are as in C178, orderly executions, and upstreams whose statuses are 100 or above. Missing from the full statement: texts that are no
tokens (`C180_violated_always`), smaller statuses (C106), late writes (C51) and targets that do not parse (C92). -/
theorem C184_alive_partial (B : Machinery K) (src : Sources) (t : Settings) (served : Str → List (Jwk K) → Prop)
    (hB : Started B src t served) (hres : ∀ e ∈ t.resources, e.2 ≠ []) (A : Around K) (g : Hub K) (h : g.Reached A) (k : Task K)
    (hk : k ∈ g.tasks) (m : HttpRequest) (hsm : SentAs B src served k.x m) (hok : k.x.sv.uriOk = newRequestOk)
    (hkeep : ∀ n e, (n, e) ∈ t.jwt → (k.x.c.jwt.lookup n).isSome = true)
    (htok : ∀ token, m.PresentsToken token → (∃ n, k.x.L.signatures token = some n) ∧ (k.x.L.parse token).isSome = true)
    (hfw : (∃ r u l, k.x.dec = .forward r u l) → CameAs B src t served k.x m ∧ Orderly k.x.env (initial k.x.dec) k.acts)
    (hst : ∀ i v, Act.hgReturn i (some v) ∈ k.acts → 100 ≤ v.status) : k.s.pc ≠ .panicked := by
  obtain ⟨j, hj⟩ := List.mem_iff_getElem?.1 hk
  have hrun := ((Hub.inv h).runs j k hj).2
  cases hd : k.x.dec with
  | panic => exact absurd hd (decides hB hsm hkeep hres htok)
  | respond code msg =>
    refine (onlyAnswer ⟨_, hrun⟩ hd ?_).alive
    rcases decision_respond hd with ⟨rfl, -⟩ | ⟨rfl, -⟩ | ⟨-, -, ⟨rfl, -⟩ | ⟨r, -, ⟨rfl, -⟩ | ⟨rfl, -⟩⟩⟩ <;> decide
  | forward r u l =>
    obtain ⟨hcm, ho⟩ := hfw ⟨r, u, l, hd⟩
    exact C106_no_crash_partial k.x k.acts k.s hrun ho r u l hd (by rw [hok]; exact passed_uri hB hcm hd) hst

/-- The theorem applies to a client that presents a token and whose upstream fails. -/
example : ∃ (A : Around Nat) (g : Hub Nat) (k : Task Nat), g.Reached A ∧ k ∈ g.tasks ∧ k.s.pc = .done ∧ k.s.calls.length = 1 ∧
    (Demo.tokenMessage "/a/d").PresentsToken "v".toList ∧ ∀ g' : Hub Nat, g'.Reached A → ∀ k' ∈ g'.tasks, k'.x = k.x →
      k'.acts = k.acts → k'.s.pc ≠ .panicked := by
  obtain ⟨s, h1, hc⟩ := Demo.of_check (x := Demo.written "/z" "/a/d")
    (as := [Demo.go, .hgCall 0, .hgReturn 0 none, .hgWrite 0, .hgClose 0] ++ List.replicate 9 Demo.go)
    (p := fun s => (Demo.seen s).finished && s.calls.length == 1) (by decide +kernel)
  simp only [Bool.and_eq_true, beq_iff_eq] at hc
  have hg := (Hub.Reached.new (A := { T := Demo.lib, keyOf := fun _ => "up".toList, comes := fun _ => True })).step
      (.accept (Demo.written "/z" "/a/d") trivial) |>.acts (j := 0) rfl h1 (by simp [Demo.go]) (by simp [Demo.go])
  have hcame := Demo.written_came (target := "/a/d") (by decide) (by decide +kernel) (by decide +kernel)
    ⟨"a/d".toList, by decide +kernel, .inl rfl⟩
  have hpres : (Demo.tokenMessage "/a/d").PresentsToken "v".toList :=
    ⟨"Bearer v".toList, by decide +kernel, "Bearer".toList, [], by decide, by decide, by decide, .inl rfl⟩
  refine ⟨_, _, _, hg, .head _, Demo.done_of_seen hc.1, hc.2, hpres, ?_⟩
  intro g' hg' k' hk' hx ha
  simp only at hx ha
  refine C184_alive_partial (exGateway "/z") { env := "…".toList } (exSettings "/z") (fun _ _ => False) Demo.started ?_ _ g' hg' k' hk'
    (Demo.tokenMessage "/a/d") ?_ ?_ ?_ ?_ ?_ ?_
  · intro e he
    obtain rfl := List.mem_singleton.1 he
    exact List.cons_ne_nil _ _
  · rw [hx]
    exact Demo.written_sent (by decide) (by decide +kernel) (by decide +kernel)
  · rw [hx]
    rfl
  · intro n e he
    obtain ⟨rfl, -⟩ := Prod.mk.inj (List.mem_singleton.1 he)
    rw [hx]
    show ((Demo.written "/z" "/a/d").c.jwt.lookup "j".toList).isSome = true
    decide +kernel
  · intro token ht
    have h2 := (presents_iff _ _).1 (message_presents (rq := (Demo.written "/z" "/a/d").rq) (by decide +kernel) ht)
    have h3 : bearerToken ((Demo.written "/z" "/a/d").rq.header.get "Authorization".toList) = some "v".toList := by decide +kernel
    rw [h3] at h2
    obtain rfl := Option.some.inj h2
    rw [hx]
    exact ⟨⟨1, by decide +kernel⟩, by decide +kernel⟩
  · rintro ⟨r, u, l, hd⟩
    rw [hx] at hd ⊢
    refine ⟨hcame, ?_⟩
    rw [ha]
    have h1 : run (Demo.written "/z" "/a/d").env (initial (Demo.written "/z" "/a/d").dec) _ = some s := h1
    rw [hd] at h1 ⊢
    exact orderly_of_no_timeout (.initial _ _ _ _) (.initial _) (.initial _ _ _) (by simp [Demo.go]) h1
  · intro i v hv
    rw [ha] at hv
    simp [Demo.go] at hv

/-! ## Where it fails -/

/-- C184 is violated: a text in the Authorization field that is no token crashes the handler. -/
theorem C184_violated : ∃ (x : Setup Nat) (m : HttpRequest) (A : Around Nat) (g : Hub Nat) (k : Task Nat),
    Started (exGateway "/z") { env := "…".toList } (exSettings "/z") (fun _ _ => False) ∧
    CameAs (exGateway "/z") { env := "…".toList } (exSettings "/z") (fun _ _ => False) x m ∧
    g.Reached A ∧ k ∈ g.tasks ∧ k.x = x ∧ k.acts = [] ∧ k.s.pc = .panicked := by
  have hcame := Demo.written_came (target := "/a/d") (by decide) (by decide +kernel) (by decide +kernel)
    ⟨"a/d".toList, by decide +kernel, .inl rfl⟩
  refine ⟨Demo.malformed, Demo.tokenMessage "/a/d", { T := Demo.lib, keyOf := fun _ => "up".toList, comes := fun x => x = Demo.malformed },
    _, _, Demo.started, ?_, Hub.Reached.new.step (.accept Demo.malformed rfl), .head _, rfl, rfl, ?_⟩
  · exact ⟨⟨hcame.running.started, hcame.running.engine, hcame.running.config⟩, hcame.bytes, hcame.acceptable, hcame.bare, hcame.short,
      hcame.fits, hcame.connect, hcame.origin, hcame.breaks⟩
  · show (initial Demo.malformed.dec).pc = .panicked
    have hd : Demo.malformed.dec = .panic := by decide +kernel
    rw [hd]
    rfl

end J8a

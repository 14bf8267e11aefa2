import Verif.Props.Admitted
/-!
# C183: what the document admits is not refused
-/
namespace J8a
open Go Uri

variable {K : Type}

/-! ## What is asked for -/

/-- The document admits the message for certain: the method is served, a path selects the target, and whatever route is meant, keys
that stand in the document or were served at the start grant the token, and there is a server for it. -/
structure Settings.Passes (t : Settings) (X : X509 K) (hmacKey : Str → K) (fetch : Str → Str → Option (List (Jwk K)))
    (L : Jwx K) (pick : Policy → Str) (now : Int) (m : HttpRequest) : Prop where
  method : toUpper m.method ∈ proxiedMethods
  path : ∃ r ∈ t.routes, Selects r.path m.target
  route : ∀ r, t.Meant m.target r →
    (r.jwt = [] ∨ ∀ e, (r.jwt, e) ∈ t.jwt → e.PassesMessage X hmacKey (fetch r.jwt e.jwksUrl) L now m) ∧
    ∃ ms, (r.resource, ms) ∈ t.resources ∧ ∃ srv ∈ ms, r.policy ≠ [] → pick (t.policy r.policy) ∈ srv.labels

theorem passed_dec {B : Machinery K} {src : Sources} {t : Settings} {served : Str → List (Jwk K) → Prop} (hB : Started B src t served)
    {x : Setup K} {m : HttpRequest} (hsm : SentAs B src served x m)
    (hkeep : ∀ n e, (n, e) ∈ t.jwt → (x.c.jwt.lookup n).isSome = true) (hl : x.pb.tooLarge = false)
    (h : t.Passes B.X B.hmacKey B.fetch x.L x.pick x.now m) : ∃ r u l, x.dec = .forward r u l := by
  obtain ⟨stream, rest, rest', b1, b2⟩ := hsm.bytes
  obtain ⟨d1, d2, -, -, -, d6, -⟩ := C165_delivered_partial stream rest m b1 hsm.acceptable hsm.bare hsm.short x.rq rest' b2
  have hauthv := d6 "Authorization".toList (by decide) (by decide) (by decide)
  obtain ⟨c', hbf, hb⟩ := started_boot hB.write hsm.running.started
  obtain ⟨hroutes, hpol, hres, -, -⟩ := hsm.running.config c' hbf
  obtain ⟨-, -, -, hhas, -, hpc, hrc, -⟩ := boot_elim hb
  have hfrom := booted_routes hB.sort hb fun r hr => (hB.plain.paths r hr).1
  have hmatch : ∀ r0 ∈ t.routes, r0.served.matchURI B.E x.rq.requestURI = true ↔ Selects r0.path m.target :=
    fun r0 hr0 => by rw [← d2]; exact served_match (hB.engine r0 hr0) _
  have hlegal : parseMethod x.rq ∈ legalMethods := by
    show toUpper x.rq.method ∈ proxiedMethods
    rw [d1]
    exact h.method
  have hd := decision_legal (x := x) hlegal hl
  obtain ⟨r0, hr0, hdis⟩ : ∃ r0, t.Meant m.target r0 ∧ dispatch x.E x.c.routes x.rq.requestURI = some r0.served := by
    obtain ⟨r1, hr1, hs1⟩ := h.path
    cases hdis : dispatch x.E x.c.routes x.rq.requestURI with
    | none =>
      rw [hsm.running.engine, hroutes] at hdis
      have := (C01_longest_match hB.sort hb _).2.1 hdis _ ((hfrom _).2 ⟨r1, hr1, rfl⟩)
      rw [(hmatch r1 hr1).2 hs1] at this
      cases this
    | some r =>
      rw [hsm.running.engine, hroutes] at hdis
      obtain ⟨hmem, hmat, hlong⟩ := (C01_longest_match hB.sort hb _).1 r hdis
      obtain ⟨r0, hr0, rfl⟩ := (hfrom r).1 hmem
      exact ⟨r0, ⟨hr0, (hmatch r0 hr0).1 hmat, fun r' hr' hpre =>
        hlong _ ((hfrom _).2 ⟨r', hr', rfl⟩) ((hmatch r' hr').2 hpre)⟩, rfl⟩
  obtain ⟨hj, ms, hms, srv, hsrv, hlab⟩ := h.route r0 hr0
  rw [hdis] at hd
  have hhasJ : r0.served.hasJwt = true ↔ r0.jwt ≠ [] := by
    unfold Route.hasJwt
    simp [List.length_pos_iff, RouteSettings.served]
  have ha : authorise x.L x.c.jwt x.now r0.served x.rq = .accept := by
    unfold authorise
    by_cases hne : r0.jwt = []
    · rw [if_neg fun h => hhasJ.1 h hne]
    · rw [if_pos (hhasJ.2 hne)]
      have hjv : r0.served.jwt = r0.jwt := rfl
      simp only [hjv]
      have hent : ∃ e, (r0.jwt, e) ∈ t.jwt := by
        obtain ⟨r1, hr1, hr1e⟩ : ∃ r1 ∈ (t.present (K := K)).routes, r1.jwt = r0.jwt := ⟨_, List.mem_map.2 ⟨r0, hr0.1, rfl⟩, rfl⟩
        have := hhas r1 hr1 (by unfold Route.hasJwt; rw [hr1e]; simpa [List.length_pos_iff] using hne)
        rw [hr1e] at this
        obtain ⟨j0, hj0⟩ := Option.isSome_iff_exists.1 this
        obtain ⟨-, -, -, -, -, -, hval⟩ := C13_boot_sound hB.sort hb
        obtain ⟨j1, hj1, -⟩ := hval _ _ (mem_of_lookup hj0)
        obtain ⟨⟨en, ev⟩, he, hee⟩ := List.mem_map.1 hj1
        simp only [Prod.mk.injEq] at hee
        obtain ⟨rfl, -⟩ := hee
        exact ⟨ev, he⟩
      obtain ⟨e0, he0⟩ := hent
      obtain ⟨j, hlk⟩ := Option.isSome_iff_exists.1 (hkeep _ _ he0)
      rw [hlk]
      simp only
      obtain ⟨e, he, hp, -⟩ := entry_of hB.sort hB.write hB.fetch hsm.running hlk
      rcases hj with hj | hj
      · exact absurd hj hne
      · obtain ⟨token, c, skew, g1, g2⟩ := hj e he
        exact hp ⟨token, c, skew, message_presents hauthv g1, g2⟩
  obtain ⟨text, v, -, -, hv⟩ := hB.write
  have hlk := lookup_of_mem_nodup (written_nodup hv) hms
  have hcr : c'.resources r0.served.resource = some (ms.map fun (m : ServerSettings) =>
      (⟨r0.resource, m.labels, ⟨normScheme m.scheme, m.host, m.port⟩⟩ : ResourceMapping)) := by
    rw [hrc]
    have hrr : r0.served.resource = r0.resource := rfl
    rw [hrr]
    simp only [Config.reApplyResourceNames, Config.reApplyResourceSchemes, Settings.present, Settings.meant, hlk,
      Option.map_some, List.map_map]
    rfl
  simp only [ha] at hd
  cases hmap : r0.served.mapURL x.pick x.c.policies x.c.resources with
  | mapped u l =>
    simp only [hmap] at hd
    exact ⟨_, _, _, hd⟩
  | notMapped =>
    exfalso
    rw [hpol, hres, C07_not_mapped_iff, hcr] at hmap
    rcases hmap with hmap | ⟨hpn, ms', hms', hno⟩
    · cases hmap
    · obtain rfl := Option.some.inj hms'
      have hrp : r0.served.policy = r0.policy := rfl
      have : (c'.policies r0.policy).getD [] = t.policy r0.policy := by
        rw [hpc]
        unfold Settings.policy Config.addDefaultPolicy
        simp only [Settings.present]
        split <;> rfl
      have := this ▸ hno _ (List.mem_map_of_mem hsrv)
      exact this (hlab hpn)
  | panics =>
    exfalso
    rw [hpol, hres] at hmap
    unfold Route.mapURL at hmap
    rw [hcr] at hmap
    obtain ⟨a, l, rfl⟩ : ∃ a l, ms = a :: l := by
      cases ms with
      | nil => cases hsrv
      | cons a l => exact ⟨a, l, rfl⟩
    simp only [List.map_cons] at hmap
    split at hmap
    · split at hmap <;> cases hmap
    · cases hmap

/-- Messages with a transfer coding announce no length. -/
theorem unannounced {stream rest : Str} {m : HttpRequest} (hr : ReadsIncoming stream m rest) (ha : Acceptable m)
    (hbare : HeadBare m) (hlen : m.body.length < 2 ^ 63) (hte : fieldValues m.fields "transfer-encoding".toList ≠ []) {rq : Request}
    {rest' : Option Str} (hd : Arrives stream rq rest') : rq.contentLength ≤ 0 := by
  obtain ⟨lines, s, hl, hf, hb, rfl⟩ := hr.text
  obtain ⟨c, e1, fr, e2, e3, h1, h2, h3, h4, h5, h6, h7⟩ := transfer_incoming hl hf hb ha hbare hlen _ rfl
  obtain ⟨h, g1, -, -, g4, -⟩ := readHead_lines (s := s) hr.method hr.target hl hf ha h1 h2 h3 h5 h6 h7
  have hc : c = true := by
    have vte : (fixPragma (mimeHeader (lines.map fun l => trimBlank l.1))).values "Transfer-Encoding".toList ≠ [] := by
      rw [← hf] at hte
      rw [values_read hl "Transfer-Encoding" (by decide) (by decide) (by decide) (by decide)]
      exact hte
    unfold fixCoding at h1
    split at h1
    · simp only [Bool.not_true, Bool.false_eq_true, if_false] at h1
      split at h1
      · split at h1
        · cases h1
          rfl
        · cases h1
      · cases h1
    · rename_i hk
      refine absurd ?_ hk
      rw [hasKey_fixPragma (by decide) (by decide)]
      rw [values_fixPragma (by decide)] at vte
      exact vte
  subst hc
  have hfr : fr.length ≤ 0 := by
    unfold fixLength at h2
    simp only [if_true] at h2
    split at h2
    · cases h2
    · generalize (if (e1.values "Content-Length".toList).length > 1 then [trimSpace ((e1.values "Content-Length".toList).headD [])]
        else e1.values "Content-Length".toList) = one at h2
      generalize (if (e1.values "Content-Length".toList).length > 1 then delKey e1 "Content-Length" ++ [("Content-Length".toList, one)]
        else e1) = e4 at h2
      split at h2
      · split at h2
        · cases h2
          decide
        · cases h2
      · cases h2
        decide
  obtain ⟨h', after, hd⟩ := hd
  have he := hd.head
  rw [g1] at he
  obtain ⟨rfl, rfl⟩ := Prod.mk.inj (Option.some.inj he)
  rw [hd.length, g4]
  exact hfr

/-! ## The theorem -/

/-- C183, part: a client sends a message that the document admits. Whatever else the gateway does, the message is passed on, and an
answer to it that is given before an upstream is asked is 502 or 504; if the handler ends in good order, there is one answer. Full
statement: also for bodies that are exactly as long as the limit (`C183_violated`), and without the assumptions on messages and
documents of C178 and C179. `hkeep`: the entries of the document are there. -/
theorem C183_passed_partial (B : Machinery K) (src : Sources) (t : Settings) (served : Str → List (Jwk K) → Prop)
    (hB : Started B src t served) (A : Around K) (g : Hub K) (h : g.Reached A) (k : Task K) (hk : k ∈ g.tasks) (m : HttpRequest)
    (hsm : SentAs B src served k.x m) (hkeep : ∀ n e, (n, e) ∈ t.jwt → (k.x.c.jwt.lookup n).isSome = true)
    (hpass : t.Passes B.X B.hmacKey B.fetch k.x.L k.x.pick k.x.now m)
    (hfit : m.body.length < t.bodyLimit ∨ fieldValues m.fields "transfer-encoding".toList ≠ [] ∧ 0 ≤ t.bodyLimit) :
    (∃ r u l, k.x.dec = .forward r u l) ∧ (k.s.calls = [] → ∀ y ∈ k.s.sent, y.status = 502 ∨ y.status = 504) ∧
      (k.x.ReachesOrderly k.s → k.s.pc = .done → ∃ y, k.s.sent = [y]) := by
  have hr : k.x.Reaches k.s := (C174_alone A g h k hk).2.1
  have hl : k.x.pb.tooLarge = false := by
    obtain ⟨stream, rest, rest', b1, b2⟩ := hsm.bytes
    obtain ⟨hwf, -⟩ := C165_sound_partial stream k.x.rq rest' b2
    obtain ⟨-, -, d3, d4, -⟩ := C165_delivered_partial stream rest m b1 hsm.acceptable hsm.bare hsm.short k.x.rq rest' b2
    obtain ⟨c', hbf, hb⟩ := started_boot hB.write hsm.running.started
    obtain ⟨-, -, -, hconn, -⟩ := hsm.running.config c' hbf
    obtain ⟨-, -, -, -, -, -, -, hcc⟩ := boot_elim hb
    have hmax : k.x.maxBody = t.bodyLimit := by
      unfold Setup.maxBody
      rw [hconn, hcc]
      exact (C10_downstream_defaults t.connection.downstream).2.2.2.1
    refine not_tooLarge hwf.length ?_
    rintro ⟨h0, h1⟩
    rw [hmax] at h1
    rcases hfit with hfit | ⟨hte, hfit⟩
    · rw [← d3, bodyText_length] at hfit
      by_cases h2 : 0 ≤ k.x.rq.contentLength
      · have := hwf.complete h2 d4
        omega
      · omega
    · have := unannounced b1 hsm.acceptable hsm.bare hsm.short hte b2
      omega
  obtain ⟨r, u, l, hd⟩ := passed_dec hB hsm hkeep hl hpass
  refine ⟨⟨r, u, l, hd⟩, fun hc y hy => ?_, fun ho hdone => ?_⟩
  · rcases own_status hr hc hy with ⟨msg, h⟩ | h
    · rw [hd] at h
      cases h
    · exact h
  · obtain ⟨y, hy, -⟩ := C35_partial k.x k.s ho hd hdone
    exact ⟨y, hy⟩

/-! ## Examples -/

theorem Demo.limit_passes {method : String} {target : Str} {m : HttpRequest} {x : Setup Nat} (hm : m.method = method.toList)
    (h1 : toUpper method.toList ∈ proxiedMethods) (ht : m.target = target) (h2 : "/a".toList <+: target) :
    limitSettings.Passes limitGateway.X limitGateway.hmacKey limitGateway.fetch x.L x.pick x.now m := by
  refine ⟨by rw [hm]; exact h1, ⟨_, .head _, ?_⟩, fun r hr => ?_⟩
  · rw [ht]
    exact (selects_literal (by decide)).2 h2
  · obtain rfl := List.mem_singleton.1 hr.1
    exact ⟨.inl rfl, _, .head _, _, .head _, fun h => absurd rfl h⟩

/-- The message of C182_violated, after its upstream was asked and failed: the document admits it, apart from the length that it does
not announce, and the theorem applies; 502 is the only answer that can come without asking. -/
example : ∃ (A : Around Nat) (g : Hub Nat) (k : Task Nat), g.Reached A ∧ k ∈ g.tasks ∧ k.s.pc = .done ∧ k.s.calls.length = 1 ∧
    k.s.sent.map (·.status) = [502] ∧ ∃ r u l, k.x.dec = .forward r u l := by
  obtain ⟨s, h1, hc⟩ := Demo.of_check (x := Demo.fiveBytes)
    (as := [Demo.go, .hgCall 0, .hgReturn 0 none, .hgWrite 0, .hgClose 0] ++ List.replicate 9 Demo.go)
    (p := fun s => (Demo.seen s).finished && s.calls.length == 1 && s.sent.map (·.status) == [502]) (by decide +kernel)
  simp only [Bool.and_eq_true, beq_iff_eq] at hc
  have hg := (Hub.Reached.new (A := { T := Demo.lib, keyOf := fun _ => "up".toList, comes := fun _ => True })).step
      (.accept Demo.fiveBytes trivial) |>.acts (j := 0) rfl h1 (by simp [Demo.go]) (by simp [Demo.go])
  exact ⟨_, _, _, hg, .head _, Demo.done_of_seen hc.1.1, hc.1.2, hc.2, (C183_passed_partial limitGateway { env := "…".toList }
    limitSettings (fun _ _ => False) Demo.limit_started _ _ hg _ (.head _) Demo.chunkyMessage Demo.five_sent (fun _ _ h => nomatch h)
    (Demo.limit_passes (method := "post") rfl (by decide) rfl (by decide)) (.inr ⟨by decide, by decide⟩)).1⟩

/-! ## Where it fails -/

/-- C183 is violated: the document allows bodies of four bytes and admits the message, which has four of them, and the client is
refused with 413. -/
theorem C183_violated : ∃ (x : Setup Nat) (m : HttpRequest) (A : Around Nat) (g : Hub Nat) (k : Task Nat),
    Started limitGateway { env := "…".toList } limitSettings (fun _ _ => False) ∧
    SentAs limitGateway { env := "…".toList } (fun _ _ => False) x m ∧
    limitSettings.Passes limitGateway.X limitGateway.hmacKey limitGateway.fetch x.L x.pick x.now m ∧
    (m.body.length : Int) = limitSettings.bodyLimit ∧
    g.Reached A ∧ k ∈ g.tasks ∧ k.x = x ∧ k.s.pc = .done ∧ k.s.calls = [] ∧ k.s.sent.map (·.status) = [413] := by
  obtain ⟨s, h1, hc⟩ := Demo.of_check (x := Demo.limited) (as := [Demo.go, Demo.go])
    (p := fun s => (Demo.seen s).finished && s.calls.isEmpty && s.sent.map (·.status) == [413]) (by decide +kernel)
  simp only [Bool.and_eq_true, beq_iff_eq, List.isEmpty_iff] at hc
  have hg := (Hub.Reached.new (A := { T := Demo.lib, keyOf := fun _ => "up".toList, comes := fun _ => True })).step
      (.accept Demo.limited trivial) |>.acts (j := 0) rfl h1 (by simp [Demo.go]) (by simp [Demo.go])
  exact ⟨Demo.limited, Demo.limitMessage, _, _, _, Demo.limit_started,
    ⟨running_fresh (by decide +kernel) rfl (getD_of_some (d := {}) (by decide +kernel)), ⟨_, _, _, Demo.limit_reads, Demo.limit_arrives⟩,
      Demo.limit_acceptable.1, Demo.limit_acceptable.2, by decide⟩,
    Demo.limit_passes (method := "POST") rfl (by decide) rfl (by decide), by decide, hg, .head _, rfl, Demo.done_of_seen hc.1.1, hc.1.2, hc.2⟩

end J8a

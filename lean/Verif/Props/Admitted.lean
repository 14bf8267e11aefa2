import Verif.Props.Refused
/-!
# C182: anything but a refusal is for those who are admitted
-/
namespace J8a
open Go Uri

variable {K : Type}

/-! ## What is asked for -/

/-- The document admits the message: method and length are within its bounds, and the route with the longest path that selects the
target grants what the message presents and leads to a server. -/
structure Settings.Admits (t : Settings) (X : X509 K) (hmacKey : Str → K) (served : Str → List (Jwk K) → Prop)
    (L : Jwx K) (pick : Policy → Str) (now : Int) (m : HttpRequest) : Prop where
  method : toUpper m.method ∈ proxiedMethods
  body : fieldValues m.fields "transfer-encoding".toList = [] → m.body = [] ∨ m.body.length ≤ t.bodyLimit
  route : ∃ r, t.Meant m.target r ∧ (r.jwt ≠ [] → ∃ e, (r.jwt, e) ∈ t.jwt ∧ e.GrantsMessage X hmacKey served L now m) ∧
    ∃ ms, (r.resource, ms) ∈ t.resources ∧ ∃ srv ∈ ms, r.policy ≠ [] → pick (t.policy r.policy) ∈ srv.labels

/-- The statuses of refusals. -/
def refusals : List Int := [400, 401, 404, 413, 503]

/-! ## The theorem -/

/-- What is passed on is admitted by the document. -/
theorem admitted_of_forward {B : Machinery K} {src : Sources} {t : Settings} {served : Str → List (Jwk K) → Prop} (hsrt : IsRouteSort B.srt)
    (hw : src.Write B.yamlToJson t) (hp : ∀ r ∈ t.routes, (∃ p, r.path = '/' :: p) ∧ FollowsPath B.E r.path)
    (hfetch : ∀ n url ks, B.fetch n url = some ks → served url ks) {x : Setup K} {m : HttpRequest} (hsm : SentAs B src served x m)
    {r : Route} {u : URL} {l : Str} (hd : x.dec = .forward r u l) : t.Admits B.X B.hmacKey served x.L x.pick x.now m := by
  obtain ⟨stream, rest, rest', b1, b2⟩ := hsm.bytes
  obtain ⟨hwf, -⟩ := C165_sound_partial stream x.rq rest' b2
  obtain ⟨d1, d2, -, -, -, d6, -⟩ := C165_delivered_partial stream rest m b1 hsm.acceptable hsm.bare hsm.short x.rq rest' b2
  have hauthv := d6 "Authorization".toList (by decide) (by decide) (by decide)
  obtain ⟨c', hbf, hb⟩ := started_boot hw hsm.running.started
  obtain ⟨hroutes, hpol, hres, hconn, -⟩ := hsm.running.config c' hbf
  obtain ⟨-, -, -, -, -, hpc, -, hcc⟩ := boot_elim hb
  have hfrom := booted_routes hsrt hb fun r hr => (hp r hr).1
  have hmatch : ∀ r0 ∈ t.routes, r0.served.matchURI B.E x.rq.requestURI = true ↔ Selects r0.path m.target :=
    fun r0 hr0 => by rw [← d2]; exact served_match (hp r0 hr0).2 _
  obtain ⟨hmeth, hsmall, hdis, hauth, hmap⟩ := decision_forward hd
  rw [hsm.running.engine, hroutes] at hdis
  obtain ⟨hmem, hmat, hlong⟩ := (C01_longest_match hsrt hb _).1 r hdis
  obtain ⟨r0, hr0, rfl⟩ := (hfrom r).1 hmem
  refine ⟨by rw [← d1]; exact hmeth, fun hte => ?_, r0, ⟨hr0, (hmatch r0 hr0).1 hmat, fun r' hr' hpre =>
    hlong _ ((hfrom _).2 ⟨r', hr', rfl⟩) ((hmatch r' hr').2 hpre)⟩, fun hne => ?_, ?_⟩
  · have hcl := announced b1 hsm.acceptable hsm.bare hsm.short hte b2
    by_cases hem : m.body = []
    · exact .inl hem
    · right
      have hpos := List.length_pos_iff.2 hem
      have hmax : x.maxBody = t.bodyLimit := by
        unfold Setup.maxBody
        rw [hconn, hcc]
        exact (C10_downstream_defaults t.connection.downstream).2.2.2.1
      refine Classical.byContradiction fun hn => ?_
      have : x.pb.tooLarge = true := (tooLarge_iff hwf.length).2 ⟨by omega, by rw [hmax]; omega⟩
      rw [hsmall] at this
      cases this
  · obtain ⟨j, hl, hv⟩ := authorise_jwt hauth hne
    obtain ⟨e, he, -, hg⟩ := entry_of hsrt hw hfetch hsm.running hl
    obtain ⟨token, c, g1, g2⟩ := hg hv
    exact ⟨e, he, token, c, presents_message hauthv g1, g2⟩
  · rw [hpol, hres] at hmap
    obtain ⟨ms, hms, srv, hsrv, -, hm1, -⟩ := C07_mapped_sound _ _ _ _ _ _ hmap
    obtain ⟨l0, hl0, rfl⟩ := booted_resources hb hms
    obtain ⟨m0, hm0, rfl⟩ := List.mem_map.1 hsrv
    refine ⟨l0, hl0, m0, hm0, fun hpn => ?_⟩
    obtain ⟨hl1, hl2⟩ := hm1 hpn
    have hrp : r0.served.policy = r0.policy := rfl
    have : (c'.policies r0.policy).getD [] = t.policy r0.policy := by
      rw [hpc]
      unfold Settings.policy Config.addDefaultPolicy
      simp only [Settings.present]
      split <;> rfl
    rw [hl2, hrp, this] at hl1
    exact hl1

/-- C182, part: a client sends the message `m`, and while the gateway serves any number of others an upstream is asked for it, or it
is answered with anything but a refusal: a result, or the message that the upstreams fail. Then the document admits `m`. So nobody
else learns whether the upstreams are there. Full statement: without `hp` and the restrictions on messages in `SentAs`, and with a
bound for bodies in chunks. Missing: regular expressions with `|` (`hp`; see `C108_violated`), bodies in chunks (`C182_violated`), and
messages that the gateway reads in another way than the grammar (C165_violated). -/
theorem C182_admitted_partial (B : Machinery K) (hsrt : IsRouteSort B.srt) (src : Sources) (t : Settings) (hw : src.Write B.yamlToJson t)
    (hp : ∀ r ∈ t.routes, (∃ p, r.path = '/' :: p) ∧ FollowsPath B.E r.path) (served : Str → List (Jwk K) → Prop)
    (hfetch : ∀ n url ks, B.fetch n url = some ks → served url ks) (A : Around K) (g : Hub K) (h : g.Reached A) (k : Task K)
    (hk : k ∈ g.tasks) (m : HttpRequest) (hsm : SentAs B src served k.x m)
    (hout : k.s.calls ≠ [] ∨ ∃ y ∈ k.s.sent, y.status ∉ refusals) :
    t.Admits B.X B.hmacKey served k.x.L k.x.pick k.x.now m := by
  have hr : k.x.Reaches k.s := (C174_alone A g h k hk).2.1
  rcases going_or_still hr with ⟨r, u, l, hd, -⟩ | ⟨hn, hst⟩
  · exact admitted_of_forward hsrt hw hp hfetch hsm hd
  · exfalso
    rcases hout with hc | ⟨y, hy, hs⟩
    · exact hc hst.calls
    · cases hd : k.x.dec with
      | forward r u l => exact hn r u l hd
      | respond code msg =>
        have hcode : code ∈ refusals := by
          rcases decision_respond hd with h | h | ⟨-, -, h | ⟨r, -, h | h⟩⟩ <;> rw [h.1] <;> decide
        have hv : validStatus code = true := by
          have key : ∀ c ∈ refusals, validStatus c = true := by decide
          exact key _ hcode
        rcases (onlyAnswer hr hd hv).sent with h | h
        · rw [h] at hy
          cases hy
        · rw [h, List.mem_singleton] at hy
          rw [hy] at hs
          exact hs hcode
      | panic =>
        obtain ⟨as, h⟩ := hr
        have := run_invariant (P := fun s => s.n = 0 ∧ s.sent = [] ∧ s.pc = .panicked)
          (fun s a s' hi hs => by
            obtain ⟨h0, h1, h2⟩ := hi
            cases a <;> step_cases hs <;> simp_all) (s := initial k.x.dec) (by simp [hd, initial]) h
        rw [this.2.1] at hy
        cases hy

/-! ## Examples -/

/-- A client whose token is good reads 502, because the upstream fails, and the theorem says that the document admits it; the
document does not admit a client that asks for something else, or one whose token nobody signed. -/
example : ∃ (A : Around Nat) (g : Hub Nat) (k : Task Nat), g.Reached A ∧ k ∈ g.tasks ∧ k.s.pc = .done ∧ k.s.sent.map (·.status) = [502] ∧
    (exSettings "/z").Admits (exGateway "/z").X (exGateway "/z").hmacKey (fun _ _ => False) k.x.L k.x.pick k.x.now
      (Demo.tokenMessage "/a/d") ∧
    ¬ (exSettings "/z").Admits (exGateway "/z").X (exGateway "/z").hmacKey (fun _ _ => False) k.x.L k.x.pick k.x.now
      (Demo.tokenMessage "/q") ∧
    ¬ (exSettings "/z").Admits (exGateway "/z").X (exGateway "/z").hmacKey (fun _ _ => False) Demo.unsigned.L k.x.pick k.x.now
      (Demo.tokenMessage "/a/d") := by
  obtain ⟨s, h1, hc⟩ := Demo.of_check (x := Demo.written "/z" "/a/d")
    (as := [Demo.go, .hgCall 0, .hgReturn 0 none, .hgWrite 0, .hgClose 0] ++ List.replicate 9 Demo.go)
    (p := fun s => (Demo.seen s).finished && s.sent.map (·.status) == [502]) (by decide +kernel)
  simp only [Bool.and_eq_true, beq_iff_eq] at hc
  have hg := (Hub.Reached.new (A := { T := Demo.lib, keyOf := fun _ => "up".toList, comes := fun _ => True })).step
      (.accept (Demo.written "/z" "/a/d") trivial) |>.acts (j := 0) rfl h1 (by simp [Demo.go]) (by simp [Demo.go])
  refine ⟨_, _, _, hg, .head _, Demo.done_of_seen hc.1, hc.2, ?_, fun h => ?_, fun h => ?_⟩
  · refine C182_admitted_partial (exGateway "/z") Demo.started.sort { env := "…".toList } (exSettings "/z") Demo.started.write
      (fun r hr => ⟨(Demo.started.plain.paths r hr).1, Demo.started.engine r hr⟩) (fun _ _ => False) Demo.started.fetch _ _ hg _ (.head _)
      (Demo.tokenMessage "/a/d") (Demo.written_sent (by decide) (by decide +kernel) (by decide +kernel)) (.inr ?_)
    obtain ⟨y, hy, hs⟩ := List.map_eq_singleton_iff.1 hc.2
    exact ⟨y, by show y ∈ s.sent; rw [hy]; exact .head _, by rw [hs]; decide⟩
  · obtain ⟨r, ⟨hr, hs, -⟩, -⟩ := h.route
    obtain rfl := List.mem_singleton.1 hr
    revert hs
    rw [selects_literal (by decide)]
    show ¬ "/a".toList <+: "/q".toList
    decide
  · obtain ⟨r, hr, hj, -⟩ := h.route
    obtain ⟨g1, g2⟩ := Demo.meant_j hr
    obtain ⟨e, he, _, _, _, _, _, h | ⟨_, _, h⟩⟩ := hj (by rw [g1]; decide)
    · rw [g2 e he] at h
      revert h
      decide
    · cases h

/-! ## Where it fails -/

theorem Demo.limit_started : Started limitGateway { env := "…".toList } limitSettings (fun _ _ => False) := by
  refine ⟨exSort_isSort, fun r hr => ?_, ⟨_, _, .env (.inl rfl) (by decide), rfl, limitDocument_written⟩,
    ⟨fun r hr => ?_, fun r hr => ?_, fun e he m hm => ?_⟩, fun _ _ _ h => nomatch h⟩
  · obtain rfl := List.mem_singleton.1 hr
    exact follows_literal literalEngine_law (by decide : Literal "/a".toList)
  · obtain rfl := List.mem_singleton.1 hr
    exact ⟨⟨['a'], rfl⟩, fun h => absurd rfl h⟩
  · obtain rfl := List.mem_singleton.1 hr
    decide
  · obtain rfl := List.mem_singleton.1 he
    obtain rfl := List.mem_singleton.1 hm
    exact ⟨.inl ⟨by decide, by decide +kernel⟩, .inr ⟨[], "://".toList, rfl⟩⟩

/-- The gateway with a limit of four bytes, and five of them in chunks. -/
def Demo.fiveBytes : Setup Nat := { Demo.limited with rq := Demo.chunky.rq }

theorem Demo.five_sent : SentAs limitGateway { env := "…".toList } (fun _ _ => False) Demo.fiveBytes Demo.chunkyMessage where
  running := running_fresh (by decide +kernel) rfl (getD_of_some (d := {}) (by decide +kernel))
  bytes := ⟨_, _, _, Demo.chunky_reads, Demo.chunky_arrives⟩
  acceptable := Demo.chunky_acceptable.1
  bare := Demo.chunky_acceptable.2
  short := by decide

/-- C182 is violated: the document allows bodies of four bytes, a client sends five of them in chunks, and an upstream is asked for
its message, without a body. -/
theorem C182_violated : ∃ (x : Setup Nat) (m : HttpRequest) (A : Around Nat) (g : Hub Nat) (k : Task Nat),
    Started limitGateway { env := "…".toList } limitSettings (fun _ _ => False) ∧
    SentAs limitGateway { env := "…".toList } (fun _ _ => False) x m ∧ limitSettings.bodyLimit < m.body.length ∧
    g.Reached A ∧ k ∈ g.tasks ∧ k.x = x ∧ k.s.calls.map (fun p => p.2.body) = [[]] := by
  obtain ⟨s, h1, hc⟩ := Demo.of_check (x := Demo.fiveBytes) (as := [Demo.go, .hgCall 0])
    (p := fun s => s.calls.map (fun p => p.2.body) == [[]]) (by decide +kernel)
  have hg := (Hub.Reached.new (A := { T := Demo.lib, keyOf := fun _ => "up".toList, comes := fun _ => True })).step
      (.accept Demo.fiveBytes trivial) |>.acts (j := 0) rfl h1 (by simp [Demo.go]) (by simp [Demo.go])
  exact ⟨Demo.fiveBytes, _, _, _, _, Demo.limit_started, Demo.five_sent, by decide, hg, .head _, rfl, by simpa using hc⟩

end J8a

import Verif.Props.Told
import Verif.Props.Served
/-!
# C187: everyone is answered in the end
-/
namespace J8a
open Go Uri

variable {K : Type}

/-- Who asks for what must not be repeated, or from a gateway that makes one attempt, meets no late write. -/
theorem Hub.Goes.single {A : Around K} {γ : Nat → Hub K} (h : Hub.Goes A γ) {j n : Nat} {k : Task K} (hk : (γ n).tasks[j]? = some k)
    {B : Machinery K} {src : Sources} {served : Str → List (Jwk K) → Prop} {m : HttpRequest} (hsm : SentAs B src served k.x m)
    (h1 : toUpper m.method ∉ ["GET", "HEAD", "OPTIONS", "TRACE", "PUT", "DELETE"].map String.toList ∨
      k.x.c.connection.upstream.maxAttempts ≤ 1) :
    ∀ i k', (γ (n + i)).tasks[j]? = some k' → Orderly k.x.env (initial k.x.dec) k'.acts := by
  intro i k' hk'
  obtain ⟨k2, g1, g2⟩ := h.stays hk i
  rw [hk'] at g1
  obtain rfl := Option.some.inj g1
  have hrun := ((Hub.inv (h.reached (n + i))).runs j k' hk').2
  rw [g2] at hrun
  by_cases hd : ∃ r u l, k.x.dec = .forward r u l
  · obtain ⟨r, u, l, hd⟩ := hd
    rw [hd] at hrun ⊢
    obtain ⟨stream, rest, rest', b1, b2⟩ := hsm.bytes
    have d1 := (C165_delivered_partial stream rest m b1 hsm.acceptable hsm.bare hsm.short k.x.rq rest' b2).1
    rw [← d1] at h1
    exact orderly_of_single (Inv.initial _ r u l).count (Inv.initial k.x.env r u l).pos h1 hrun
  · exact (Still.initial fun r u l h => hd ⟨r, u, l, h⟩).orderly hrun

/-- C187, part: while the gateway goes on, whatever the others do, every client comes to read one message: a refusal for a reason that
the document gives, and no upstream has been asked; or that upstreams fail; or the answer of an upstream to the message that the
document has in the place of its own. Full statement: without the assumptions on messages and documents of C178 and C184, also with
late writes (C51) and with upstreams that break the protocol (C106). -/
theorem C187_answered_partial (B : Machinery K) (src : Sources) (t : Settings) (served : Str → List (Jwk K) → Prop)
    (hB : Started B src t served) (hres : ∀ e ∈ t.resources, e.2 ≠ []) (A : Around K) (γ : Nat → Hub K) (h : Hub.Goes A γ) (j n : Nat)
    (k : Task K) (hk : (γ n).tasks[j]? = some k) (m : HttpRequest) (hsm : SentAs B src served k.x m) (hok : k.x.sv.uriOk = newRequestOk)
    (hkeep : ∀ n e, (n, e) ∈ t.jwt → (k.x.c.jwt.lookup n).isSome = true)
    (htok : ∀ token, m.PresentsToken token → (∃ n, k.x.L.signatures token = some n) ∧ (k.x.L.parse token).isSome = true)
    (hcm : (∃ r u l, k.x.dec = .forward r u l) → CameAs B src t served k.x m)
    (hf : Fair k.x.env fun i => (γ (n + i)).at j k) (hp : ∀ i, SoundUpstreams (γ (n + i)))
    (hord : ∀ i k', (γ (n + i)).tasks[j]? = some k' → Orderly k.x.env (initial k.x.dec) k'.acts)
    (hi : TextIds k.x) (hm : toUpper m.method = "HEAD".toList → m.method = "HEAD".toList) (c : ReplyConn) (hcn : ConnOf k.x c) :
    ∃ i k', (γ (n + i)).tasks[j]? = some k' ∧ k'.x = k.x ∧ k'.s.pc = .done ∧ ∃ y, k'.s.sent = [y] ∧ ∀ keys, Enumerates keys y.header →
      ∃ m2' : HttpResponse, ReadAs k'.x (writeResponse c keys y) y m2' ∧
        (k'.s.calls = [] ∧ NothingElse m2' ∧
            t.RefusesMessage B.X B.hmacKey B.fetch k'.x.L k'.x.pick k'.x.now (fun n limit => limit ≤ n) m m2'.status ∨
          (γ (n + i)).Serves A B t served k' m m2') := by
  obtain ⟨i, k', h1, h2, h3, -, -⟩ := C176_finished A γ h j n k hk hf
  have ho := hord i k' h1
  have hst : ∀ a v, Act.hgReturn a (some v) ∈ k'.acts → 100 ≤ v.status := fun a v hv => by
    have := sound_statuses (h.reached (n + i)) (hp i) (List.mem_of_getElem? h1) hv
    omega
  rw [← h2] at hsm hok hkeep htok hcm ho hi hcn
  have hr := h.reached (n + i)
  have hlive := C184_alive_partial B src t served hB hres A _ hr k' (List.mem_of_getElem? h1) m hsm hok hkeep htok
    (fun hd => ⟨hcm hd, ho⟩) hst
  have hdone : k'.s.pc = .done := h3.resolve_right hlive
  have hrun := ((Hub.inv hr).runs j k' h1).2
  obtain ⟨y, hy, hread⟩ := C180_answered_partial B src t served hB A _ hr (hp _) j k' h1 m hsm (fun hd => ⟨hcm hd, _, hrun, ho⟩) hdone
    hi hm c hcn
  refine ⟨i, k', h1, h2, hdone, y, hy, fun keys he => ?_⟩
  obtain ⟨m2', hra, hcase⟩ := hread keys he
  exact ⟨m2', hra, hcase⟩

/-- The theorem applies to the client of C185: its upstream fails, and it is told so. -/
example : ∃ (A : Around Nat) (γ : Nat → Hub Nat) (n i : Nat) (k k' : Task Nat), Hub.Goes A γ ∧ (γ n).tasks[0]? = some k ∧ k.x = Demo.today ∧
    (γ (n + i)).tasks[0]? = some k' ∧ k'.s.pc = .done ∧ k'.s.calls.length = 1 ∧ ∃ y, k'.s.sent = [y] ∧ y.status = 502 ∧
    ∀ keys, Enumerates keys y.header → ∃ m2' : HttpResponse, m2'.status = 502 ∧
      ReadAs k'.x (writeResponse Demo.conn keys y) y m2' ∧
      (γ (n + i)).Serves A (exGateway "/z") (exSettings "/z") (fun _ _ => False) k' (Demo.tokenMessage "/a/d") m2' := by
  let as : List Act := [Demo.go, .hgCall 0, .hgReturn 0 none, .hgWrite 0, .hgClose 0] ++ List.replicate 9 Demo.go ++ [.atmptTimer 0]
  obtain ⟨s, h1, hc⟩ := Demo.of_check (x := Demo.today) (as := as)
    (p := fun s => (Demo.seen s).finished && s.calls.length == 1 && s.sent.map (·.status) == [502] && s.n == 1 && (s.atmpt 0).ctxDone)
    (by decide +kernel)
  simp only [Bool.and_eq_true, beq_iff_eq] at hc
  obtain ⟨⟨⟨⟨hc1, hc2⟩, hc3⟩, hc4⟩, hc5⟩ := hc
  have hd := Demo.done_of_seen hc1
  have hg := (Hub.Reached.new (A := { T := Demo.lib, keyOf := fun _ => "up".toList, comes := fun _ => True })).step
      (.accept Demo.today trivial) |>.acts (j := 0) rfl h1 (by simp [as, Demo.go]) (by simp [as, Demo.go])
  obtain ⟨γ, N, h3, h4⟩ := hg.goes
  have ht : (γ N).tasks[0]? = some ⟨Demo.today, [] ++ as, s, []⟩ := by
    rw [h4 N (Nat.le_refl _)]
    rfl
  have hsame : ∀ i, γ (N + i) = γ N := fun i => by rw [h4 _ (Nat.le_add_right _ _), h4 N (Nat.le_refl _)]
  have hat : ∀ i (t : Task Nat), (γ (N + i)).at 0 t = s := by
    intro i t
    unfold Hub.at
    rw [hsame, ht]
    rfl
  have hkeep : ∀ n e, (n, e) ∈ (exSettings "/z").jwt → (Demo.today.c.jwt.lookup n).isSome = true := by
    intro n e he
    obtain ⟨rfl, -⟩ := Prod.mk.inj (List.mem_singleton.1 he)
    show (Demo.today.c.jwt.lookup "j".toList).isSome = true
    decide +kernel
  have hfair : Fair Demo.today.env fun i => (γ (N + i)).at 0 (⟨Demo.today, [] ++ as, s, []⟩ : Task Nat) := by
    refine ⟨fun i hi => ?_, fun i k hk _ => ⟨i, Nat.le_refl _, ?_⟩⟩
    · obtain ⟨c, s', hs⟩ := hi i (Nat.le_refl _)
      rw [hat] at hs
      simp [stepMain, hd] at hs
    · simp only [hat] at hk ⊢
      obtain rfl : k = 0 := by omega
      exact hc5
  have hsound : ∀ i, SoundUpstreams (γ (N + i)) := by
    intro i l hl
    rw [h4 _ (Nat.le_add_right _ _)] at hl
    exact (nomatch hl)
  have htok : ∀ token, (Demo.tokenMessage "/a/d").PresentsToken token →
      (∃ n, Demo.today.L.signatures token = some n) ∧ (Demo.today.L.parse token).isSome = true := by
    intro token hp
    have h2 := (presents_iff _ _).1 (message_presents (rq := Demo.today.rq) (by decide +kernel) hp)
    have h3 : bearerToken (Demo.today.rq.header.get "Authorization".toList) = some "v".toList := by decide +kernel
    rw [h3] at h2
    obtain rfl := Option.some.inj h2
    exact ⟨⟨1, by decide +kernel⟩, by decide +kernel⟩
  have hres : ∀ e ∈ (exSettings "/z").resources, e.2 ≠ [] := by
    intro e he
    obtain rfl := List.mem_singleton.1 he
    exact List.cons_ne_nil _ _
  have hca := Demo.today_came
  have hsm : SentAs (exGateway "/z") { env := "…".toList } (fun _ _ => False) Demo.today (Demo.tokenMessage "/a/d") :=
    ⟨hca.running, hca.bytes, hca.acceptable, hca.bare, hca.short⟩
  obtain ⟨i, k', g1, g2, g3, y, g4, g5⟩ := C187_answered_partial (exGateway "/z") { env := "…".toList } (exSettings "/z") (fun _ _ => False)
    Demo.started hres _ γ h3 0 N _ ht (Demo.tokenMessage "/a/d") hsm rfl hkeep htok (fun _ => hca) hfair hsound
    (h3.single ht hsm (.inr (show Demo.today.c.connection.upstream.maxAttempts ≤ 1 by decide +kernel)))
    ⟨Demo.text_ids.id, Demo.text_ids.version, Demo.text_ids.xrid⟩ (fun h => absurd h (by show toUpper "get".toList ≠ _; decide))
    Demo.conn ⟨rfl, Demo.conn_of.text⟩
  have hk := g1
  rw [hsame, ht] at hk
  obtain rfl := Option.some.inj hk
  have hy : y.status = 502 := by
    have e : s.sent = [y] := g4
    rw [e] at hc3
    simpa using hc3
  refine ⟨_, γ, N, i, _, _, h3, ht, rfl, g1, g3, hc2, y, g4, hy, fun keys hks => ?_⟩
  obtain ⟨m2', e1, e2⟩ := g5 keys hks
  refine ⟨m2', by have := e1.status; omega, e1, e2.resolve_left fun e => ?_⟩
  have e : s.calls = [] := e.1
  rw [e] at hc2
  exact absurd hc2 (by decide)

/-- C187 is violated: a client that presents something that is no token is never answered, however long the gateway goes on. -/
theorem C187_violated : ∃ (x : Setup Nat) (m : HttpRequest) (A : Around Nat) (γ : Nat → Hub Nat) (n j : Nat) (k : Task Nat),
    Started (exGateway "/z") { env := "…".toList } (exSettings "/z") (fun _ _ => False) ∧
    SentAs (exGateway "/z") { env := "…".toList } (fun _ _ => False) x m ∧ Hub.Goes A γ ∧ (γ n).tasks[j]? = some k ∧ k.x = x ∧
    (Fair x.env fun i => (γ (n + i)).at j k) ∧
    ∀ i k', (γ (n + i)).tasks[j]? = some k' → k'.s.pc ≠ .done ∧ k'.s.sent = [] := by
  obtain ⟨x, m, A, γ, n, k, h1, h2, -, -, h3, ⟨j, h4, h5, h6⟩, h7⟩ := C186_violated
  refine ⟨x, m, A, γ, n, j, k, h1, h2, h3, h4, h5, h6, fun i k' hk' => ?_⟩
  obtain ⟨k2, g1, g2⟩ := h3.stays h4 i
  rw [hk'] at g1
  obtain rfl := Option.some.inj g1
  obtain ⟨e1, e2⟩ := h7 (n + i) k' (List.mem_of_getElem? hk') (g2.trans h5)
  exact ⟨by rw [e1]; exact fun h => (nomatch h), e2⟩

end J8a

import Verif.Props.Alive
import Verif.Props.HubEnd
/-!
# C185: who is admitted is served in the end
-/
namespace J8a
open Go Uri

variable {K : Type}

/-! ## The statuses that come from upstreams -/

/-- The responses that a handler has got were read on connections. -/
theorem delivered {A : Around K} {g : Hub K} (h : g.Reached A) : ∀ t ∈ g.tasks, ∀ i v, Act.hgReturn i (some v) ∈ t.acts →
    ∃ w, (i, w) ∈ t.got ∧ v = w.up := by
  induction h with
  | new => exact fun t ht => nomatch ht
  | step _ hs ih =>
    have hset : ∀ {l : List (Task K)} {j : Nat} {t' : Task K}, (∀ t ∈ l, ∀ i v, Act.hgReturn i (some v) ∈ t.acts →
        ∃ w, (i, w) ∈ t.got ∧ v = w.up) → (∀ i v, Act.hgReturn i (some v) ∈ t'.acts → ∃ w, (i, w) ∈ t'.got ∧ v = w.up) →
        ∀ t ∈ l.set j t', ∀ i v, Act.hgReturn i (some v) ∈ t.acts → ∃ w, (i, w) ∈ t.got ∧ v = w.up := by
      intro l j t' h1 h2 t ht
      rcases List.mem_or_eq_of_mem_set ht with ht | rfl
      · exact h1 t ht
      · exact h2
    cases hs with
    | accept x hx =>
      intro t ht
      rcases List.mem_append.1 ht with ht | ht
      · exact ih t ht
      · rw [List.mem_singleton.1 ht]
        exact fun i v h => nomatch h
    | act j t a s' h1 h2 h3 h4 =>
      refine hset ih fun i v hv => ?_
      rcases List.mem_append.1 hv with hv | hv
      · exact ih t (List.mem_of_getElem? h1) i v hv
      · exact absurd (List.mem_singleton.1 hv).symm (h3 i v)
    | deliver j t i q k l e s' h1 h2 h3 h4 h5 =>
      refine hset ih fun i' v hv => ?_
      rcases List.mem_append.1 hv with hv | hv
      · obtain ⟨w, g1, g2⟩ := ih t (List.mem_of_getElem? h1) i' v hv
        exact ⟨w, List.mem_append_left _ g1, g2⟩
      · have := List.mem_singleton.1 hv
        simp only [Act.hgReturn.injEq, Option.some.injEq] at this
        obtain ⟨rfl, rfl⟩ := this
        exact ⟨_, List.mem_append_right _ (.head _), rfl⟩
    | dial => exact ih
    | ask => exact ih
    | conn => exact ih

/-- The statuses of upstreams that keep to the protocol, also if the body is cut off. -/
theorem sound_statuses {A : Around K} {g : Hub K} (h : g.Reached A) (hp : SoundUpstreams g) {k : Task K} (hk : k ∈ g.tasks) {i : Nat}
    {v : UpResp} (hv : Act.hgReturn i (some v) ∈ k.acts) : 200 ≤ v.status := by
  obtain ⟨w, h1, rfl⟩ := delivered h k hk i v hv
  obtain ⟨j, hj⟩ := List.mem_iff_getElem?.1 hk
  obtain ⟨q, z, l, e, hz, he, -, rfl⟩ := (Hub.inv h).got j i k w hj h1
  obtain ⟨as, ha, hu⟩ := hp l (List.mem_of_getElem? hz)
  obtain ⟨n, hn⟩ := List.mem_iff_getElem?.1 he
  obtain ⟨-, a, k1, ⟨p, rest, ⟨more, rfl⟩, hd, after, hrec⟩, -⟩ := C173_own_partial l.c ((Hub.inv h).lines z l hz).reached as ha n e hn
  obtain ⟨i', m, hi5, hread, -⟩ := hu n e.toAsked _ (asked_log hn) k1
  obtain ⟨h', after', g1, g2⟩ := readFinal_reads (k := maxInterims) hread hi5
  have g3 := readFinal_append _ _ _ _ hrec.head more
  have hm : 200 ≤ m.status := by
    have : ∀ {method : Str} {n : Nat} {s r : Str} {m : HttpResponse}, ReadsFinal method n s m r → 200 ≤ m.status := by
      intro method n s r m hr
      induction hr with
      | final _ h => exact h
      | interim _ _ _ _ _ ih => exact ih
    exact this hread
  have e1 : e.w.status = (m.status : Int) := by
    rw [hrec.status, ← g2.status]
    have := g3.symm.trans g1
    injection this with this
    injection this with this
    rw [this]
  have e2 : (decompress A.T q e.w).up.status = e.w.status := decompress_status _ _ _
  omega

/-! ## In the end -/

/-- What a client reads whose message `m` is passed on: that the upstreams fail, or the answer of an upstream to the message that the
document has in its place; with a status from 400 on, nothing but the status. -/
def Hub.Serves (g : Hub K) (A : Around K) (B : Machinery K) (t : Settings) (served : Str → List (Jwk K) → Prop) (k : Task K)
    (m : HttpRequest) (m2' : HttpResponse) : Prop :=
  NothingElse m2' ∧ (m2'.status = 502 ∨ m2'.status = 504) ∨
  ∃ (m' : HttpRequest) (m2 : HttpResponse), t.Relays B.X B.hmacKey served k.x.L k.x.pick k.x.now m m' ∧ g.Exchanged m' m2 ∧
    m2'.status = m2.status ∧
    (m2.status < 400 ∧
        (∀ f, f.all isTokenChar = true → f ≠ [] → toLower f ∉ changedReplyFields →
          fieldValues m2'.fields (toLower f) = fieldValues m2.fields (toLower f)) ∧
        SameBody A.T k m' m2 m2' ∨
      400 ≤ m2.status ∧ m2.status < 500 ∧ NothingElse m2')

/-- C185, part: while the gateway goes on, whatever the others do, a client whose message the document admits comes to read one
message, and it is not a refusal. Full statement: without the assumptions on messages and documents of C178 and C183, also with late
writes (C51) and with upstreams that break the protocol (C106). -/
theorem C185_served_partial (B : Machinery K) (src : Sources) (t : Settings) (served : Str → List (Jwk K) → Prop)
    (hB : Started B src t served) (A : Around K) (γ : Nat → Hub K) (h : Hub.Goes A γ) (j n : Nat) (k : Task K)
    (hk : (γ n).tasks[j]? = some k) (m : HttpRequest) (hcm : CameAs B src t served k.x m) (hok : k.x.sv.uriOk = newRequestOk)
    (hkeep : ∀ n e, (n, e) ∈ t.jwt → (k.x.c.jwt.lookup n).isSome = true)
    (hpass : t.Passes B.X B.hmacKey B.fetch k.x.L k.x.pick k.x.now m)
    (hfit : m.body.length < t.bodyLimit ∨ fieldValues m.fields "transfer-encoding".toList ≠ [] ∧ 0 ≤ t.bodyLimit)
    (hf : Fair k.x.env fun i => (γ (n + i)).at j k) (hp : ∀ i, SoundUpstreams (γ (n + i)))
    (hord : ∀ i k', (γ (n + i)).tasks[j]? = some k' → Orderly k.x.env (initial k.x.dec) k'.acts)
    (hi : TextIds k.x) (hm : toUpper m.method = "HEAD".toList → m.method = "HEAD".toList) (c : ReplyConn) (hcn : ConnOf k.x c) :
    ∃ i k', (γ (n + i)).tasks[j]? = some k' ∧ k'.x = k.x ∧ k'.s.pc = .done ∧ ∃ y, k'.s.sent = [y] ∧ ∀ keys, Enumerates keys y.header →
      ∃ m2' : HttpResponse, ReadAs k'.x (writeResponse c keys y) y m2' ∧ (γ (n + i)).Serves A B t served k' m m2' := by
  obtain ⟨i, k', h1, h2, h3, -, -⟩ := C176_finished A γ h j n k hk hf
  have ho := hord i k' h1
  have hst : ∀ a v, Act.hgReturn a (some v) ∈ k'.acts → 100 ≤ v.status := fun a v hv => by
    have := sound_statuses (h.reached (n + i)) (hp i) (List.mem_of_getElem? h1) hv
    omega
  rw [← h2] at hcm hok hkeep hpass ho hi hcn
  have hsm : SentAs B src served k'.x m := ⟨hcm.running, hcm.bytes, hcm.acceptable, hcm.bare, hcm.short⟩
  have hr := h.reached (n + i)
  obtain ⟨⟨r, u, l, hd⟩, hown, -⟩ := C183_passed_partial B src t served hB A _ hr k' (List.mem_of_getElem? h1) m hsm hkeep hpass hfit
  have hrun := ((Hub.inv hr).runs j k' h1).2
  have hlive := C106_no_crash_partial k'.x k'.acts k'.s hrun ho r u l hd (by rw [hok]; exact passed_uri hB hcm hd) hst
  have hdone : k'.s.pc = .done := h3.resolve_right hlive
  obtain ⟨y, hy, hread⟩ := C180_answered_partial B src t served hB A _ hr (hp _) j k' h1 m hsm (fun _ => ⟨hcm, _, hrun, ho⟩) hdone hi hm
    c hcn
  refine ⟨i, k', h1, h2, hdone, y, hy, fun keys he => ?_⟩
  obtain ⟨m2', hra, hcase⟩ := hread keys he
  refine ⟨m2', hra, ?_⟩
  rcases hcase with ⟨hc, hne, -⟩ | hc | hc
  · have hs := hra.status
    refine .inl ⟨hne, ?_⟩
    rcases hown hc y (by rw [hy]; exact .head _) with e | e <;> rw [e] at hs
    · exact .inl (by omega)
    · exact .inr (by omega)
  · exact .inl hc
  · exact .inr hc

/-- C185 for messages that must not be repeated, and for a single attempt: writes are never late. -/
theorem C185_once_partial (B : Machinery K) (src : Sources) (t : Settings) (served : Str → List (Jwk K) → Prop)
    (hB : Started B src t served) (A : Around K) (γ : Nat → Hub K) (h : Hub.Goes A γ) (j n : Nat) (k : Task K)
    (hk : (γ n).tasks[j]? = some k) (m : HttpRequest) (hcm : CameAs B src t served k.x m) (hok : k.x.sv.uriOk = newRequestOk)
    (hkeep : ∀ n e, (n, e) ∈ t.jwt → (k.x.c.jwt.lookup n).isSome = true)
    (hpass : t.Passes B.X B.hmacKey B.fetch k.x.L k.x.pick k.x.now m)
    (hfit : m.body.length < t.bodyLimit ∨ fieldValues m.fields "transfer-encoding".toList ≠ [] ∧ 0 ≤ t.bodyLimit)
    (hf : Fair k.x.env fun i => (γ (n + i)).at j k) (hp : ∀ i, SoundUpstreams (γ (n + i)))
    (h1 : toUpper m.method ∉ ["GET", "HEAD", "OPTIONS", "TRACE", "PUT", "DELETE"].map String.toList ∨
      k.x.c.connection.upstream.maxAttempts ≤ 1)
    (hi : TextIds k.x) (hm : toUpper m.method = "HEAD".toList → m.method = "HEAD".toList) (c : ReplyConn) (hcn : ConnOf k.x c) :
    ∃ i k', (γ (n + i)).tasks[j]? = some k' ∧ k'.x = k.x ∧ k'.s.pc = .done ∧ ∃ y, k'.s.sent = [y] ∧ ∀ keys, Enumerates keys y.header →
      ∃ m2' : HttpResponse, ReadAs k'.x (writeResponse c keys y) y m2' ∧ (γ (n + i)).Serves A B t served k' m m2' := by
  refine C185_served_partial B src t served hB A γ h j n k hk m hcm hok hkeep hpass hfit hf hp (fun i k' hk' => ?_) hi hm c hcn
  obtain ⟨k2, g1, g2⟩ := h.stays hk i
  rw [hk'] at g1
  obtain rfl := Option.some.inj g1
  have hrun := ((Hub.inv (h.reached (n + i))).runs j k' hk').2
  rw [g2] at hrun
  by_cases hd : ∃ r u l, k.x.dec = .forward r u l
  · obtain ⟨r, u, l, hd⟩ := hd
    rw [hd] at hrun ⊢
    obtain ⟨stream, rest, rest', b1, b2⟩ := hcm.bytes
    have d1 := (C165_delivered_partial stream rest m b1 hcm.acceptable hcm.bare hcm.short k.x.rq rest' b2).1
    rw [← d1] at h1
    exact orderly_of_single (Inv.initial _ r u l).count (Inv.initial k.x.env r u l).pos h1 hrun
  · exact (Still.initial fun r u l h => hd ⟨r, u, l, h⟩).orderly hrun

/-! ## Examples -/

/-- A client with a token, at a time after 1970. -/
def Demo.today : Setup Nat := { Demo.written "/z" "/a/d" with now := 1000000 }

theorem Demo.today_passes : (exSettings "/z").Passes (exGateway "/z").X (exGateway "/z").hmacKey (exGateway "/z").fetch Demo.today.L
    Demo.today.pick Demo.today.now (Demo.tokenMessage "/a/d") := by
  refine ⟨by decide, ⟨_, .head _, (selects_literal (by decide)).2 (by decide)⟩, fun r hr => ?_⟩
  obtain rfl := List.mem_singleton.1 hr.1
  refine ⟨.inr fun e he => ?_, _, .head _, _, .head _, fun h => absurd rfl h⟩
  obtain ⟨-, rfl⟩ := Prod.mk.inj (List.mem_singleton.1 he)
  refine ⟨"v".toList, {}, 120, ⟨"Bearer v".toList, by decide +kernel, "Bearer".toList, [], by decide, by decide, by decide, .inl rfl⟩, rfl,
    ⟨by decide, fun _ => rfl, fun h => absurd rfl h⟩, by decide, by decide, by decide, .inl rfl, ?_, .inr ⟨⟨0, rfl⟩, 1, .inl ⟨by decide, ?_⟩, rfl⟩⟩
  · exact ⟨fun _ h => (nomatch h), fun _ h => (nomatch h), fun _ h => (nomatch h)⟩
  · exact .secret (by decide) (by decide)

theorem Demo.today_came : CameAs (exGateway "/z") { env := "…".toList } (exSettings "/z") (fun _ _ => False) Demo.today
    (Demo.tokenMessage "/a/d") := by
  have h := Demo.written_came (target := "/a/d") (by decide) (by decide +kernel) (by decide +kernel) ⟨"a/d".toList, by decide +kernel, .inl rfl⟩
  exact ⟨⟨h.running.started, h.running.engine, h.running.config⟩, h.bytes, h.acceptable, h.bare, h.short, h.fits, h.connect, h.origin, h.breaks⟩

/-- The theorem applies to that client: its upstream fails, and it is told so. -/
example : ∃ (A : Around Nat) (γ : Nat → Hub Nat) (n i : Nat) (k k' : Task Nat), Hub.Goes A γ ∧ (γ n).tasks[0]? = some k ∧ k.x = Demo.today ∧
    (γ (n + i)).tasks[0]? = some k' ∧ k'.s.pc = .done ∧ k'.s.calls.length = 1 ∧ ∃ y, k'.s.sent = [y] ∧ y.status = 502 ∧
    ∀ keys, Enumerates keys y.header → ∃ m2' : HttpResponse, m2'.status = 502 ∧
      ReadAs k'.x (writeResponse Demo.conn keys y) y m2' ∧
      (γ (n + i)).Serves A (exGateway "/z") (exSettings "/z") (fun _ _ => False) k' (Demo.tokenMessage "/a/d") m2' := by
  obtain ⟨s, h1, hc⟩ := Demo.of_check (x := Demo.today)
    (as := [Demo.go, .hgCall 0, .hgReturn 0 none, .hgWrite 0, .hgClose 0] ++ List.replicate 9 Demo.go ++ [.atmptTimer 0])
    (p := fun s => (Demo.seen s).finished && s.calls.length == 1 && s.sent.map (·.status) == [502] && s.n == 1 && (s.atmpt 0).ctxDone)
    (by decide +kernel)
  simp only [Bool.and_eq_true, beq_iff_eq] at hc
  obtain ⟨⟨⟨⟨hc1, hc2⟩, hc3⟩, hc4⟩, hc5⟩ := hc
  have hd := Demo.done_of_seen hc1
  have hg := (Hub.Reached.new (A := { T := Demo.lib, keyOf := fun _ => "up".toList, comes := fun _ => True })).step
      (.accept Demo.today trivial) |>.acts (j := 0) rfl h1 (by simp [Demo.go]) (by simp [Demo.go])
  obtain ⟨γ, N, h3, h4⟩ := hg.goes
  have ht : (γ N).tasks[0]? = some ⟨Demo.today, [] ++ ([Demo.go, .hgCall 0, .hgReturn 0 none, .hgWrite 0, .hgClose 0] ++
      List.replicate 9 Demo.go ++ [.atmptTimer 0]), s, []⟩ := by
    rw [h4 N (Nat.le_refl _)]
    rfl
  have hsame : ∀ i, γ (N + i) = γ N := fun i => by rw [h4 _ (Nat.le_add_right _ _), h4 N (Nat.le_refl _)]
  have hat : ∀ i (t : Task Nat), (γ (N + i)).at 0 t = s := by
    intro i t
    unfold Hub.at
    rw [hsame, ht]
    rfl
  have hkeep : ∀ n e, (n, e) ∈ (exSettings "/z").jwt → (Demo.today.c.jwt.lookup n).isSome = true := by
    intro n e he
    obtain ⟨rfl, -⟩ := Prod.mk.inj (List.mem_singleton.1 he)
    show (Demo.today.c.jwt.lookup "j".toList).isSome = true
    decide +kernel
  have hfair : Fair Demo.today.env fun i => (γ (N + i)).at 0 (⟨Demo.today, [] ++ ([Demo.go, .hgCall 0, .hgReturn 0 none, .hgWrite 0, .hgClose 0] ++
      List.replicate 9 Demo.go ++ [.atmptTimer 0]), s, []⟩ : Task Nat) := by
    refine ⟨fun i hi => ?_, fun i k hk _ => ⟨i, Nat.le_refl _, ?_⟩⟩
    · obtain ⟨c, s', hs⟩ := hi i (Nat.le_refl _)
      rw [hat] at hs
      simp [stepMain, hd] at hs
    · simp only [hat] at hk ⊢
      obtain rfl : k = 0 := by omega
      exact hc5
  have hmax := Or.inr (a := toUpper "get".toList ∉ ["GET", "HEAD", "OPTIONS", "TRACE", "PUT", "DELETE"].map String.toList)
    (show Demo.today.c.connection.upstream.maxAttempts ≤ 1 by decide +kernel)
  have hsound : ∀ i, SoundUpstreams (γ (N + i)) := by
    intro i l hl
    rw [h4 _ (Nat.le_add_right _ _)] at hl
    exact (nomatch hl)
  obtain ⟨i, k', g1, g2, g3, y, g4, g5⟩ := C185_once_partial (exGateway "/z") { env := "…".toList } (exSettings "/z") (fun _ _ => False)
    Demo.started _ γ h3 0 N _ ht (Demo.tokenMessage "/a/d") Demo.today_came rfl hkeep Demo.today_passes (.inl (by decide)) hfair hsound hmax
    ⟨Demo.text_ids.id, Demo.text_ids.version, Demo.text_ids.xrid⟩ (fun h => absurd h (by show toUpper "get".toList ≠ _; decide))
    Demo.conn ⟨rfl, Demo.conn_of.text⟩
  have hk := g1
  rw [hsame, ht] at hk
  obtain rfl := Option.some.inj hk
  have hy : y.status = 502 := by
    have e : s.sent = [y] := g4
    rw [e] at hc3
    simpa using hc3
  refine ⟨_, γ, N, i, _, _, h3, ht, rfl, g1, g3, hc2, y, g4, hy, fun keys hks => ?_⟩
  obtain ⟨m2', e1, e2⟩ := g5 keys hks
  exact ⟨m2', by have := e1.status; omega, e1, e2⟩

/-! ## Where it fails -/

/-- C185 is violated: the document allows bodies of four bytes and admits the message, which has four of them, and no upstream is ever
asked for it; the client is answered with 413. -/
theorem C185_violated : ∃ (x : Setup Nat) (m : HttpRequest),
    Started limitGateway { env := "…".toList } limitSettings (fun _ _ => False) ∧
    SentAs limitGateway { env := "…".toList } (fun _ _ => False) x m ∧
    limitSettings.Passes limitGateway.X limitGateway.hmacKey limitGateway.fetch x.L x.pick x.now m ∧
    (m.body.length : Int) ≤ limitSettings.bodyLimit ∧
    ∀ (A : Around Nat) (g : Hub Nat) (k : Task Nat), g.Reached A → k ∈ g.tasks → k.x = x →
      k.s.calls = [] ∧ (k.s.pc = .done → k.s.sent.map (·.status) = [413]) := by
  refine ⟨Demo.limited, Demo.limitMessage, Demo.limit_started,
    ⟨running_fresh (by decide +kernel) rfl (getD_of_some (d := {}) (by decide +kernel)), ⟨_, _, _, Demo.limit_reads, Demo.limit_arrives⟩,
      Demo.limit_acceptable.1, Demo.limit_acceptable.2, by decide⟩,
    Demo.limit_passes (method := "POST") rfl (by decide) rfl (by decide), by decide, ?_⟩
  intro A g k hg hk hx
  have ho := onlyAnswer (C174_alone A g hg k hk).2.1 (by rw [hx]; exact decision_tooLarge (by decide +kernel)) (by decide)
  refine ⟨ho.calls, fun hd => ?_⟩
  rw [ho.done hd]
  rfl

end J8a

import Verif.Lemmas.AttemptLog
import Verif.Lemmas.Recode
import Verif.Props.Attempts
/-!
# C138, C139: the log tells how each upstream attempt ended, and not what the client sent
-/
namespace J8a
open Go

variable {K : Type}

/-! ## C138 -/

/-- C138: whatever upstreams do, the log has the beginning of each attempt made, in order and once; each attempt but
the last is logged once as failed before the next begins, and the last has at most one end. -/
theorem C138_attempts (x : Setup K) (as : List Act) (s : St) (w : AtmptLog) (h : x.LogsAttempts as s w) {r : Route}
    {u : URL} {l : Str} (hd : x.dec = .forward r u l) :
    ∃ codes : List (Option Int), codes.length + 1 = s.n ∧
      (marks w.lines = failures codes ++ [.begun s.n] ∨
        ∃ ok code, marks w.lines = failures codes ++ [.begun s.n, .ended s.n ok code]) := by
  obtain ⟨-, cs, t, h1, h2, h3⟩ := (logsAttempts_inv h hd).marks
  refine ⟨cs, h1, ?_⟩
  have : t = [] ∨ ∃ ok code, t = [.ended s.n ok code] := by
    have h3 := h3
    unfold Tail at h3
    split at h3
    all_goals first
      | exact .inl h3
      | (obtain ⟨c, h3⟩ := h3; exact .inr ⟨_, _, h3⟩; done)
      | (rcases h3 with ⟨c, h3⟩ | ⟨c, h3⟩ <;> exact .inr ⟨_, _, h3⟩)
      | (rcases h3 with h3 | ⟨c, h3⟩ | ⟨c, h3⟩
         · exact .inl h3
         all_goals exact .inr ⟨_, _, h3⟩)
  rcases this with rfl | ⟨ok, code, rfl⟩
  · exact .inl h2
  · exact .inr ⟨ok, code, h2⟩

/-- C138: once the client has its answer the last attempt has its end too. -/
theorem C138_ended (x : Setup K) (as : List Act) (s : St) (w : AtmptLog) (h : x.LogsAttempts as s w) {r : Route}
    {u : URL} {l : Str} (hd : x.dec = .forward r u l) (hf : s.pc = .done) :
    ∃ (codes : List (Option Int)) (ok : Bool) (code : Option Int), codes.length + 1 = s.n ∧
      marks w.lines = failures codes ++ [.begun s.n, .ended s.n ok code] := by
  obtain ⟨-, cs, t, h1, h2, h3⟩ := (logsAttempts_inv h hd).marks
  rw [hf] at h3
  rcases h3 with ⟨c, rfl⟩ | ⟨c, rfl⟩
  · exact ⟨cs, true, _, h1, h2⟩
  · exact ⟨cs, false, c, h1, h2⟩

/-- C138: a status in the log is that of the response which that very attempt received. -/
theorem C138_codes (x : Setup K) (as : List Act) (s : St) (w : AtmptLog) (h : x.LogsAttempts as s w) {r : Route}
    {u : URL} {l : Str} (hd : x.dec = .forward r u l) (k : Nat) (ok : Bool) (code : Int)
    (hm : .ended k ok (some code) ∈ marks w.lines) :
    0 < k ∧ k ≤ s.n ∧ ∃ v, (s.atmpt (k - 1)).vResp = some v ∧ v.status = code :=
  (logsAttempts_inv h hd).code.codes k ok code hm

/-- C138: if the log says that the last attempt failed, the client gets 502 or 504. -/
theorem C138_failed (x : Setup K) (as : List Act) (s : St) (w : AtmptLog) (h : x.LogsAttempts as s w) {r : Route}
    {u : URL} {l : Str} (hd : x.dec = .forward r u l) (hf : s.pc = .done) (k : Nat) (code : Option Int)
    (hm : (marks w.lines).getLast? = some (.ended k false code)) :
    ∀ y ∈ s.sent, y.status = 502 ∨ y.status = 504 := by
  intro y hy
  have ht := (logsAttempts_inv h hd).told
  unfold Told lastMark at ht
  rw [hf] at ht
  rcases ht y hy with ⟨c, hl, -⟩ | ⟨c, -, hc⟩
  · rw [hm] at hl
    cases hl
  · exact hc

/-- C138, part: without late writes the last attempt is logged as successful exactly if the client gets a status below
500, and the status logged is the client's.

Missing: executions in which a goroutine of an abandoned attempt writes late, see `C138_violated`. -/
theorem C138_outcome_partial (x : Setup K) (as : List Act) (s : St) (w : AtmptLog) (h : x.LogsAttempts as s w)
    (ho : Orderly x.env (initial x.dec) as) {r : Route} {u : URL} {l : Str} (hd : x.dec = .forward r u l)
    (hf : s.pc = .done) :
    ∃ y, s.sent = [y] ∧
      ((y.status < 500 ∧ (marks w.lines).getLast? = some (.ended s.n true (some y.status))) ∨
       ((y.status = 502 ∨ y.status = 504) ∧ ∃ code, (marks w.lines).getLast? = some (.ended s.n false code))) := by
  have hi := logsAttempts_orderly h ho hd
  obtain ⟨y, hy, -⟩ := C50_answer_partial x s ⟨as, watch_run h, ho⟩ hd hf
  refine ⟨y, hy, ?_⟩
  have ht := hi.told
  unfold Told lastMark at ht
  rw [hf] at ht
  rcases ht y (by rw [hy]; exact List.mem_singleton.mpr rfl) with ⟨c, hl, hc⟩ | ⟨c, hl, hc⟩
  · obtain ⟨rfl, hc⟩ := hc trivial
    exact .inl ⟨hc, hl⟩
  · exact .inr ⟨hc, c, hl⟩

theorem attemptLogged_mono {e : Env} {s : St} {a : Act} {w : AtmptLog} {l : AtmptLine} (h : l ∈ w.lines) :
    l ∈ (attemptLogged e s a w).lines := by
  unfold attemptLogged
  split
  · exact List.mem_append_left _ (List.mem_append_left _ h)
  · split
    · exact List.mem_append_left _ h
    · exact h
  · split
    · exact List.mem_append_left _ h
    · exact h
  · exact h

/-- C138: each request to an upstream has a line, written before it is sent, with the number of the attempt and the URI
that it is sent to. -/
theorem C138_uri (x : Setup K) (as : List Act) (s : St) (w : AtmptLog) (h : x.LogsAttempts as s w) {r : Route} {u : URL}
    {l : Str} (hd : x.dec = .forward r u l) (p : Nat × UpReq) (hp : p ∈ s.calls) :
    ⟨p.1 + 1, .resolved p.2.uri⟩ ∈ w.lines := by
  have key := watch_invariant (P := fun s w => (0 < s.n ∧ (∀ k < s.n, ∀ q, (s.atmpt k).hg = .started q →
      (⟨k + 1, .resolved q.uri⟩ : AtmptLine) ∈ w.lines)) ∧
      ∀ p ∈ s.calls, (⟨p.1 + 1, .resolved p.2.uri⟩ : AtmptLine) ∈ w.lines) (by
    rintro s a s' w ⟨⟨h0, h1⟩, h2⟩ hs
    refine ⟨⟨?_, fun k hk q hq => ?_⟩, fun p hp => ?_⟩
    · rcases step_n hs with hn | ⟨-, hn, -⟩ <;> omega
    · rcases step_n hs with hn | ⟨-, hn, -, -, hat⟩
      · rw [hn] at hk
        rcases step_hg hs k hk with hg | hg
        · exact attemptLogged_mono (h1 k hk q (by rw [← hg]; exact hq))
        · rw [hq] at hg
          generalize (s.atmpt k).hg = g at hg
          cases hg with
          | start c g hpc hk =>
            have hk1 : k + 1 = s.n := by rw [hk]; unfold St.cur; omega
            unfold attemptLogged attemptMsgs
            simp only [hpc, hk1]
            exact List.mem_append_left _ (List.mem_append_right _ (List.mem_singleton.2 rfl))
      · rw [hat] at hq
        simp only at hq
        split at hq
        · cases hq
        · exact attemptLogged_mono (h1 k (by omega) q hq)
    · rcases step_calls hs with hc | ⟨k, q, -, hk, hq, hc, -⟩
      · rw [hc] at hp
        exact attemptLogged_mono (h2 p hp)
      · rw [hc] at hp
        rcases List.mem_append.1 hp with hp | hp
        · exact attemptLogged_mono (h2 p hp)
        · obtain rfl := List.mem_singleton.1 hp
          exact attemptLogged_mono (h1 k hk q hq)) (by
    rw [hd]
    refine ⟨⟨Nat.one_pos, fun k hk q hq => ?_⟩, fun p hp => by cases hp⟩
    have : k = 0 := by simp only [initial] at hk; omega
    subst this
    cases hq) h
  exact key.2 p hp

/-- C138: no line about a recovered panic is ever written. -/
theorem C138_never_recovers (x : Setup K) (as : List Act) (s : St) (w : AtmptLog) (h : x.LogsAttempts as s w) :
    ∀ l ∈ w.lines, l.msg ≠ .recoveredHeader ∧ l.msg ≠ .recoveredBody := by
  have key := (watch_invariant (P := fun s w => CloseInv s ∧ ∀ l ∈ w.lines, l.msg.recovered = false)
    (fun _ _ _ _ hp hs => ⟨hp.1.step hs, no_recovery_step hp.1 hs hp.2⟩)
    ⟨.initial _, by cases x.dec <;> simp [AtmptLog.initial, AtmptMsg.recovered]⟩ h).2
  intro l hl
  have := key l hl
  constructor <;> (intro hm; rw [hm] at this; cases this)

/-- C138: a request asks for these lines by the header `X-Request-Debug: true`, in any case; otherwise they are of level
trace. The line with the URI is of level trace always. -/
theorem C138_level (e : Env) (readTimeoutSeconds atmptMicros dwnMicros : Int) (path : Str) (l : AtmptLine) :
    ((attemptEvent e readTimeoutSeconds atmptMicros dwnMicros path l).level = .debug ↔
      (∀ uri, l.msg ≠ .resolved uri) ∧
        (e.rq.header.get "X-Request-Debug".toList).map Char.toLower = "true".toList) ∧
    ((attemptEvent e readTimeoutSeconds atmptMicros dwnMicros path l).level = .debug ∨
      (attemptEvent e readTimeoutSeconds atmptMicros dwnMicros path l).level = .trace) := by
  have hx : parseXRequestDebug e.rq = true ↔
      (e.rq.header.get "X-Request-Debug".toList).map Char.toLower = "true".toList := by
    unfold parseXRequestDebug
    have : e.rq.header.get "X-REQUEST-DEBUG".toList = e.rq.header.get "X-Request-Debug".toList := by
      unfold Entries.get
      rw [show canon "X-REQUEST-DEBUG".toList = canon "X-Request-Debug".toList by decide]
    rw [this]
    generalize e.rq.header.get "X-Request-Debug".toList = v
    simp only [Bool.and_eq_true, decide_eq_true_eq, beq_iff_eq]
    refine ⟨fun h => h.2, ?_⟩
    · intro h
      refine ⟨?_, h⟩
      cases v
      · cases h
      · simp
  obtain ⟨k, m⟩ := l
  cases m with
  | resolved uri =>
    refine ⟨⟨fun h => ?_, fun h => absurd rfl (h.1 uri)⟩, .inr rfl⟩
    simp [attemptEvent] at h
  | _ =>
    rw [← hx]
    cases hb : parseXRequestDebug e.rq <;> simp [attemptEvent, hb]

/-- C138: every line has the request id, the number of the attempt and the maximum, and the times elapsed. -/
theorem C138_fields (e : Env) (readTimeoutSeconds atmptMicros dwnMicros : Int) (path : Str) (k : Nat) (ok : Bool)
    (code : Option Int) :
    attemptEvent e readTimeoutSeconds atmptMicros dwnMicros path ⟨k, .ended ok code⟩ =
      { level := (attemptEvent e readTimeoutSeconds atmptMicros dwnMicros path ⟨k, .ended ok code⟩).level,
        fields := [("X-Request-Id".toList, .str e.xrid), ("upAtmptElapsedMicros".toList, .int atmptMicros),
            ("dwnElapsedMicros".toList, .int dwnMicros),
            ("upAtmpt".toList, .str (itoa k ++ '/' :: itoa e.maxAttempts))] ++
          match code with
          | some c => [("upAtmptResCode".toList, .int c)]
          | none => [],
        msg := if ok then "upstream attempt successful".toList else "upstream attempt unsuccessful".toList } := by
  cases code <;> rfl

/-- What the log has in an execution of the example. -/
def Demo.told (as : List Act) : Option (List Mark × List Int) :=
  (watch Demo.setup.env (attemptLogged Demo.setup.env) (initial Demo.setup.dec) (AtmptLog.initial Demo.setup.dec) as).map
    fun p => (marks p.2.lines, p.1.sent.map (·.status))

/-- One attempt that succeeds, and two of which the first fails. -/
example : Demo.told (Demo.success Demo.ok) = some ([.begun 1, .ended 1 true (some 200)], [200]) := by decide +kernel

/-- Two attempts of which the first fails; the status is not in the log if the body was not waited for. -/
example : Demo.told (Demo.lateHeaders) =
    some ([.begun 1, .ended 1 false none, .begun 2, .ended 2 true (some 200)], [200]) := by decide +kernel

/-- Two requests, and the lines with their URIs. -/
example : (watch Demo.setup.env (attemptLogged Demo.setup.env) (initial Demo.setup.dec) (AtmptLog.initial Demo.setup.dec)
      Demo.lateHeaders).map (fun p => (p.1.calls.map fun c => (c.1, c.2.uri), p.2.lines.filterMap fun l => match l.msg with
        | .resolved u => some (l.count, u)
        | _ => none)) =
    some ([(0, "http://up:80/a/x".toList), (1, "http://up:80/a/x".toList)],
      [(1, "http://up:80/a/x".toList), (2, "http://up:80/a/x".toList)]) := by decide +kernel

theorem Demo.of_told {as : List Act} {p : List Mark × List Int} (h : Demo.told as = some p) :
    ∃ s w, Demo.setup.LogsAttempts as s w ∧ marks w.lines = p.1 ∧ s.sent.map (·.status) = p.2 := by
  unfold Demo.told at h
  obtain ⟨⟨s, w⟩, h1, h2⟩ := Option.map_eq_some_iff.mp h
  exact ⟨s, w, h1, by rw [← h2], by rw [← h2]⟩

/-- The hypotheses of `C138_outcome_partial` are met. -/
example : ∃ s w, Demo.setup.LogsAttempts (Demo.success Demo.ok) s w ∧
    Orderly Demo.setup.env (initial Demo.setup.dec) (Demo.success Demo.ok) ∧
    Demo.setup.dec = .forward Demo.route Demo.url "default".toList ∧ s.pc = .done ∧
    marks w.lines = [.begun 1, .ended 1 true (some 200)] := by
  have hd : Demo.setup.dec = .forward Demo.route Demo.url "default".toList := by decide +kernel
  obtain ⟨s, w, h1, h2, -⟩ := Demo.of_told (as := Demo.success Demo.ok)
    (p := ([.begun 1, .ended 1 true (some 200)], [200])) (by decide +kernel)
  obtain ⟨s', hs, hp⟩ := Demo.of_check (x := Demo.setup) (as := Demo.success Demo.ok)
    (p := fun s => (Demo.seen s).finished) (by decide +kernel)
  have hrun := watch_run h1
  have he : s = s' := Option.some.inj (hrun.symm.trans hs)
  subst he
  refine ⟨s, w, h1, ?_, hd, Demo.done_of_seen hp, h2⟩
  rw [hd] at hrun ⊢
  refine orderly_of_no_timeout (.initial _ Demo.route Demo.url _) (.initial _) (.initial Demo.route Demo.url _) ?_ hrun
  intro a ha i hi
  subst hi
  revert ha
  simp [Demo.success, Demo.attempt, Demo.headers, Demo.body]

/-- C138 fails: attempt 1 fails, attempt 2 succeeds with 200 and is logged so; the client gets 503 because the goroutine
of attempt 1 has written its status late. -/
theorem C138_violated : ∃ s w, Demo.setup.LogsAttempts Demo.lateStatus s w ∧
    marks w.lines = [.begun 1, .ended 1 false (some 503), .begun 2, .ended 2 true (some 200)] ∧
    s.sent.map (·.status) = [503] :=
  Demo.of_told (p := ([.begun 1, .ended 1 false (some 503), .begun 2, .ended 2 true (some 200)], [503]))
    (by decide +kernel)

/-! ## C139 -/

/-- The request that an upstream gets when the client sends `rq'` instead. -/
def Setup.replaced (x : Setup K) (rq' : Request) (q : UpReq) : UpReq :=
  { q with header := (copyHeaders rq'.header Hdr.empty).set xRequestID { x with rq := rq' }.xrid,
           body := { x with rq := rq' }.pb.body }

/-- Requests with the same method and target, of the same standing with the checks of size and token, and with the
headers that the log shows. -/
structure Setup.SameLog (x : Setup K) (rq' : Request) : Prop where
  method : toUpper rq'.method = toUpper x.rq.method
  target : rq'.requestURI = x.rq.requestURI
  uri : rq'.uri = x.rq.uri
  large : { x with rq := rq' }.pb.tooLarge = x.pb.tooLarge
  token : ∀ r ∈ x.c.routes, authorise x.L x.c.jwt x.now r rq' = authorise x.L x.c.jwt x.now r x.rq
  agent : rq'.header.get "User-Agent".toList = x.rq.header.get "User-Agent".toList
  id : rq'.header.get "X-Request-Id".toList = x.rq.header.get "X-Request-Id".toList
  debug : rq'.header.get "X-Request-Debug".toList = x.rq.header.get "X-Request-Debug".toList
  coding : contains (rq'.header.get "Accept-Encoding".toList) "gzip".toList =
    contains (x.rq.header.get "Accept-Encoding".toList) "gzip".toList

theorem Setup.SameLog.dec {x : Setup K} {rq' : Request} (h : x.SameLog rq') : { x with rq := rq' }.dec = x.dec := by
  unfold Setup.dec decision
  have hl : { x with rq := rq' }.pb.tooLarge = x.pb.tooLarge := h.large
  have hm : parseMethod rq' = parseMethod x.rq := h.method
  simp only [hl, hm, h.target]
  split
  · rfl
  · cases hd : dispatch x.E x.c.routes x.rq.requestURI with
    | none => rfl
    | some r =>
      simp only
      rw [h.token r (List.mem_of_find?_eq_some hd)]

theorem Setup.SameLog.alike {x : Setup K} {rq' : Request} (h : x.SameLog rq') :
    Alike (x.replaced rq') x.env { x with rq := rq' }.env := by
  have hd := h.dec
  have hm : parseMethod rq' = parseMethod x.rq := h.method
  have hx : { x with rq := rq' }.xrid = x.xrid := by
    unfold Setup.xrid createXRequestID
    rw [show rq'.header.get xRequestID = x.rq.header.get xRequestID from h.id]
  have hr : { x with rq := rq' }.respEnv = x.respEnv := by
    unfold Setup.respEnv
    simp only [hm, hx, show sendGzip rq' = sendGzip x.rq from h.coding]
  have hro : { x with rq := rq' }.env.route = x.env.route := by
    unfold Setup.env
    simp only [hd]
  refine ⟨hr, rfl, rfl, hro, h.uri, ?_, ?_, fun u => ?_, fun _ => rfl⟩
  · show parseUserAgent rq' = parseUserAgent x.rq
    unfold parseUserAgent
    rw [h.agent]
  · show parseXRequestDebug rq' = parseXRequestDebug x.rq
    unfold parseXRequestDebug
    have hk : canon "X-REQUEST-DEBUG".toList = canon "X-Request-Debug".toList := by decide
    have hv := h.debug
    unfold Entries.get at hv ⊢
    rw [hk, hv]
  · rw [hro]
    unfold scaffoldUpstreamRequest Setup.replaced
    simp only [UpReq.mk.injEq]
    refine ⟨hm, ?_, rfl, rfl⟩
    show resolveUpstreamURI u _ rq'.uri = resolveUpstreamURI u _ x.rq.uri
    rw [h.uri]

/-- C139, part: neither the values of other request headers, such as `Authorization` and `Cookie`, nor the request body
have any influence on the lines about the attempts and on the last line of a request.

Missing: the target, see `C139_violated_always`; the lines about a token are in `C139_token_partial`; other lines of level
trace before the first attempt. -/
theorem C139_independent_partial (x : Setup K) (rq' : Request) (h : x.SameLog rq') (i : ConnInfo) (as : List Act) :
    (∀ evs, (∃ s, x.Accesses i as s evs) ↔ ∃ s, { x with rq := rq' }.Accesses i as s evs) ∧
    (∀ w, (∃ s, x.LogsAttempts as s w) ↔ ∃ s, { x with rq := rq' }.LogsAttempts as s w) ∧
    ∀ rt am dm path l, attemptEvent { x with rq := rq' }.env rt am dm path l = attemptEvent x.env rt am dm path l := by
  have ha := h.alike
  refine ⟨fun evs => ?_, fun w => ?_, fun rt am dm path l => attemptEvent_alike ha rt am dm path l⟩
  · have key := watch_recode ha (accessed_recode ha i) as (initial x.dec) (LogSt.initial x.dec, [])
    rw [initial_recode] at key
    unfold Setup.Accesses
    rw [h.dec, key]
    constructor
    · rintro ⟨s, w, hw⟩
      exact ⟨_, w, by rw [hw]; rfl⟩
    · rintro ⟨s, w, hw⟩
      obtain ⟨⟨t, w', evs'⟩, h1, h2⟩ := Option.map_eq_some_iff.mp hw
      cases h2
      exact ⟨t, w, h1⟩
  · have key := watch_recode ha (attemptLogged_recode ha) as (initial x.dec) (AtmptLog.initial x.dec)
    rw [initial_recode] at key
    unfold Setup.LogsAttempts
    rw [h.dec, key]
    constructor
    · rintro ⟨s, hw⟩
      exact ⟨_, by rw [hw]; rfl⟩
    · rintro ⟨s, hw⟩
      obtain ⟨⟨t, w'⟩, h1, h2⟩ := Option.map_eq_some_iff.mp hw
      cases h2
      exact ⟨t, h1⟩

/-- The events of an execution. -/
def Demo.accesses (x : Setup Nat) (i : ConnInfo) (as : List Act) : Option (List ZEvent) :=
  (watch x.env (accessed i x.env) (initial x.dec) (LogSt.initial x.dec, []) as).map fun p => p.2.2

def Demo.info : ConnInfo where
  path := "/a/x".toList
  remoteAddr := "10.1.2.3:4".toList
  protoMajor := 1
  protoMinor := 1
  tls := none
  dwnMicros := 9
  atmptMicros := 5

/-- The example's request with a cookie and a body. -/
def Demo.withCookie : Request :=
  { Demo.request with header := Demo.request.header ++ [("Cookie".toList, ["session=secret".toList])] }

example : Demo.setup.SameLog Demo.withCookie where
  method := rfl
  target := rfl
  uri := rfl
  large := by decide
  token := by decide
  agent := by decide
  id := by decide
  debug := by decide
  coding := by decide

example : Demo.accesses Demo.setup Demo.info (Demo.success Demo.ok) =
      Demo.accesses { Demo.setup with rq := Demo.withCookie } Demo.info (Demo.success Demo.ok) ∧
    (Demo.accesses Demo.setup Demo.info (Demo.success Demo.ok)).map (·.map (·.fields.map Prod.fst)) =
      some [["dwnReqPath", "dwnReqRemoteAddr", "dwnReqMethod", "dwnReqUserAgent", "dwnHttpVer", "dwnResCode",
        "dwnResContentEnc", "dwnElapsedMicros", "X-Request-Id", "upReqURI", "upLabel", "upAtmptResCode",
        "upAtmptElapsedMicros", "upAtmptAbort", "upAtmpt"].map String.toList] := by decide +kernel

/-- C139 fails for the target: a line that names the upstream URI has the request's target with its query in full,
unless the route changes it. -/
theorem C139_violated_always (x : Setup K) (i : ConnInfo) (as : List Act) (s : St) (evs : List ZEvent)
    (h : x.Accesses i as s evs) (hr : x.env.route.transform = []) :
    ∀ ev ∈ evs, ∀ v, ("upReqURI".toList, ZVal.str v) ∈ ev.fields → ∃ base, v = base ++ x.rq.uri := by
  obtain ⟨w, h⟩ := h
  have key := watch_invariant (P := fun _ (w : LogSt × List ZEvent) =>
      ∀ ev ∈ w.2, ∃ l t, ev = accessEvent l (accessFields i x.env t)) (by
    intro t a t' w hw _ ev hev
    simp only [accessed] at hev
    rcases List.mem_append.mp hev with hev | hev
    · exact hw ev hev
    · obtain ⟨l, -, rfl⟩ := List.mem_map.mp hev
      exact ⟨l, t, rfl⟩) (by intro ev hev; cases hev) h
  intro ev hev v hv
  obtain ⟨l, t, rfl⟩ := key ev hev
  have hup : ∃ u, (accessFields i x.env t).up = some u ∧ v = u.uri := by
    have no : ∀ k, k ≠ "upReqURI".toList → ∀ z, ("upReqURI".toList, ZVal.str v) ≠ (k, z) :=
      fun k hk z he => hk (congrArg Prod.fst he).symm
    simp only [accessEvent] at hv
    rcases List.mem_append.mp hv with hv | hv
    · exfalso
      rcases List.mem_append.mp hv with hv | hv
      · rcases List.mem_append.mp hv with hv | hv
        · split at hv
          · exact no _ (by decide) _ (List.mem_singleton.mp hv)
          · cases hv
        · simp only [List.mem_cons, List.not_mem_nil, or_false] at hv
          rcases hv with hv | hv | hv | hv | hv | hv | hv | hv | hv <;> exact no _ (by decide) _ hv
      · split at hv
        · exact no _ (by decide) _ (List.mem_singleton.mp hv)
        · cases hv
    · split at hv
      · rename_i u hu
        refine ⟨u, hu, ?_⟩
        simp only [List.mem_cons, List.not_mem_nil, or_false] at hv
        rcases hv with hv | hv | hv | hv | hv | hv
        · have := congrArg Prod.snd hv
          cases this
          rfl
        all_goals exact (no _ (by decide) _ hv).elim
      · cases hv
  obtain ⟨u, hu, rfl⟩ := hup
  simp only [accessFields] at hu
  split at hu
  · cases hu
    refine ⟨t.curA.url.str, ?_⟩
    unfold resolveUpstreamURI
    rw [if_neg (by rw [hr]; exact Nat.lt_irrefl 0)]
    rfl
  · cases hu

/-- A token in the query. -/
def Demo.withToken : Setup Nat :=
  { Demo.setup with rq := { Demo.request with requestURI := "/a/x?access_token=secret".toList,
                                              uri := "/a/x?access_token=secret".toList } }

theorem C139_violated : ∃ s ev, Demo.withToken.Accesses Demo.info (Demo.success Demo.ok) s [ev] ∧ ev.level = .info ∧
    ("upReqURI".toList, ZVal.str "http://up:80/a/x?access_token=secret".toList) ∈ ev.fields := by
  have h : (Demo.accesses Demo.withToken Demo.info (Demo.success Demo.ok)).map (·.map fun ev => (ev.level, decide
      (("upReqURI".toList, ZVal.str "http://up:80/a/x?access_token=secret".toList) ∈ ev.fields))) =
      some [(.info, true)] := by decide +kernel
  unfold Demo.accesses at h
  obtain ⟨evs, h1, h2⟩ := Option.map_eq_some_iff.mp h
  obtain ⟨⟨s, w, evs'⟩, h3, rfl⟩ := Option.map_eq_some_iff.mp h1
  obtain ⟨ev, h4, h5⟩ := List.map_eq_singleton_iff.mp h2
  cases h4
  simp only [Prod.mk.injEq, decide_eq_true_eq] at h5
  exact ⟨s, ev, ⟨w, h3⟩, h5.1, h5.2⟩

end J8a

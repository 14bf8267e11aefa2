import Verif.Lemmas.Calendar
import Verif.Props.Hop
import Verif.Props.RespWire
import Verif.Props.Requests
import Verif.Props.Observe
/-!
# C134 to C137: what RFC 7230, 7231, 7233 and 7235 ask of a gateway

C134: a response has the header that its status requires.
C135: an upstream learns from Via that there is a gateway in between, and from Forwarded or X-Forwarded-For who the
client is.
C136: TRACE and OPTIONS with Max-Forwards go that far and no further.
C137: the Date of a response is when its origin made it.
-/
namespace J8a
open Go

variable {K : Type}

/-! ## C134 -/

/-- The header that a response with this status must have: RFC 7233 4.1 (for a single part), RFC 7235 3.1 and 3.2,
RFC 7231 6.5.5 and 6.5.15. -/
def requiredHeader (status : Int) : Option Str :=
  if status = 206 then some "Content-Range".toList
  else if status = 401 then some "Www-Authenticate".toList
  else if status = 405 then some "Allow".toList
  else if status = 407 then some "Proxy-Authenticate".toList
  else if status = 426 then some "Upgrade".toList
  else none

theorem requiredHeader_cases {status : Int} {k : Str} (h : requiredHeader status = some k) :
    status = 206 ∧ k = "Content-Range".toList ∨ (400 ≤ status ∧ status < 500) ∧
      k ∈ ["Www-Authenticate", "Allow", "Proxy-Authenticate", "Upgrade"].map String.toList := by
  unfold requiredHeader at h
  split at h
  · exact .inl ⟨by assumption, (Option.some.inj h).symm⟩
  right
  split at h
  · exact ⟨by omega, by rw [← Option.some.inj h]; decide⟩
  split at h
  · exact ⟨by omega, by rw [← Option.some.inj h]; decide⟩
  split at h
  · exact ⟨by omega, by rw [← Option.some.inj h]; decide⟩
  split at h
  · exact ⟨by omega, by rw [← Option.some.inj h]; decide⟩
  · cases h

/-- No own response has any of these headers. -/
theorem json_required {status : Int} {k : Str} (h : requiredHeader status = some k) (e : RespEnv) (code : Int) (msg : Str) :
    (jsonResponse e code msg).header k = [] := by
  rcases requiredHeader_cases h with ⟨-, rfl⟩ | ⟨-, hk⟩
  · rw [json_header, if_neg (by decide), std_other _ _ (by decide) (by decide) (by decide)]
  · simp only [List.map_cons, List.map_nil, List.mem_cons, List.not_mem_nil, or_false] at hk
    rcases hk with rfl | rfl | rfl | rfl <;>
      rw [json_header, if_neg (by decide), std_other _ _ (by decide) (by decide) (by decide)]

/-- C134, part: below 400, without late writes, the client's response has the required header whenever the upstream's
has, with the same values. -/
theorem C134_relayed_partial (x : Setup K) (s : St) (h : x.ReachesOrderly s) {r : Route} {u : URL} {l : Str}
    (hd : x.dec = .forward r u l) (hf : s.pc = .done) (y : Sent) (hy : y ∈ s.sent) (hs : y.status < 400) (k : Str)
    (hk : requiredHeader y.status = some k) :
    ∃ v, s.curA.vResp = some v ∧ v.status = y.status ∧ (v.header.WF → y.header k = v.header.values k) := by
  obtain ⟨v, hv, rfl, -⟩ := C37_partial x s h hd hf y hy hs
  refine ⟨v, hv, rfl, fun hw => ?_⟩
  rcases requiredHeader_cases hk with ⟨-, rfl⟩ | ⟨h4, -⟩
  · rw [proxied_header _ _ _ (by decide) (by decide), std_other _ _ (by decide) (by decide) (by decide),
      show shouldProxyHeader "Content-Range".toList = true by decide, if_pos rfl, Entries.under_wf hw, List.nil_append]
  · omega

/-- C134 fails for each status from 400 on that has a required header, whatever the upstream sent with it: without late
writes the client's response never has it. -/
theorem C134_violated_always (x : Setup K) (s : St) (h : x.ReachesOrderly s) {r : Route} {u : URL} {l : Str}
    (hd : x.dec = .forward r u l) (hf : s.pc = .done) (y : Sent) (hy : y ∈ s.sent) (hs : 400 ≤ y.status) (k : Str)
    (hk : requiredHeader y.status = some k) :
    y.header k = [] ∧ ∃ v, s.curA.vResp = some v ∧ v.status = y.status := by
  have h5 : y.status < 500 := by
    rcases requiredHeader_cases hk with ⟨h2, -⟩ | ⟨h4, -⟩ <;> omega
  obtain ⟨he, -, hv⟩ := C36_partial x s h hd hf y hy ⟨hs, h5⟩
  refine ⟨?_, hv⟩
  rw [he]
  exact json_required hk _ _ _

/-- C134 fails for each rejected token, under every schedule: the 401 has no challenge. -/
theorem C134_violated_own (x : Setup K) (s : St) (h : x.Reaches s) (hl : -1 ≤ x.rq.contentLength)
    (hm : toUpper x.rq.method ∈ proxiedMethods) (hb : ¬ DeclaredTooLarge x.maxBody x.rq)
    (r : Route) (hr : dispatch x.E x.c.routes x.rq.requestURI = some r) (hj : r.jwt ≠ [])
    (j : Jwt K) (hlk : x.c.jwt.lookup r.jwt = some j) (hbad : Rejectable x.L j x.now x.rq) (hf : s.pc = .done) :
    ∃ y, s.sent = [y] ∧ y.status = 401 ∧ requiredHeader 401 = some "Www-Authenticate".toList ∧
      y.header "Www-Authenticate".toList = [] := by
  obtain ⟨-, -, hd⟩ := C15_rejected_partial x s h hl hm hb r hr hj j hlk hbad
  exact ⟨_, hd hf, rfl, rfl, json_required (status := 401) rfl _ _ _⟩

/-- A challenge. -/
def Demo.challenge : UpResp :=
  { status := 401, header := [("Www-Authenticate".toList, ["Basic".toList])], body := [104, 105] }

/-- C134 fails: the upstream sends a challenge and the client gets the 401 without it. -/
theorem C134_violated : ∃ s y, Demo.setup.ReachesOrderly s ∧ s.pc = .done ∧ s.sent = [y] ∧
    s.curA.vResp = some Demo.challenge ∧ y.status = 401 ∧ y.header "Www-Authenticate".toList = [] := by
  obtain ⟨s, hs, hp⟩ := Demo.of_check (x := Demo.setup) (as := Demo.refused 0 Demo.challenge)
    (p := fun s => (Demo.seen s).finished && s.curA.vResp == some Demo.challenge && s.sent.map Sent.status == [401])
    (by decide +kernel)
  simp only [Bool.and_eq_true, beq_iff_eq] at hp
  obtain ⟨y, hy, h5⟩ := Demo.one_of_map hp.2
  have ho : Demo.setup.ReachesOrderly s := ⟨_, hs, Demo.orderly_refused hs⟩
  have hdec : ∃ r u l, Demo.setup.dec = .forward r u l := ⟨Demo.route, Demo.url, "default".toList, by decide +kernel⟩
  obtain ⟨r, u, l, hdec⟩ := hdec
  have hd := Demo.done_of_seen hp.1.1
  exact ⟨s, y, ho, hd, hy, hp.1.2, h5, (C134_violated_always Demo.setup s ho hdec hd y (by rw [hy]; simp)
    (by rw [h5]; decide) _ (by rw [h5]; rfl)).1⟩

/-- A part. -/
def Demo.part : UpResp :=
  { status := 206, header := [("Content-Range".toList, ["bytes 0-1/9".toList])], body := [104, 105] }

/-- The hypotheses of `C134_relayed_partial` are met. -/
example : ∃ s y, Demo.setup.ReachesOrderly s ∧ s.pc = .done ∧ s.sent = [y] ∧ y.status = 206 ∧
    requiredHeader y.status = some "Content-Range".toList ∧ y.header "Content-Range".toList = ["bytes 0-1/9".toList] := by
  obtain ⟨s, h1, h2, -, -, h5⟩ := Demo.answered (r := Demo.part) (by decide) (Demo.of_check (by decide +kernel))
  exact ⟨s, _, h1, h2, h5, rfl, rfl, by decide +kernel⟩

/-! ## C135, C136 -/

/-- Headers that tell about the way a request took (RFC 7230 5.7.1, RFC 7239, and the customary ones). -/
def tracingHeaders : List Str :=
  ["Via", "Forwarded", "X-Forwarded-For", "X-Forwarded-Proto", "X-Forwarded-Host", "X-Real-Ip"].map String.toList

/-- Headers that no one but the client has a say in. -/
theorem untouched {x : Setup K} {s : St} (h : x.Reaches s) (hw : x.rq.header.WF) (T : NetLib)
    (net : WireReq → Option WireResp) {p : Nat × UpReq} (hp : p ∈ s.calls) {w : WireReq}
    (hs : w ∈ (httpDo T net p.2).1) {k : Str}
    (hk : k ∈ "Max-Forwards".toList :: tracingHeaders) : w.header k = x.rq.header.values k := by
  have hne : ∀ k ∈ "Max-Forwards".toList :: tracingHeaders, k ∉ hopHeaders ∧
      toLower k ∉ droppedHeaders.map toLower ∧ k ≠ "User-Agent".toList ∧ k ≠ "Accept-Encoding".toList ∧
      k ≠ "Authorization".toList := by
    decide
  obtain ⟨h1, h2, h3, h4, h5⟩ := hne k hk
  exact C75_wire_partial x s h hw T net p hp w hs k h1 h2 (fun h => absurd h h3) (fun h => absurd h h4)
    (fun h => absurd h h5)

/-- C135 fails for every request and every attempt: of the headers about the way of a request the upstream gets exactly
what the client sent; the gateway adds neither itself nor the client. So a client that sends none leaves no trace, and
one that sends false ones is believed. -/
theorem C135_violated_always (x : Setup K) (s : St) (h : x.Reaches s) (hw : x.rq.header.WF) (T : NetLib)
    (net : WireReq → Option WireResp) (p : Nat × UpReq) (hp : p ∈ s.calls) (w : WireReq)
    (hs : w ∈ (httpDo T net p.2).1) (k : Str) (hk : k ∈ tracingHeaders) : w.header k = x.rq.header.values k :=
  untouched h hw T net hp hs (List.mem_cons_of_mem _ hk)

/-- C135, part: what does reach every upstream is a request id, which the client gets and the log has too (C32). -/
theorem C135_id_partial (x : Setup K) (s : St) (h : x.Reaches s) (p : Nat × UpReq)
    (hp : p ∈ s.calls) : p.2.header "X-Request-Id".toList = [requestId x.sv.id x.uuid x.rq] :=
  (C32_request_id x s h).1 p hp

/-- A client with an invented history. -/
def Demo.spoofed : Setup Nat :=
  { Demo.setup with rq := { Demo.request with
      header := [("X-Forwarded-For".toList, ["10.0.0.1".toList])] } }

/-- C135 fails: the upstream is told an address that the client made up, and nothing about the gateway. -/
theorem C135_violated : ∃ (s : St) (p : Nat × UpReq), Demo.spoofed.Reaches s ∧ p ∈ s.calls ∧
    ∀ T net, ∀ w ∈ (httpDo T net p.2).1,
      w.header "X-Forwarded-For".toList = ["10.0.0.1".toList] ∧ w.header "Via".toList = [] ∧
      w.header "Forwarded".toList = [] := by
  obtain ⟨s, h1, h2⟩ := Demo.of_check (x := Demo.spoofed) (as := Demo.success Demo.ok)
    (p := fun s => s.calls.length == 1) (by decide +kernel)
  simp only [beq_iff_eq] at h2
  cases hc : s.calls with
  | nil => rw [hc] at h2; cases h2
  | cons p ps =>
    have hp : p ∈ s.calls := by rw [hc]; exact List.mem_cons_self
    refine ⟨s, p, Demo.reaches h1, hc ▸ hp, fun T net w hw => ?_⟩
    have hv := C135_violated_always Demo.spoofed s (Demo.reaches h1) ⟨by decide, by decide⟩ T net p hp w hw
    refine ⟨?_, ?_, ?_⟩
    · rw [hv _ (by decide)]; decide
    · rw [hv _ (by decide)]; decide
    · rw [hv _ (by decide)]; decide

/-- C136 fails for every request that is forwarded: the upstream gets the number of hops that the client allowed, not
one less. -/
theorem C136_violated_always (x : Setup K) (s : St) (h : x.Reaches s) (hw : x.rq.header.WF) (T : NetLib)
    (net : WireReq → Option WireResp) (p : Nat × UpReq) (hp : p ∈ s.calls) (w : WireReq)
    (hs : w ∈ (httpDo T net p.2).1) :
    w.header "Max-Forwards".toList = x.rq.header.values "Max-Forwards".toList :=
  untouched h hw T net hp hs List.mem_cons_self

/-- A client that asks the gateway itself. -/
def Demo.noHops : Setup Nat :=
  { Demo.setup with rq := { Demo.request with
      method := "OPTIONS".toList
      header := [("Max-Forwards".toList, ["0".toList])] } }

/-- C136 fails: a request that is to go no further than the gateway is sent to an upstream, whose answer the client
gets. -/
theorem C136_violated : ∃ (s : St) (p : Nat × UpReq) (y : Sent), Demo.noHops.Reaches s ∧ s.pc = .done ∧ s.calls = [p] ∧
    p.2.method = "OPTIONS".toList ∧ s.sent = [y] ∧ y.status = 200 ∧ y.body = Demo.ok.body ∧
    ∀ T net, ∀ w ∈ (httpDo T net p.2).1, w.header "Max-Forwards".toList = ["0".toList] := by
  obtain ⟨s, h1, h2⟩ := Demo.of_check (x := Demo.noHops) (as := Demo.success Demo.ok)
    (p := fun s => (Demo.seen s).finished && s.calls.map (fun p => p.2.method) == ["OPTIONS".toList] &&
      s.sent.map (fun y => (y.status, y.body)) == [(200, Demo.ok.body)]) (by decide +kernel)
  simp only [Bool.and_eq_true, beq_iff_eq] at h2
  obtain ⟨p, hc, hm⟩ : ∃ p, s.calls = [p] ∧ p.2.method = "OPTIONS".toList := by
    obtain ⟨p, t, hl, hm, ht⟩ := List.map_eq_cons_iff.1 h2.1.2
    exact ⟨p, by rw [hl, List.map_eq_nil_iff.1 ht], hm⟩
  obtain ⟨y, hy, hs⟩ := Demo.one_of_map h2.2
  simp only [Prod.mk.injEq] at hs
  refine ⟨s, p, y, Demo.reaches h1, Demo.done_of_seen h2.1.1, hc, hm, hy, hs.1, hs.2, fun T net w hw => ?_⟩
  rw [C136_violated_always Demo.noHops s (Demo.reaches h1) ⟨by decide, by decide⟩ T net p (by rw [hc]; simp) w hw]
  decide

/-! ## C137 -/

/-- No response of the handler has a Date, whatever the schedule. -/
theorem no_date {x : Setup K} {s : St} (h : x.Reaches s) {y : Sent} (hy : y ∈ s.sent) : y.header "Date".toList = [] := by
  by_cases hn : y.header "Content-Length".toList = []
  · obtain ⟨code, msg, rfl⟩ := (own_iff h hy).1 hn
    rw [json_header, if_neg (by decide), std_other _ _ (by decide) (by decide) (by decide)]
  · obtain ⟨v, -, hf⟩ := (proxied_parts h hy hn).1
    rw [hf _ (by decide), std_other _ _ (by decide) (by decide) (by decide),
      show shouldProxyHeader "Date".toList = false by decide]
    rfl

theorem date_fields {x : Setup K} {s : St} (h : x.Reaches s) {y : Sent} (hy : y ∈ s.sent) (c : ReplyConn)
    {keys : List Str} (he : Enumerates keys y.header) :
    (responseFields c keys y).filter (fun f => f.1 = "Date".toList) = [("Date".toList, c.date)] := by
  have hd := no_date h hy
  have hk : "Date".toList ∉ keys := fun hm => (he.2 _).1 hm hd
  unfold responseFields
  rw [List.filter_append]
  have h1 : ((keys.filter (fun k => k ∉ respExclude c y)).flatMap
      (fun k => (y.header k).map fun v => (k, trimString (newlineToSpace v)))).filter
        (fun f => f.1 = "Date".toList) = [] := by
    rw [List.filter_eq_nil_iff]
    intro f hf
    obtain ⟨k, hk', hf⟩ := List.mem_flatMap.1 hf
    obtain ⟨v, -, rfl⟩ := List.mem_map.1 hf
    simp only [decide_eq_true_eq]
    rintro rfl
    exact hk (List.mem_filter.1 hk').1
  rw [h1, List.nil_append]
  unfold extraFields
  rw [if_pos hd]
  simp only [List.filter_append]
  have hcl : ∀ v : Str, ¬ (("Content-Length".toList, v) : Str × Str).1 = "Date".toList :=
    fun v h => absurd (show "Content-Length".toList = "Date".toList from h) (by decide)
  have hct : ∀ v : Str, ¬ (("Content-Type".toList, v) : Str × Str).1 = "Date".toList :=
    fun v h => absurd (show "Content-Type".toList = "Date".toList from h) (by decide)
  have hco : ∀ v : Str, ¬ (("Connection".toList, v) : Str × Str).1 = "Date".toList :=
    fun v h => absurd (show "Connection".toList = "Date".toList from h) (by decide)
  have hte : ∀ v : Str, ¬ (("Transfer-Encoding".toList, v) : Str × Str).1 = "Date".toList :=
    fun v h => absurd (show "Transfer-Encoding".toList = "Date".toList from h) (by decide)
  have one : ∀ {f : Str × Str}, ¬ f.1 = "Date".toList → [f].filter (fun f : Str × Str => f.1 = "Date".toList) = [] := by
    intro f hf
    rw [List.filter_eq_nil_iff]
    intro g hg
    rw [List.mem_singleton.1 hg]
    simpa using hf
  have e : ∀ (p : Prop) [Decidable p] (f : Str × Str), ¬ f.1 = "Date".toList →
      (if p then [f] else []).filter (fun f : Str × Str => f.1 = "Date".toList) = [] := by
    intro p _ f hf
    split
    · exact one hf
    · rfl
  rw [e _ _ (hct _), e _ _ (hte _)]
  cases ownConnection c y with
  | none =>
    cases ownLength c y with
    | none => simp
    | some n =>
      show _ ++ [("Content-Length".toList, natToDec n)].filter _ ++ _ ++ _ ++ _ = _
      rw [one (hcl _)]
      simp
  | some v =>
    show _ ++ _ ++ _ ++ [("Connection".toList, v)].filter _ ++ _ = _
    rw [one (hco _)]
    cases ownLength c y with
    | none => simp
    | some n =>
      show _ ++ [("Content-Length".toList, natToDec n)].filter _ ++ _ ++ _ ++ _ = _
      rw [one (hcl _)]
      simp

/-- C137, part: every response has exactly one Date, from which the second at which the gateway wrote it can be read (up
to the year 9999); that is when its origin made it if the gateway made it itself. -/
theorem C137_own_partial (x : Setup K) (s : St) (h : x.Reaches s) (y : Sent) (hy : y ∈ s.sent) (c : ReplyConn)
    (keys : List Str) (he : Enumerates keys y.header) (now : Int) (hnow : c.date = appendTime now)
    (h0 : 0 ≤ now) (h1 : now ≤ 253402300799) :
    ∃ d, (responseFields c keys y).filter (fun f => f.1 = "Date".toList) = [("Date".toList, d)] ∧
      Calendar.readHttpDate d = some now := by
  refine ⟨c.date, date_fields h hy c he, ?_⟩
  rw [hnow]
  exact Calendar.readHttpDate_append (by unfold Calendar.toEpoch; omega)
    (by unfold Calendar.toEpoch Calendar.lastSecond; omega)

/-- The last second of the year 9999. -/
example : Calendar.readHttpDate "Fri, 31 Dec 9999 23:59:59 GMT".toList = some 253402300799 := by decide +kernel

/-- C137 fails for every response that is passed on: whatever Date it came with, the client gets another one, the time
at which the gateway wrote it. -/
theorem C137_violated_always (x : Setup K) (s : St) (h : x.ReachesOrderly s) {r : Route} {u : URL} {l : Str}
    (hd : x.dec = .forward r u l) (hf : s.pc = .done) (y : Sent) (hy : y ∈ s.sent) (hs : y.status < 400)
    (c : ReplyConn) (keys : List Str) (he : Enumerates keys y.header) :
    ∃ v, s.curA.vResp = some v ∧ v.status = y.status ∧
      ∀ d, v.header.values "Date".toList = [d] → d ≠ c.date →
        ("Date".toList, d) ∉ responseFields c keys y ∧ ("Date".toList, c.date) ∈ responseFields c keys y := by
  have hr : x.Reaches s := h.imp fun _ h => h.1
  obtain ⟨v, hv, rfl, -⟩ := C37_partial x s h hd hf y hy hs
  refine ⟨v, hv, rfl, fun d _ hne => ?_⟩
  have hfil := date_fields hr hy c he
  constructor
  · intro hm
    have : ("Date".toList, d) ∈ (responseFields c keys (proxiedResponse x.respEnv v)).filter
        (fun f => f.1 = "Date".toList) := List.mem_filter.2 ⟨hm, by simp⟩
    rw [hfil, List.mem_singleton] at this
    exact hne (congrArg Prod.snd this)
  · have : ("Date".toList, c.date) ∈ (responseFields c keys (proxiedResponse x.respEnv v)).filter
        (fun f => f.1 = "Date".toList) := by rw [hfil]; exact List.mem_singleton.2 rfl
    exact (List.mem_filter.1 this).1

/-- A response from yesterday, out of a cache. -/
def Demo.stale : UpResp :=
  { status := 200, header := [("Age".toList, ["86400".toList]),
      ("Date".toList, ["Sun, 15 Nov 2026 10:00:00 GMT".toList])], body := [104, 105] }

/-- C137 fails: the client gets a response of yesterday with the date of today. -/
theorem C137_violated : ∃ s y, Demo.setup.ReachesOrderly s ∧ s.pc = .done ∧ s.sent = [y] ∧
    s.curA.vResp = some Demo.stale ∧
    writeResponse Demo.conn (["Age", "Content-Encoding", "Content-Length", "Server", "X-Request-Id"].map String.toList) y =
      ("HTTP/1.1 200 OK\r\nAge: 86400\r\nContent-Encoding: identity\r\nContent-Length: 2\r\nServer: j8a v1 abc\r\n" ++
      "X-Request-Id: XR-abc-u\r\nDate: Mon, 16 Nov 2026 10:00:00 GMT\r\n\r\nhi").toList ∧
    Enumerates (["Age", "Content-Encoding", "Content-Length", "Server", "X-Request-Id"].map String.toList) y.header := by
  obtain ⟨s, h1, h2, h3, -, h5⟩ := Demo.answered (r := Demo.stale) (by decide) (Demo.of_check (by decide +kernel))
  exact ⟨s, _, h1, h2, h5, h3, by decide +kernel, enumerates_of (by decide) (by decide +kernel) (by decide +kernel)⟩

end J8a

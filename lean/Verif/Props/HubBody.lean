import Verif.Lemmas.MachineRead
import Verif.Props.Hub
/-!
# C177: only whole answers are passed on
-/
namespace J8a
open Go

variable {K : Type}

theorem read_of_done {x : Setup K} {s : St} (h : x.Reaches s) {r : Route} {u : URL} {l : Str} (hd : x.dec = .forward r u l)
    (hp : s.pc = .done) : (∃ v, s.curA.ReadAll v ∧ s.curA.vResp = some v) ∨ ∀ y ∈ s.sent, GatewayError x.respEnv y := by
  have ho := (own_of_reaches h hd).2
  obtain ⟨as, h⟩ := h
  rw [hd] at h
  have hi := run_invariant (P := fun t => Inv x.env t ∧ CloseInv t ∧ readAt x.respEnv t t.pc)
    (fun s a s' ⟨h1, h2, h3⟩ hs => ⟨h1.step hs, h2.step hs, by
      cases a with
      | main c => exact readAt_main (e := x.env) h1 h2 hs h3
      | _ =>
        simp only [J8a.step] at hs
        exact readAt_other hs h3⟩)
    ⟨.initial _ r u l, .initial _, trivial⟩ h
  have hr := hi.2.2
  rw [hp] at hr
  rcases hr with ⟨⟨v, h1⟩, h2⟩ | hr
  · exact .inl ⟨v, ⟨.inr (.inr h1), h2⟩, (ho.all s.cur).bg v (by show s.curA.bg.on = _; rw [h1]; rfl)⟩
  · exact .inr hr

theorem decompress_ending {T : NetLib} {q : UpReq} {w : WireResp} (h : (decompress T q w).ending = .eof) : w.ending = .eof := by
  unfold decompress at h
  split at h
  · simp only at h
    split at h
    · assumption
    · cases h
  · exact h

/-- C177, part: under every schedule, a client gets the gateway's own 502 or 504, or the body of the response that the last
attempt got, for a request of this attempt and from a connection to the address of its URI, was read there without an error to
its end: bytes that arrived there after the request was put on it read as all of this response. -/
theorem C177_source_partial (A : Around K) (g : Hub K) (h : g.Reached A) (j : Nat) (t : Task K) (ht : g.tasks[j]? = some t)
    (hf : ∃ r u l, t.x.dec = .forward r u l) (hd : t.s.pc = .done) (y : Sent) (hy : y ∈ t.s.sent) :
    (∃ code msg, (code = 502 ∨ code = 504) ∧ y = jsonResponse t.x.respEnv code msg) ∨
    ∃ (q : UpReq) (l : Line) (n : Nat) (e : Handed) (bytes p r : Str), (t.s.cur, q) ∈ t.s.calls ∧ l ∈ g.lines ∧ l.key = A.keyOf q.uri ∧
      l.c.log[n]? = some e ∧ g.asks[e.tag]? = some (j, t.s.cur, q) ∧ l.puts[n]? = some (e.tag, bytes) ∧
      (∃ keys, Enumerates keys (credited q).header ∧ writeRequest keys (credited q) = some bytes) ∧ e.method = q.method ∧
      p <+: l.c.arrived.drop e.start ∧ Received q.method p e.w (some r) ∧ (decompress A.T q e.w).ending = .eof ∧
      t.s.curA.vResp = some (decompress A.T q e.w).up := by
  obtain ⟨r, u, lb, hf⟩ := hf
  have hinv := Hub.inv h
  have hreach : t.x.Reaches t.s := ⟨_, (hinv.runs j t ht).2⟩
  rcases read_of_done hreach hf hd with ⟨v, h1, h2⟩ | h1
  · obtain ⟨w, h3, h4, h5⟩ := hinv.read j t.s.cur t v ht h1
    obtain ⟨q, k, l, e, g1, g2, g3, rfl⟩ := hinv.got j t.s.cur t w ht h3
    subst h5
    have hl := hinv.lines k l g1
    obtain ⟨n, hn⟩ := List.mem_iff_getElem?.1 g2
    obtain ⟨bytes, b1, b2, b3, b4⟩ := put_of_log hinv g1 hn g3
    obtain ⟨k', rest, hd', after, m1, -, -⟩ := (UpConn.inv hl.reached).made e g2
    obtain ⟨r', hr'⟩ := m1.ending.1 (decompress_ending h4)
    have : rest = some r' := by rw [m1.rest, hr']
    subst this
    obtain ⟨-, t', k1, k2⟩ := g3
    rw [ht] at k1
    injection k1 with k1
    subst k1
    exact .inr ⟨q, l, n, e, bytes, _, r', k2, List.mem_of_getElem? g1, b3, hn, b4, b1, b2,
      hl.method e.toAsked (List.mem_of_getElem? (asked_log hn)) j _ q b4, List.take_prefix _ _,
      by rw [← hl.method e.toAsked (List.mem_of_getElem? (asked_log hn)) j _ q b4]; exact ⟨hd', after, m1⟩, h4, h2⟩
  · obtain ⟨code, msg, h2, h3⟩ := h1 y hy
    exact .inl ⟨code, msg, h2, h3⟩

/-- Every upstream sends one well-formed answer to each request. If an answer ends with the connection, the upstream does not
close it before it has sent all of the answer. -/
def SoundUpstreams (g : Hub K) : Prop :=
  ∀ l ∈ g.lines, ∃ as, Answers l.c as ∧ ∀ (i : Nat) (q : Asked) (a : Str), l.c.asked[i]? = some q → as[i]? = some a →
    ∃ n m, n ≤ 5 ∧ ReadsFinal q.method n a m [] ∧
      (EndsWithConn q.method m → l.c.ended = true → (as.take (i + 1)).flatten.length ≤ l.c.arrived.length)

/-- C177, part: with upstreams that send one well-formed answer to each request, and do not close a connection in the midst of an
answer that ends with it, each client reads the whole answer of the upstream to its own request: the status, the fields that are not for the
gateway and the library to change, and the same body, if what it says about its coding is true. It does not matter whether
connections are closed, break or are used again, and what other clients do. Missing: answers with status 400 and up (C177_refused_partial),
answers that end with the connection if it breaks, see C177_violated, and those of C166_content_partial. -/
theorem C177_message_partial (A : Around K) (g : Hub K) (h : g.Reached A) (hp : SoundUpstreams g) (j : Nat) (t : Task K)
    (ht : g.tasks[j]? = some t) (ho : t.x.ReachesOrderly t.s) (hf : ∃ r u l, t.x.dec = .forward r u l) (hd : t.s.pc = .done)
    (y : Sent) (hy : y ∈ t.s.sent) (hs : y.status < 400) (hi : TextIds t.x)
    (hm : toUpper t.x.rq.method = "HEAD".toList → t.x.rq.method = "HEAD".toList) (c : ReplyConn) (hc : ConnOf t.x c)
    (keys : List Str) (hk : Enumerates keys y.header) :
    ∃ (q : UpReq) (l : Line) (n : Nat) (e : Handed) (bytes : Str) (as : List Str) (a : Str) (k : Nat) (m m' : HttpResponse),
      (t.s.cur, q) ∈ t.s.calls ∧ l ∈ g.lines ∧ l.key = A.keyOf q.uri ∧ l.puts[n]? = some (e.tag, bytes) ∧
      g.asks[e.tag]? = some (j, t.s.cur, q) ∧ (∃ keys, Enumerates keys (credited q).header ∧ writeRequest keys (credited q) = some bytes) ∧
      Answers l.c as ∧ as[n]? = some a ∧ k ≤ 5 ∧ ReadsFinal q.method k a m [] ∧ ReadAs t.x (writeResponse c keys y) y m' ∧
      m'.status = m.status ∧
      (∀ f, f.all isTokenChar = true → f ≠ [] → toLower f ∉ changedReplyFields →
        fieldValues m'.fields (toLower f) = fieldValues m.fields (toLower f)) ∧
      (t.x.sv.codec.Lossless → Agrees A.T t.x.sv.codec → toUpper t.x.rq.method ≠ "CONNECT".toList →
        bodyText e.w.body = m.body ∧
        (NoBody q.method m.status → m'.body = [] ∧ m.body = []) ∧
        (¬ NoBody q.method m.status → e.w.up.Truthful →
          (contains (t.x.rq.header.get "Accept-Encoding".toList) "gzip".toList = true →
            codingOf (fieldValues m.fields "content-encoding".toList) = .identity ∨
            codingOf (fieldValues m.fields "content-encoding".toList) = .gzip) →
          (Decoded q e.w → hasGzipMagic (A.T.gunzip e.w.body).1 = false) →
          ∃ b', bodyText b' = m'.body ∧
            entity t.x.sv.codec (codingOf (fieldValues m'.fields "content-encoding".toList)) b' =
              entity t.x.sv.codec (codingOf (fieldValues m.fields "content-encoding".toList)) e.w.body)) := by
  rcases C177_source_partial A g h j t ht hf hd y hy with ⟨code, msg, h1, rfl⟩ |
    ⟨q, l, n, e, bytes, p, r, h1, h2, h3, h4, h5, h6, h7, h8, -, -, h11, h12⟩
  · have : (jsonResponse t.x.respEnv code msg).status = code := rfl
    omega
  · obtain ⟨as, ha, hu⟩ := hp l h2
    obtain ⟨k, hkl⟩ := List.mem_iff_getElem?.1 h2
    have hline := (Hub.inv h).lines k l hkl
    obtain ⟨-, a, k1, -⟩ := C173_own_partial l.c hline.reached as ha n e h4
    obtain ⟨i, m, hi5, hread, hself⟩ := hu n e.toAsked a (asked_log h4) k1
    have hrec := C173_ended_partial l.c hline.reached as ha n e h4 (decompress_ending h11) a k1 i m hi5 hread hself
    rw [h8] at hread hrec
    have hex : Exchange t.x t.s A.T (t.s.cur, q) a e.w (some []) y c keys := ⟨ho, hf, hd, h1, hrec, h12, hy, hs, hi, hm, hc, hk⟩
    obtain ⟨m', g1, g2, g3, -⟩ := C166_wire_partial t.x t.s A.T (t.s.cur, q) a [] i m hread hi5 e.w _ y c keys hex
    refine ⟨q, l, n, e, bytes, as, a, i, m, m', h1, h2, h3, h6, h5, h7, ha, k1, hi5, hread, g1, g2, g3, fun c1 c2 c3 => ?_⟩
    obtain ⟨d1, d2, d3⟩ := C166_content_partial t.x t.s A.T (t.s.cur, q) a [] i m hread hi5 e.w _ y c keys hex c1 c2 c3 m' g1
    exact ⟨d1, fun hn => ⟨(d2 hn).1, (d2 hn).2.1⟩, d3⟩

/-- The hypotheses of `C177_message_partial` are satisfiable. -/
example : ∃ (g : Hub Nat) (t : Task Nat) (y : Sent), g.Reached Demo.around ∧ SoundUpstreams g ∧ g.tasks[1]? = some t ∧
    g.tasks.length = 2 ∧ t.x.ReachesOrderly t.s ∧ (∃ r u l, t.x.dec = .forward r u l) ∧ t.s.pc = .done ∧ y ∈ t.s.sent ∧
    y.status < 400 ∧ TextIds t.x ∧ (toUpper t.x.rq.method = "HEAD".toList → t.x.rq.method = "HEAD".toList) ∧ ConnOf t.x Demo.conn := by
  obtain ⟨g, t1, t2, l, e1, e2, q1, q2, h1, h2, h3, h4, h5, h6, h7, h8, h9, h10, h11, h12, h13, h14, h15, h16, h17⟩ := Demo.two_served
  obtain ⟨y, hy, hp⟩ := Demo.one_of_map h16
  injection hp with hp _
  refine ⟨g, t2, y, h1, ?_, by rw [h2]; rfl, by rw [h2]; rfl, h12, ?_, h13, by rw [hy]; exact List.mem_singleton.2 rfl,
    by rw [hp]; decide, ?_⟩
  · intro l' hl'
    rw [h5] at hl'
    rw [List.mem_singleton.1 hl']
    refine ⟨_, h10, fun i q a hq ha => ?_⟩
    rcases i with _ | _ | i
    · simp only [List.getElem?_cons_zero, Option.some.injEq] at ha
      subst ha
      have := h17 0 q hq
      simp only [List.getElem?_cons_zero, Option.some.injEq] at this
      rw [← this]
      exact ⟨0, _, by decide, Demo.head_reads, fun h => absurd h.2.2 (by decide)⟩
    · simp only [List.getElem?_cons_succ, List.getElem?_cons_zero, Option.some.injEq] at ha
      subst ha
      have := h17 1 q hq
      simp only [List.getElem?_cons_succ, List.getElem?_cons_zero, Option.some.injEq] at this
      rw [← this]
      exact ⟨0, _, by decide, Demo.evil_reads, fun h => absurd h.2.2 (by decide)⟩
    · simp at ha
  · rw [h4]
    exact ⟨Demo.route, Demo.url, "default".toList, by decide +kernel⟩
  · rw [h4]
    exact ⟨Demo.text_ids, by decide, Demo.conn_of⟩

/-- A beginning of `Demo.openText`. -/
def Demo.brokenText : Str := "HTTP/1.1 200 OK\r\n\r\ncom".toList

def Demo.brokenWire : WireResp := { status := 200, header := [], body := "com".toUTF8.toList, ending := .eof, contentLength := -1 }

theorem Demo.broken_receives : Receives "GET".toList Demo.brokenText Demo.brokenWire (some [])
    ⟨200, (1, 1), [], .untilEnd, -1⟩ "com".toList :=
  ⟨by decide +kernel, rfl, List.Perm.refl _, rfl, by decide +kernel, ⟨fun _ => ⟨[], by decide +kernel⟩, fun _ => rfl⟩,
    by decide +kernel⟩

/-- C177 is violated: an upstream sends an answer without a length, and the connection breaks when a part of the body has arrived.
The client gets this part as a complete response. -/
theorem C177_violated : ∃ (g : Hub Nat) (t : Task Nat) (l : Line) (e : Handed) (q : UpReq) (m : HttpResponse) (y : Sent),
    g.Reached Demo.around ∧ g.tasks = [t] ∧ t.x = Demo.setup ∧ g.lines = [l] ∧ l.c.log = [e] ∧ g.asks[e.tag]? = some (0, 0, q) ∧
    Answers l.c [Demo.openText] ∧ l.c.arrived = Demo.brokenText ∧ ReadsFinal e.method 0 Demo.openText m [] ∧
    m.body = "complete".toList ∧ t.x.ReachesOrderly t.s ∧ t.s.pc = .done ∧ t.s.sent = [y] ∧ y.status = 200 ∧
    y.header "Content-Length".toList = ["3".toList] ∧ bodyText y.body = "com".toList ∧
    deliveredBody "GET".toList y = y.body := by
  obtain ⟨s2, q2, b2, h2, c2, m2, g2, n2, w2, -, -⟩ := Demo.calls (x := Demo.setup) (method := "GET".toList) (hw := ⟨by decide, by decide⟩)
    (h := by decide +kernel)
  have quiet : ∀ a ∈ [Demo.go, Act.hgCall 0], ∀ i r, a ≠ .hgReturn i (some r) := by simp
  have r1 := (Hub.Reached.new (A := Demo.around)).step (.accept Demo.setup (.inr rfl)) |>.acts (j := 0) rfl h2 quiet (by simp)
  have r3 := (r1.step (.dial "up".toList)).step (.ask 0 ⟨Demo.setup, [Demo.go, .hgCall 0], s2, []⟩ 0 q2 0 ⟨"up".toList, {}, [], [], false⟩ _ b2 b2 rfl
    (by simp [c2]) g2 rfl rfl rfl rfl n2 w2 (List.prefix_refl _))
  have r4 := (r3.step (.conn 0 _ _ rfl (.arrive Demo.brokenText rfl) (fun _ => rfl) (fun _ e => (nomatch e)))).step
    (.conn 0 _ _ rfl .ends (fun _ => rfl) (fun _ e => (nomatch e)))
  have r5 := r4.step (.conn 0 _ _ rfl (.answer ⟨0, q2.method, 0, 0⟩ Demo.brokenWire (some []) _ _ false rfl
    (by rw [m2]; exact Demo.broken_receives) (fun _ => rfl) (fun e => (nomatch e)))
    (fun e => absurd rfl e) (fun _ _ => rfl))
  have hz : decompress Demo.around.T q2 Demo.brokenWire = Demo.brokenWire := decompress_neg fun hz => absurd hz.2.2.2 (by decide +kernel)
  obtain ⟨s, hs, hp⟩ := Demo.of_check (x := Demo.setup) (as := Demo.success Demo.brokenWire.up)
    (p := fun s => (Demo.seen s).finished && s.sent.map (fun y => (y.status, y.header "Content-Length".toList, bodyText y.body,
      decide (deliveredBody "GET".toList y = y.body))) == [(200, ["3".toList], "com".toList, true)]) (by decide +kernel)
  simp only [Bool.and_eq_true, beq_iff_eq] at hp
  obtain ⟨y, hy, hq⟩ := Demo.one_of_map hp.2
  injection hq with p1 p2
  injection p2 with p2 p3
  injection p3 with p3 p4
  have hlt := calls_lt (Demo.reaches h2) (p := (0, q2)) (by simp [c2])
  obtain ⟨s3, hs3⟩ : ∃ s3, step Demo.setup.env s2 (.hgReturn 0 (some (decompress Demo.around.T q2 Demo.brokenWire).up)) = some s3 := by
    simp only [step, stepOther, g2]
    rw [if_pos hlt]
    exact ⟨_, rfl⟩
  have r6 := r5.step (.deliver 0 ⟨Demo.setup, [Demo.go, .hgCall 0], s2, []⟩ 0 q2 0 _ ⟨⟨0, q2.method, 0, 0⟩, _, Demo.brokenWire⟩ s3 rfl rfl
    (List.mem_singleton.2 rfl) rfl hs3)
  have hr : run Demo.setup.env (initial Demo.setup.dec) ([Demo.go, .hgCall 0] ++ [.hgReturn 0 (some Demo.brokenWire.up)]) = some s3 := by
    rw [← hz]
    exact run_snoc h2 hs3
  have hrun : run Demo.setup.env s3 (Demo.success Demo.brokenWire.up |>.drop 3) = some s := by
    rw [← run_append hr]
    exact hs
  have hv : (s3.atmpt 0).vResp = some Demo.brokenWire.up ∧ 0 < s3.n := by
    rw [hz] at hs3
    simp only [step, stepOther, g2] at hs3
    rw [if_pos hlt] at hs3
    injection hs3 with hs3
    rw [← hs3]
    exact ⟨by simp [upd_atmpt], hlt⟩
  have r7 := r6.acts (j := 0) rfl hrun (by simp [Demo.success, Demo.attempt, Demo.headers, Demo.body]) (fun i hi => by
    have : i = 0 := by simpa [Demo.success, Demo.attempt, Demo.headers, Demo.body] using hi
    subst this
    exact ⟨Demo.brokenWire, by rw [hz]; exact List.mem_singleton.2 rfl, rfl, hv.2, hv.1⟩)
  refine ⟨_, _, _, _, q2, _, y, r7, rfl, rfl, rfl, rfl, rfl, ?_, rfl, by rw [m2]; exact Demo.open_reads, rfl, Demo.orderly_success hs,
    Demo.done_of_seen hp.1, hy, p1, p2, p3, of_decide_eq_true p4⟩
  have ha : ∀ c : UpConn, c.asked = [⟨0, "GET".toList, 0, 0⟩] → c.arrived = Demo.brokenText → Answers c [Demo.openText] := by
    intro c h1 h2
    refine ⟨by rw [h1]; rfl, by rw [h2]; exact ⟨"plete".toList, by decide +kernel⟩, ?_, ?_⟩
    · intro i q hq
      rw [h1] at hq
      rcases i with _ | n
      · injection hq with hq; rw [← hq]; rfl
      · cases hq
    · intro i q a hq ha
      rw [h1] at hq
      rcases i with _ | n
      · injection hq with hq
        injection ha with ha
        rw [← hq, ← ha]
        exact ⟨0, _, by decide, Demo.open_reads⟩
      · cases hq
  exact ha _ (by rw [← m2]; rfl) rfl

end J8a

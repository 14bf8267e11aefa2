import Verif.Lemmas.Hub
import Verif.Props.Pipeline
import Verif.Props.UpConn
/-!
# C174, C175: many requests at a time
-/
namespace J8a
open Go

variable {K : Type}

/-! ## C174: whose answer a client gets -/

/-- C174, part: whatever happens to the other requests and to the connections, each request is an execution of its own: every
theorem about executions of one request holds for each of many at the same time. -/
theorem C174_alone (A : Around K) (g : Hub K) (h : g.Reached A) (t : Task K) (ht : t ∈ g.tasks) :
    A.comes t.x ∧ t.x.Reaches t.s ∧ (Orderly t.x.env (initial t.x.dec) t.acts → t.x.ReachesOrderly t.s) := by
  obtain ⟨j, hj⟩ := List.mem_iff_getElem?.1 ht
  obtain ⟨h1, h2⟩ := (Hub.inv h).runs j t hj
  exact ⟨h1, ⟨_, h2⟩, fun ho => ⟨_, h2, ho⟩⟩

/-- What was written for a response that was read. -/
theorem put_of_log {A : Around K} {g : Hub K} (hi : g.Inv A) {k : Nat} {l : Line} (hk : g.lines[k]? = some l) {n : Nat} {e : Handed}
    (hn : l.c.log[n]? = some e) {j i : Nat} {q : UpReq} (hp : g.Puts e.tag j i q) :
    ∃ bytes, l.puts[n]? = some (e.tag, bytes) ∧ (∃ keys, Enumerates keys (credited q).header ∧ writeRequest keys (credited q) = some bytes) ∧
      l.key = A.keyOf q.uri ∧ g.asks[e.tag]? = some (j, i, q) := by
  have hl := hi.lines k l hk
  have ha := asked_log hn
  obtain ⟨ts, hts⟩ := hl.order
  have hp' : (l.puts.map Prod.fst)[n]? = some e.tag := by
    rw [← hts, List.getElem?_append_left (by simpa using (List.getElem?_eq_some_iff.1 ha).1), List.getElem?_map, ha]
    rfl
  rw [List.getElem?_map] at hp'
  obtain ⟨⟨tag, bytes⟩, hp1, hp2⟩ := Option.map_eq_some_iff.1 hp'
  simp only at hp2
  subst hp2
  obtain ⟨j', i', q', keys, k1, k2, k3, k4⟩ := hl.puts _ (List.mem_of_getElem? hp1)
  have := k1.1
  simp only at this
  rw [hp.1] at this
  injection this with this
  injection this with _ this
  injection this with _ this
  subst this
  exact ⟨bytes, hp1, ⟨keys, k2, k3⟩, k4, hp.1⟩

/-- C174, part: a response that an attempt gets was read from a connection to the address of its URI, for a request that was
written there for this attempt. -/
theorem C174_source (A : Around K) (g : Hub K) (h : g.Reached A) (j : Nat) (t : Task K) (ht : g.tasks[j]? = some t) (i : Nat)
    (r : UpResp) (hr : (t.s.atmpt i).vResp = some r) :
    ∃ (q : UpReq) (l : Line) (n : Nat) (e : Handed) (bytes : Str), (i, q) ∈ t.s.calls ∧ l ∈ g.lines ∧ l.key = A.keyOf q.uri ∧ l.c.log[n]? = some e ∧
      g.asks[e.tag]? = some (j, i, q) ∧ l.puts[n]? = some (e.tag, bytes) ∧
      (∃ keys, Enumerates keys (credited q).header ∧ writeRequest keys (credited q) = some bytes) ∧
      e.method = q.method ∧ r = (decompress A.T q e.w).up := by
  obtain ⟨q, k, l, e, h1, h2, ⟨h3, t', h4, h5⟩, h6⟩ := (Hub.inv h).resp j i t r ht hr
  rw [ht] at h4
  injection h4 with h4
  subst h4
  have hl := (Hub.inv h).lines k l h1
  obtain ⟨n, hn⟩ := List.mem_iff_getElem?.1 h2
  obtain ⟨bytes, b1, b2, b3, b4⟩ := put_of_log (Hub.inv h) h1 hn ⟨h3, t, ht, h5⟩
  exact ⟨q, l, n, e, bytes, h5, List.mem_of_getElem? h1, b3, hn, h3, b1, b2,
    hl.method e.toAsked (List.mem_of_getElem? (asked_log hn)) j i q h3, h6⟩

/-- C174, part: if every upstream sends one well-formed answer to each request on a connection, and nothing else, then a
response that an attempt gets is made of the answer to its own request: of the answer at the place that the request has on its
connection. Missing: upstreams that send anything else, see C174_violated_always. -/
theorem C174_own_partial (A : Around K) (g : Hub K) (h : g.Reached A) (hp : ∀ l ∈ g.lines, ∃ as, Answers l.c as) (j : Nat)
    (t : Task K) (ht : g.tasks[j]? = some t) (i : Nat) (r : UpResp) (hr : (t.s.atmpt i).vResp = some r) :
    ∃ (q : UpReq) (l : Line) (n : Nat) (e : Handed) (bytes : Str) (as : List Str) (a : Str), (i, q) ∈ t.s.calls ∧ l ∈ g.lines ∧ l.key = A.keyOf q.uri ∧ l.c.log[n]? = some e ∧
      g.asks[e.tag]? = some (j, i, q) ∧ l.puts[n]? = some (e.tag, bytes) ∧
      (∃ keys, Enumerates keys (credited q).header ∧ writeRequest keys (credited q) = some bytes) ∧
      Answers l.c as ∧ as[n]? = some a ∧ (∃ p rest, p <+: a ∧ Received q.method p e.w rest) ∧
      r = (decompress A.T q e.w).up := by
  obtain ⟨q, l, n, e, bytes, h1, h2, h3, h4, h5, h6, h7, h8, h9⟩ := C174_source A g h j t ht i r hr
  obtain ⟨as, ha⟩ := hp l h2
  obtain ⟨k, hk⟩ := List.mem_iff_getElem?.1 h2
  obtain ⟨-, a, k1, k2, -⟩ := C173_own_partial l.c ((Hub.inv h).lines k l hk).reached as ha n e h4
  rw [h8] at k2
  exact ⟨q, l, n, e, bytes, as, a, h1, h2, h3, h4, h5, h6, h7, ha, k1, k2, h9⟩

/-- C174, part: from the bytes that an upstream sends as the answer to a request among many to the bytes that its client reads:
the same status and the same fields, apart from those that the gateway or the library may change. `n` is the place of the
request on its connection, which is used again or could be. -/
theorem C174_message_partial (A : Around K) (g : Hub K) (h : g.Reached A) (j : Nat) (t : Task K) (ht : g.tasks[j]? = some t)
    (ho : t.x.ReachesOrderly t.s) (hf : ∃ r u l, t.x.dec = .forward r u l) (hd : t.s.pc = .done)
    (q : UpReq) (l : Line) (hl : l ∈ g.lines) (n : Nat) (e : Handed) (he : l.c.log[n]? = some e)
    (hq : g.asks[e.tag]? = some (j, t.s.cur, q)) (hu : n + 1 < l.c.asked.length ∨ l.c.alive = true)
    (as : List Str) (ha : Answers l.c as) (hr : t.s.curA.vResp = some (decompress A.T q e.w).up)
    (y : Sent) (hy : y ∈ t.s.sent) (hs : y.status < 400) (hi : TextIds t.x)
    (hm : toUpper t.x.rq.method = "HEAD".toList → t.x.rq.method = "HEAD".toList) (c : ReplyConn) (hc : ConnOf t.x c)
    (keys : List Str) (hk : Enumerates keys y.header) :
    ∃ a k m m', as[n]? = some a ∧ k ≤ 5 ∧ ReadsFinal q.method k a m [] ∧ ReadAs t.x (writeResponse c keys y) y m' ∧
      m'.status = m.status ∧
      ∀ f, f.all isTokenChar = true → f ≠ [] → toLower f ∉ changedReplyFields →
        fieldValues m'.fields (toLower f) = fieldValues m.fields (toLower f) := by
  obtain ⟨k, hkl⟩ := List.mem_iff_getElem?.1 hl
  have hinv := Hub.inv h
  have hline := hinv.lines k l hkl
  obtain ⟨-, a, k1, -, k2⟩ := C173_own_partial l.c hline.reached as ha n e he
  have k2 := k2 hu
  have hmeth := hline.method e.toAsked (List.mem_of_getElem? (asked_log he)) j _ q hq
  obtain ⟨i, m, hi5, hread⟩ := ha.well n e.toAsked a (asked_log he) k1
  obtain ⟨-, t', ht', hcall⟩ := hinv.asks _ _ _ _ hq
  rw [ht] at ht'
  injection ht' with ht'
  subst ht'
  rw [hmeth] at hread k2
  obtain ⟨m', g1, g2, g3, -⟩ := C166_wire_partial t.x t.s A.T (t.s.cur, q) a [] i m hread hi5 e.w _ y c keys
    ⟨ho, hf, hd, hcall, k2, hr, hy, hs, hi, hm, hc, hk⟩
  exact ⟨a, i, m, m', k1, hi5, hread, g1, g2, g3⟩

/-- A call is one of an attempt. -/
theorem calls_lt {x : Setup K} {s : St} (h : x.Reaches s) {p : Nat × UpReq} (hp : p ∈ s.calls) : p.1 < s.n := by
  obtain ⟨r, u, l, hd, -⟩ := calls_of_reaches h hp
  obtain ⟨as, h⟩ := h
  exact ((run_invariant (P := CallInv x.env u) (fun s a s' hi hs => hi.step hs) (s := initial x.dec)
    (by rw [hd]; constructor <;> simp [initial, St.cur]) h).calls p hp).1

/-- C174 is violated, for every upstream that sends more than it was asked for: if what it sent reads as a response, and a
request of another client is put on the connection before the read loop looks at it, then that client's attempt gets this
response, of which every byte had arrived before. -/
theorem C174_violated_always (A : Around K) (g : Hub K) (h : g.Reached A) (j : Nat) (t : Task K) (ht : g.tasks[j]? = some t)
    (i : Nat) (q : UpReq) (hq : (i, q) ∈ t.s.calls) (hg : (t.s.atmpt i).hg = .calling) (k : Nat) (l : Line)
    (hl : g.lines[k]? = some l) (hk : l.key = A.keyOf q.uri) (ha : l.c.alive = true) (hn : l.c.asking = none)
    (keys : List Str) (he : Enumerates keys (credited q).header) (bytes : Str) (hb : writeRequest keys (credited q) = some bytes)
    (w : WireResp) (rest : Option Str) (hd : RespHead) (after : Str) (hr : Receives q.method l.c.unread w rest hd after)
    (hf : hd.framing ≠ .untilEnd) :
    ∃ (g' : Hub K) (t' : Task K) (l' : Line) (e : Handed), g'.Reached A ∧ g'.tasks = g.tasks.set j t' ∧ t'.x = t.x ∧
      t'.acts = t.acts ++ [.hgReturn i (some (decompress A.T q w).up)] ∧ t'.got = t.got ++ [(i, decompress A.T q w)] ∧ i < t'.s.n ∧
      (t'.s.atmpt i).vResp = some (decompress A.T q w).up ∧ g'.lines = g.lines.set k l' ∧ l'.c.arrived = l.c.arrived ∧
      l'.c.log = l.c.log ++ [e] ∧ e.came = l.c.arrived.length ∧ g'.asks = g.asks ++ [(j, i, q)] ∧ g'.asks[e.tag]? = some (j, i, q) := by
  have hlt := calls_lt (C174_alone A g h t (List.mem_of_getElem? ht)).2.1 hq
  have h1 := h.step (.ask j t i q k l keys bytes bytes ht hq hg hl hk ha hn he hb (List.prefix_refl _))
  have hkl := (List.getElem?_eq_some_iff.1 hl).1
  have h2 := h1.step (.conn k _ _ (List.getElem?_set_self hkl) (.answer ⟨g.asks.length, q.method, l.c.arrived.length, l.c.pos⟩ w rest hd after false rfl hr
    (fun e => absurd e hf) (fun e => (nomatch e))) (fun e => absurd rfl e) (fun _ _ => rfl))
  have hs : step t.x.env t.s (.hgReturn i (some (decompress A.T q w).up)) =
      some (t.s.upd i fun a => { a with hg := .returned, vResp := some (decompress A.T q w).up, vErr := false }) := by
    simp only [step, stepOther, hg]
    rw [if_pos hlt]
    rfl
  have h3 := h2.step (.deliver j t i q k _ ⟨⟨g.asks.length, q.method, l.c.arrived.length, l.c.pos⟩, _, w⟩ _ ht
    (List.getElem?_set_self (by rw [List.length_set]; exact hkl)) (List.mem_append_right _ (List.mem_singleton.2 rfl)) List.getElem?_concat_length hs)
  refine ⟨_, _, _, ⟨⟨g.asks.length, q.method, l.c.arrived.length, l.c.pos⟩, _, w⟩, h3, rfl, rfl, rfl, rfl, hlt, ?_, List.set_set _, rfl, rfl, rfl, rfl,
    List.getElem?_concat_length⟩
  simp [upd_atmpt]

/-- Steps of one request, one after the other. -/
theorem Hub.Reached.acts {A : Around K} {j : Nat} : ∀ {as : List Act} {g : Hub K} {t : Task K} {s' : St}, g.Reached A →
    g.tasks[j]? = some t → run t.x.env t.s as = some s' → (∀ a ∈ as, ∀ i r, a ≠ .hgReturn i (some r)) →
    (∀ i, .bgRead i none ∈ as → ∃ w, (i, w) ∈ t.got ∧ w.ending = .eof ∧ i < t.s.n ∧ (t.s.atmpt i).vResp = some w.up) →
    Hub.Reached A { g with tasks := g.tasks.set j { t with acts := t.acts ++ as, s := s' } } := by
  intro as
  induction as with
  | nil =>
    intro g t s' h ht hr _ _
    cases hr
    have : g.tasks.set j { t with acts := t.acts ++ [], s := t.s } = g.tasks := by
      rw [List.append_nil]
      obtain ⟨hlt, e⟩ := List.getElem?_eq_some_iff.1 ht
      rw [← e]
      exact List.set_getElem_self hlt
    rw [this]
    exact h
  | cons a as ih =>
    intro g t s' h ht hr hn hb
    obtain ⟨s1, h1, h2⟩ := run_cons hr
    have hlt := (List.getElem?_eq_some_iff.1 ht).1
    have hreach := (C174_alone A g h t (List.mem_of_getElem? ht)).2.1
    have := ih (h.step (.act j t a s1 ht h1 (hn a List.mem_cons_self) (fun i e => by
        subst e
        obtain ⟨w, k1, k2, k3, k4⟩ := hb i List.mem_cons_self
        exact ⟨w, k1, k2, (step_reading hreach h1 k3 k4).2.2 rfl⟩))) (List.getElem?_set_self hlt) h2
      (fun b hb => hn b (List.mem_cons_of_mem _ hb)) (fun i hi => by
        obtain ⟨w, k1, k2, k3, k4⟩ := hb i (List.mem_cons_of_mem _ hi)
        obtain ⟨m1, m2, -⟩ := step_reading hreach h1 k3 k4
        exact ⟨w, k1, k2, m2, m1⟩)
    simpa only [List.set_set, List.append_assoc, List.singleton_append] using this

/-- The client that sends HEAD. -/
def Demo.heading : Setup Nat := { Demo.setup with rq := { Demo.request with method := "HEAD".toList } }

def Demo.around : Around Nat where
  T := Demo.lib
  keyOf := fun _ => "up".toList
  comes := fun x => x = Demo.heading ∨ x = Demo.setup

/-- A request up to the call of `Do`. -/
theorem Demo.calls {x : Setup Nat} {method : Str} (f : UpReq → Bool := fun _ => true) (hw : x.rq.header.WF)
    (h : Demo.check x [Demo.go, .hgCall 0] (fun s => s.calls.map (fun p => (p.1, p.2.method,
      (writeRequest (sentNames x.rq) p.2).isSome, (Url.parse p.2.uri).bind Url.user, f p.2)) == [(0, method, true, none, true)] &&
      (match (s.atmpt 0).hg with | .calling => true | _ => false)) = true) :
    ∃ (s : St) (q : UpReq) (bytes : Str), run x.env (initial x.dec) [Demo.go, .hgCall 0] = some s ∧ s.calls = [(0, q)] ∧
      q.method = method ∧ (s.atmpt 0).hg = .calling ∧ Enumerates (sentNames x.rq) (credited q).header ∧
      writeRequest (sentNames x.rq) (credited q) = some bytes ∧ credited q = q ∧ f q = true := by
  obtain ⟨s, h1, h2⟩ := Demo.of_check h
  simp only [Bool.and_eq_true, beq_iff_eq] at h2
  obtain ⟨h2, h3⟩ := h2
  cases hc : s.calls with
  | nil => rw [hc] at h2; cases h2
  | cons p ps =>
    obtain ⟨i, q⟩ := p
    rw [hc] at h2
    simp only [List.map_cons, List.cons.injEq, Prod.mk.injEq, List.map_eq_nil_iff] at h2
    obtain ⟨⟨rfl, rfl, h4, h5, h6⟩, rfl⟩ := h2
    obtain ⟨bytes, hb⟩ := Option.isSome_iff_exists.1 h4
    refine ⟨s, q, bytes, h1, hc, rfl, ?_, ?_, by rw [credited_none h5]; exact hb, credited_none h5, h6⟩
    · revert h3
      cases (s.atmpt 0).hg <;> simp
    · rw [credited_none h5]
      exact sentNames_enumerates (p := (0, q)) (Demo.reaches h1) hw (by rw [hc]; exact List.mem_cons_self)

/-- C174 is violated: an upstream answers the HEAD request of one client with a body as well, and the body reads as a
response. The GET request of another client is put on the same connection, and this client gets that body. -/
theorem C174_violated : ∃ (g : Hub Nat) (t1 t2 : Task Nat) (l : Line) (e1 e2 : Handed) (q1 q2 : UpReq), g.Reached Demo.around ∧
    g.tasks = [t1, t2] ∧ t1.x = Demo.heading ∧ t2.x = Demo.setup ∧ g.lines = [l] ∧ l.c.log = [e1, e2] ∧
    g.asks[e1.tag]? = some (0, 0, q1) ∧ g.asks[e2.tag]? = some (1, 0, q2) ∧ l.c.arrived = Demo.headText ++ Demo.evilText ∧
    e2.came = l.c.arrived.length ∧ t2.s.pc = .done ∧ t2.s.sent.map Sent.body = ["evil".toUTF8.toList] := by
  obtain ⟨s1, q1, b1, h1, c1, m1, g1, n1, w1, -, -⟩ := Demo.calls (x := Demo.heading) (method := "HEAD".toList) (hw := ⟨by decide, by decide⟩)
    (h := by decide +kernel)
  obtain ⟨s2, q2, b2, h2, c2, m2, g2, n2, w2, -, -⟩ := Demo.calls (x := Demo.setup) (method := "GET".toList) (hw := ⟨by decide, by decide⟩)
    (h := by decide +kernel)
  have quiet : ∀ a ∈ [Demo.go, Act.hgCall 0], ∀ i r, a ≠ .hgReturn i (some r) := by simp
  have r1 := (Hub.Reached.new (A := Demo.around)).step (.accept Demo.heading (.inl rfl)) |>.step (.accept Demo.setup (.inr rfl))
    |>.acts (j := 0) rfl h1 quiet (by simp)
  have r2 := r1.acts (j := 1) rfl h2 quiet (by simp)
  have r3 := r2.step (.dial "up".toList)
  have r4 := r3.step (.ask 0 ⟨Demo.heading, [Demo.go, .hgCall 0], s1, []⟩ 0 q1 0 ⟨"up".toList, {}, [], [], false⟩ _ b1 b1 rfl
    (by simp [c1]) g1 rfl rfl rfl rfl n1 w1 (List.prefix_refl _))
  have r5 := r4.step (.conn 0 _ _ rfl (.arrive (Demo.headText ++ Demo.evilText) rfl) (fun _ => rfl) (fun _ e => (nomatch e)))
  have r6 := r5.step (.conn 0 _ _ rfl (.answer ⟨0, q1.method, 0, 0⟩ Demo.headWire (some Demo.evilText) _ _ true rfl
    (by rw [m1]; exact Demo.head_receives) (fun e => absurd e (by decide)) (fun _ => ⟨rfl, by decide +kernel⟩))
    (fun e => absurd rfl e) (fun e => by simp at e))
  obtain ⟨g, t, l, e, k1, k2, k3, k4, o2, i2, k5, k6, k7, k8, k9, k10, k11⟩ := C174_violated_always _ _ r6 1
    ⟨Demo.setup, [Demo.go, .hgCall 0], s2, []⟩ rfl 0 q2 (by simp [c2]) g2 0 _ rfl rfl rfl rfl _ n2 b2 w2 Demo.evilWire (some []) _ _
    (by
      rw [m2]
      refine Eq.mp ?_ Demo.evil_receives
      congr 1) (by decide)
  have hz : decompress Demo.around.T q2 Demo.evilWire = Demo.evilWire := decompress_neg fun hz => absurd hz.2.2.2 (by decide +kernel)
  obtain ⟨s, hs, hp⟩ := Demo.of_check (x := Demo.setup) (as := Demo.success Demo.evilWire.up)
    (p := fun s => (Demo.seen s).finished && s.sent.map Sent.body == ["evil".toUTF8.toList]) (by decide +kernel)
  simp only [Bool.and_eq_true, beq_iff_eq] at hp
  have ht : g.tasks = [⟨Demo.heading, [Demo.go, .hgCall 0], s1, []⟩, t] := k2
  have hr : run t.x.env (initial t.x.dec) t.acts = some t.s := ((Hub.inv k1).runs 1 t (by rw [ht]; rfl)).2
  have hrun : run t.x.env t.s (Demo.success Demo.evilWire.up |>.drop 3) = some s := by
    rw [← run_append hr, k3, k4, hz]
    exact hs
  have r7 := k1.acts (j := 1) (by rw [ht]; rfl) hrun (by simp [Demo.success, Demo.attempt, Demo.headers, Demo.body]) (fun i hi => by
    have : i = 0 := by simpa [Demo.success, Demo.attempt, Demo.headers, Demo.body] using hi
    subst this
    exact ⟨_, by rw [o2]; exact List.mem_append_right _ (List.mem_singleton.2 rfl), by rw [hz]; rfl, i2, k5⟩)
  rw [ht] at r7
  exact ⟨_, _, _, _, _, e, q1, q2, r7, rfl, rfl, k3, k6, k8, by simp only; rw [k10]; rfl, k11, k7, by rw [k7]; exact k9,
    Demo.done_of_seen hp.1, hp.2⟩

theorem Demo.head_alone : Receives "HEAD".toList Demo.headText Demo.headWire (some [])
    ⟨200, (1, 1), [("Content-Length".toList, ["42".toList])], .sized 0, 42⟩ [] :=
  ⟨by decide +kernel, rfl, List.Perm.refl _, rfl, by decide +kernel, ⟨fun _ => ⟨_, rfl⟩, fun _ => rfl⟩, rfl⟩

theorem Demo.head_reads : ReadsFinal "HEAD".toList 0 Demo.headText
    ⟨"HTTP/1.1".toList, 200, "OK".toList, [("Content-Length".toList, "42".toList)], []⟩ [] := by
  refine .final ⟨.inl rfl, by decide, ?_, "200".toList,
    [("Content-Length".toList ++ ':' :: ([' '] ++ ("42".toList ++ [])), ("Content-Length".toList, "42".toList))],
    [], by decide, by decide, by decide, ?_, rfl, ?_, by decide +kernel⟩ (by decide)
  · intro v hv
    have e : fieldValues [("Content-Length".toList, "42".toList)] "trailer".toList = [] := by decide
    rw [e] at hv
    cases hv
  · intro l hl
    rw [List.mem_singleton.1 hl]
    exact Demo.line ⟨by decide, by decide⟩ (by decide) (by decide) (by decide)
  · exact .none (.inl rfl) (by decide) (.inr ⟨42, "42".toList, by decide, by decide, by decide, by decide, by decide⟩)

/-- A request is put on an idle connection, and its answer arrives and is delivered. -/
theorem exchange {A : Around K} {g : Hub K} (h : g.Reached A) {j : Nat} {t : Task K} (ht : g.tasks[j]? = some t)
    {i : Nat} {q : UpReq} (hq : (i, q) ∈ t.s.calls) (hg : (t.s.atmpt i).hg = .calling) {k : Nat} {l : Line}
    (hl : g.lines[k]? = some l) (hk : l.key = A.keyOf q.uri) (ha : l.c.alive = true) (hn : l.c.asking = none)
    (ho : l.c.ended = false) (hp : l.c.pos = l.c.arrived.length)
    {keys : List Str} (he : Enumerates keys (credited q).header) {bytes : Str} (hb : writeRequest keys (credited q) = some bytes)
    {a : Str} {w : WireResp} {hd : RespHead} {after : Str} (hr : Receives q.method a w (some []) hd after)
    (hf : hd.framing ≠ .untilEnd) (hkeep : keepsConn hd = true) :
    ∃ (t' : Task K) (l' : Line), Hub.Reached A ⟨g.tasks.set j t', g.lines.set k l', g.asks ++ [(j, i, q)]⟩ ∧ t'.x = t.x ∧
      t'.acts = t.acts ++ [.hgReturn i (some (decompress A.T q w).up)] ∧ t'.got = t.got ++ [(i, decompress A.T q w)] ∧ i < t'.s.n ∧
      (t'.s.atmpt i).vResp = some (decompress A.T q w).up ∧ l'.key = l.key ∧ l'.wrote = l.wrote ++ bytes ∧
      l'.puts = l.puts ++ [(g.asks.length, bytes)] ∧ l'.cut = false ∧
      l'.c = ⟨l.c.arrived ++ a, (l.c.arrived ++ a).length, false, true, none,
        l.c.log ++ [⟨⟨g.asks.length, q.method, l.c.arrived.length, l.c.arrived.length⟩, (l.c.arrived ++ a).length, w⟩]⟩ := by
  have hlt := calls_lt (C174_alone A g h t (List.mem_of_getElem? ht)).2.1 hq
  have h1 := h.step (.ask j t i q k l keys bytes bytes ht hq hg hl hk ha hn he hb (List.prefix_refl _))
  have hkl := (List.getElem?_eq_some_iff.1 hl).1
  have h2 := h1.step (.conn k _ _ (List.getElem?_set_self hkl) (.arrive a ho) (fun _ => rfl) (fun hc => by simp at hc))
  have h3 := h2.step (.conn k _ _ (List.getElem?_set_self (by rw [List.length_set]; exact hkl))
    (.answer ⟨g.asks.length, q.method, l.c.arrived.length, l.c.pos⟩ w (some []) hd after true rfl (by
      show Receives q.method (List.drop l.c.pos (l.c.arrived ++ a)) w (some []) hd after
      rw [hp, List.drop_left]
      exact hr) (fun e => absurd e hf) (fun _ => ⟨rfl, hkeep⟩)) (fun e => absurd rfl e) (fun hc => by simp at hc))
  have hs : step t.x.env t.s (.hgReturn i (some (decompress A.T q w).up)) =
      some (t.s.upd i fun a => { a with hg := .returned, vResp := some (decompress A.T q w).up, vErr := false }) := by
    simp only [step, stepOther, hg]
    rw [if_pos hlt]
    rfl
  have h4 := h3.step (.deliver j t i q k _ ⟨⟨g.asks.length, q.method, l.c.arrived.length, l.c.pos⟩, _, w⟩ _ ht
    (List.getElem?_set_self (by rw [List.length_set, List.length_set]; exact hkl)) (List.mem_append_right _ (List.mem_singleton.2 rfl))
    List.getElem?_concat_length hs)
  simp only [List.set_set] at h4
  refine ⟨_, _, h4, rfl, rfl, rfl, hlt, by simp [upd_atmpt], rfl, rfl, rfl, by simp, ?_⟩
  simp only [Option.getD_some, List.length_nil, Nat.sub_zero, hp, ho]

theorem Demo.both_answered (c : UpConn) (h1 : c.asked = [⟨0, "HEAD".toList, 0, 0⟩,
    ⟨1, "GET".toList, Demo.headText.length, Demo.headText.length⟩])
    (h2 : c.arrived = Demo.headText ++ Demo.evilText) : Answers c [Demo.headText, Demo.evilText] := by
  refine ⟨by rw [h1]; rfl, by rw [h2]; exact ⟨[], by simp⟩, ?_, ?_⟩
  · intro i q hq
    rw [h1] at hq
    match i, hq with
    | 0, hq => rw [← Option.some.inj hq]; rfl
    | 1, hq => rw [← Option.some.inj hq]; simp
    | n + 2, hq => simp at hq
  · intro i q a hq ha
    rw [h1] at hq
    rcases i with _ | _ | n
    · simp only [List.getElem?_cons_zero, Option.some.injEq] at hq ha
      subst hq ha
      exact ⟨0, _, by decide, Demo.head_reads⟩
    · simp only [List.getElem?_cons_succ, List.getElem?_cons_zero, Option.some.injEq] at hq ha
      subst hq ha
      exact ⟨0, _, by decide, Demo.evil_reads⟩
    · simp at hq

/-- Two clients, and an upstream that answers the request of each of them. -/
theorem Demo.two_served : ∃ (g : Hub Nat) (t1 t2 : Task Nat) (l : Line) (e1 e2 : Handed) (q1 q2 : UpReq), g.Reached Demo.around ∧
    g.tasks = [t1, t2] ∧ t1.x = Demo.heading ∧ t2.x = Demo.setup ∧ g.lines = [l] ∧ l.c.log = [e1, e2] ∧ l.c.alive = true ∧
    g.asks[e1.tag]? = some (0, 0, q1) ∧ g.asks[e2.tag]? = some (1, 0, q2) ∧ Answers l.c [Demo.headText, Demo.evilText] ∧
    (t1.s.atmpt 0).vResp = some (decompress Demo.around.T q1 e1.w).up ∧
    t2.x.ReachesOrderly t2.s ∧ t2.s.pc = .done ∧ t2.s.cur = 0 ∧ t2.s.curA.vResp = some (decompress Demo.around.T q2 e2.w).up ∧
    t2.s.sent.map (fun y => (y.status, y.body)) = [(200, "evil".toUTF8.toList)] ∧
    ∀ (i : Nat) q, l.c.asked[i]? = some q → [⟨0, "HEAD".toList, 0, 0⟩,
      ⟨1, "GET".toList, Demo.headText.length, Demo.headText.length⟩][i]? = some q := by
  obtain ⟨s1, q1, b1, h1, c1, m1, g1, n1, w1, -, -⟩ := Demo.calls (x := Demo.heading) (method := "HEAD".toList) (hw := ⟨by decide, by decide⟩)
    (h := by decide +kernel)
  obtain ⟨s2, q2, b2, h2, c2, m2, g2, n2, w2, -, -⟩ := Demo.calls (x := Demo.setup) (method := "GET".toList) (hw := ⟨by decide, by decide⟩)
    (h := by decide +kernel)
  have quiet : ∀ a ∈ [Demo.go, Act.hgCall 0], ∀ i r, a ≠ .hgReturn i (some r) := by simp
  have r1 := (Hub.Reached.new (A := Demo.around)).step (.accept Demo.heading (.inl rfl)) |>.step (.accept Demo.setup (.inr rfl))
    |>.acts (j := 0) rfl h1 quiet (by simp)
  have r3 := (r1.acts (j := 1) rfl h2 quiet (by simp)).step (.dial "up".toList)
  obtain ⟨t1, l1, r4, x1, a1, -, -, v1, k1, -, -, -, e1⟩ := exchange r3 (j := 0) rfl (i := 0) (q := q1) (by simp [c1]) g1 (k := 0) rfl rfl rfl rfl rfl
    rfl n1 w1 (by rw [m1]; exact Demo.head_alone) (by decide) (by decide +kernel)
  replace e1 : l1.c = ⟨Demo.headText, Demo.headText.length, false, true, none,
      [⟨⟨0, "HEAD".toList, 0, 0⟩, Demo.headText.length, Demo.headWire⟩]⟩ := by rw [e1, m1]; rfl
  obtain ⟨t2, l2, r5, x2, a2, o2, i2, v2, k2, -, -, -, e2⟩ := exchange r4 (j := 1) rfl (i := 0) (q := q2) (by simp [c2]) g2 (k := 0) rfl
    (by rw [k1]; rfl) (by rw [e1]) (by rw [e1]) (by rw [e1]) (by rw [e1])
    n2 w2 (by rw [m2]; exact Demo.evil_receives) (by decide) (by decide +kernel)
  have hz : decompress Demo.around.T q2 Demo.evilWire = Demo.evilWire := decompress_neg fun hz => absurd hz.2.2.2 (by decide +kernel)
  obtain ⟨s, hs, hp⟩ := Demo.of_check (x := Demo.setup) (as := Demo.success Demo.evilWire.up)
    (p := fun s => (Demo.seen s).finished && s.cur == 0 && s.curA.vResp == some Demo.evilWire.up &&
      s.sent.map (fun y => (y.status, y.body)) == [(200, "evil".toUTF8.toList)]) (by decide +kernel)
  simp only [Bool.and_eq_true, beq_iff_eq] at hp
  have hr : run t2.x.env (initial t2.x.dec) t2.acts = some t2.s := ((Hub.inv r5).runs 1 t2 rfl).2
  have hrun : run t2.x.env t2.s (Demo.success Demo.evilWire.up |>.drop 3) = some s := by
    rw [← run_append hr, x2, a2, hz]
    exact hs
  have r6 := r5.acts (j := 1) rfl hrun (by simp [Demo.success, Demo.attempt, Demo.headers, Demo.body]) (fun i hi => by
    have : i = 0 := by simpa [Demo.success, Demo.attempt, Demo.headers, Demo.body] using hi
    subst this
    exact ⟨_, by rw [o2]; exact List.mem_append_right _ (List.mem_singleton.2 rfl), by rw [hz]; rfl, i2, v2⟩)
  replace e2 : l2.c = ⟨Demo.headText ++ Demo.evilText, (Demo.headText ++ Demo.evilText).length, false, true, none,
      [⟨⟨0, "HEAD".toList, 0, 0⟩, Demo.headText.length, Demo.headWire⟩,
        ⟨⟨1, "GET".toList, Demo.headText.length, Demo.headText.length⟩, (Demo.headText ++ Demo.evilText).length, Demo.evilWire⟩]⟩ := by
    rw [e2, m2, e1]
    rfl
  refine ⟨_, t1, _, l2, _, _, q1, q2, r6, rfl, x1, x2, rfl, by rw [e2], by rw [e2], rfl, rfl, ?_, v1, ?_, Demo.done_of_seen hp.1.1.1, hp.1.1.2,
    ?_, hp.2, ?_⟩
  · rw [e2]
    exact Demo.both_answered _ rfl rfl
  · show t2.x.ReachesOrderly s
    rw [x2]
    exact Demo.orderly_success hs
  · exact hp.1.2.trans (by rw [hz])
  · rw [e2]
    exact fun i q h => h

/-- The hypotheses of `C174_own_partial` and of `C174_message_partial` are satisfiable. -/
example : ∃ (g : Hub Nat) (t : Task Nat) (l : Line) (e : Handed) (q : UpReq) (as : List Str) (y : Sent), g.Reached Demo.around ∧
    g.tasks[1]? = some t ∧ g.tasks.length = 2 ∧ t.x.ReachesOrderly t.s ∧ (∃ r u l, t.x.dec = .forward r u l) ∧ t.s.pc = .done ∧
    (∀ l' ∈ g.lines, ∃ as, Answers l'.c as) ∧ l ∈ g.lines ∧ l.c.log[1]? = some e ∧
    g.asks[e.tag]? = some (1, t.s.cur, q) ∧ (1 + 1 < l.c.asked.length ∨ l.c.alive = true) ∧ Answers l.c as ∧
    t.s.curA.vResp = some (decompress Demo.around.T q e.w).up ∧ y ∈ t.s.sent ∧ y.status < 400 ∧ TextIds t.x ∧
    (toUpper t.x.rq.method = "HEAD".toList → t.x.rq.method = "HEAD".toList) ∧ ConnOf t.x Demo.conn := by
  obtain ⟨g, t1, t2, l, e1, e2, q1, q2, h1, h2, h3, h4, h5, h6, h7, h8, h9, h10, h11, h12, h13, h14, h15, h16, -⟩ := Demo.two_served
  obtain ⟨y, hy, hp⟩ := Demo.one_of_map h16
  injection hp with hp _
  refine ⟨g, t2, l, e2, q2, _, y, h1, by rw [h2]; rfl, by rw [h2]; rfl, h12, ?_, h13, ?_, by rw [h5]; exact List.mem_singleton.2 rfl,
    by rw [h6]; rfl, by rw [h14]; exact h9, .inr h7, h10, h15, by rw [hy]; exact List.mem_singleton.2 rfl, by rw [hp]; decide, ?_⟩
  · rw [h4]
    exact ⟨Demo.route, Demo.url, "default".toList, by decide +kernel⟩
  · intro l' hl'
    rw [h5] at hl'
    rw [List.mem_singleton.1 hl']
    exact ⟨_, h10⟩
  · rw [h4]
    exact ⟨Demo.text_ids, by decide, Demo.conn_of⟩

/-! ## C175: what an upstream reads -/

/-- The stream begins with these requests. -/
def ReadsEach : Str → List HttpRequest → Str → Prop
  | s, [], rest => s = rest
  | s, m :: ms, rest => ∃ s', ReadsRequest s m s' ∧ ReadsEach s' ms rest

/-- What is written for a request, whatever bytes its client sent over HTTP/1 to make it. -/
structure CameOverHttp1 (x : Setup K) : Prop where
  arrived : ∃ stream rest, Arrives stream x.rq rest
  spaces : NoSpaces x.c
  connect : toUpper x.rq.method ≠ "CONNECT".toList

/-- A message for an upstream is the one made of a request. -/
structure MadeFor (x : Setup K) (q : UpReq) (m : HttpRequest) : Prop where
  method : m.method = toUpper x.rq.method
  target : wireTarget q = some m.target
  body : m.body = bodyText x.pb.body

theorem put_reads {A : Around K} {g : Hub K} (h : g.Reached A) (hc : ∀ x, A.comes x → CameOverHttp1 x) {l : Line} (hl : l ∈ g.lines)
    {p : Nat × Str} (hp : p ∈ l.puts) :
    ∃ (m : HttpRequest) (j i : Nat) (q : UpReq) (t : Task K), g.asks[p.1]? = some (j, i, q) ∧ g.tasks[j]? = some t ∧ (i, q) ∈ t.s.calls ∧ l.key = A.keyOf q.uri ∧
      MadeFor t.x q m ∧ ∀ more, ReadsRequest (p.2 ++ more) m more ∧
        ∀ m' rest, ReadsRequest (p.2 ++ more) m' rest → m' = m ∧ rest = more := by
  obtain ⟨k, hk⟩ := List.mem_iff_getElem?.1 hl
  obtain ⟨j, i, q, keys, ⟨h1, t, h2, h3⟩, h4, h5, h6⟩ := ((Hub.inv h).lines k l hk).puts p hp
  obtain ⟨c1, c2, -⟩ := C174_alone A g h t (List.mem_of_getElem? h2)
  obtain ⟨⟨stream, rest, c3⟩, c4, c5⟩ := hc _ c1
  obtain ⟨hw, ⟨u, hf⟩, -, -, -, -, -, line, proto, hln⟩ := C165_sound_partial stream t.x.rq rest c3
  obtain ⟨m, g1, g2, g3, -, g5⟩ := C128_http1_partial t.x t.s c2 hw.header c4 u hf line proto hln c5 (i, q) h3 keys h4 p.2 h5
  exact ⟨m, j, i, q, t, h1, h2, h3, h6, ⟨g1, g2, g3⟩, g5⟩

theorem readsEach_unique : ∀ {ps : List Str} {ms : List HttpRequest} {more : Str},
    (∀ (i : Nat) b m, ps[i]? = some b → ms[i]? = some m → ∀ more, ReadsRequest (b ++ more) m more ∧
      ∀ m' rest, ReadsRequest (b ++ more) m' rest → m' = m ∧ rest = more) → ps.length = ms.length →
    ReadsEach (ps.flatten ++ more) ms more ∧ ∀ ms' rest, ReadsEach (ps.flatten ++ more) ms' rest → ms'.length = ms.length →
      ms' = ms ∧ rest = more
  | [], [], more, _, _ => ⟨rfl, fun ms' rest h hl => by
      obtain rfl := List.length_eq_zero_iff.1 hl
      exact ⟨rfl, h.symm⟩⟩
  | b :: ps, m :: ms, more, h, hl => by
    obtain ⟨r1, r2⟩ := readsEach_unique (ps := ps) (ms := ms) (more := more) (fun i b m h1 h2 => h (i + 1) b m h1 h2)
      (by simpa using hl)
    have h0 := h 0 b m rfl rfl
    simp only [List.flatten_cons, List.append_assoc]
    refine ⟨⟨_, (h0 _).1, r1⟩, ?_⟩
    rintro (_ | ⟨m', ms'⟩) rest hr hlen
    · cases hlen
    · obtain ⟨s', k1, k2⟩ := hr
      obtain ⟨rfl, rfl⟩ := (h0 _).2 _ _ k1
      obtain ⟨rfl, rfl⟩ := r2 ms' rest k2 (by simpa using hlen)
      exact ⟨rfl, rfl⟩

/-- What was written to a connection, if each of the requests is a message. -/
theorem line_reads {A : Around K} {g : Hub K} {l : Line} (hl : LineInv A g l) {P : Nat × Str → HttpRequest → Prop}
    (hput : ∀ p ∈ l.puts, ∃ m, P p m ∧ ∀ more, ReadsRequest (p.2 ++ more) m more ∧
      ∀ m' rest, ReadsRequest (p.2 ++ more) m' rest → m' = m ∧ rest = more) :
    ∃ (ms : List HttpRequest) (part : Str),
      (ms.length = l.puts.length ∧ part = [] ∨ ms.length + 1 = l.puts.length ∧ l.cut = true ∧
        ∃ p, l.puts[ms.length]? = some p ∧ part <+: p.2) ∧
      (∀ (n : Nat) m, ms[n]? = some m → ∃ p : Nat × Str, l.puts[n]? = some p ∧ P p m) ∧
      ∀ more, ReadsEach (l.wrote ++ more) ms (part ++ more) ∧
        ∀ ms' rest, ReadsEach (l.wrote ++ more) ms' rest → ms'.length = ms.length → ms' = ms ∧ rest = part ++ more := by
  -- the messages for any of the requests
  have key : ∀ ps : List (Nat × Str), (∀ p ∈ ps, p ∈ l.puts) → ∃ ms : List HttpRequest, ms.length = ps.length ∧
      ∀ (n : Nat) p m, ps[n]? = some p → ms[n]? = some m → P p m ∧ ∀ more, ReadsRequest (p.2 ++ more) m more ∧
        ∀ m' rest, ReadsRequest (p.2 ++ more) m' rest → m' = m ∧ rest = more := by
    intro ps
    induction ps with
    | nil => exact fun _ => ⟨[], rfl, fun n p m h => (nomatch h)⟩
    | cons p ps ih =>
      intro hsub
      obtain ⟨ms, h1, h2⟩ := ih fun p hp => hsub p (List.mem_cons_of_mem _ hp)
      obtain ⟨m, k5, k6⟩ := hput p (hsub p List.mem_cons_self)
      refine ⟨m :: ms, by simp [h1], ?_⟩
      rintro (_ | n) p' m' e1 e2
      · injection e1 with e1
        injection e2 with e2
        subst e1 e2
        exact ⟨k5, k6⟩
      · exact h2 n p' m' e1 e2
  have reads : ∀ (ps : List (Nat × Str)) (ms : List HttpRequest), ms.length = ps.length →
      (∀ (n : Nat) p m, ps[n]? = some p → ms[n]? = some m → ∀ more, ReadsRequest (p.2 ++ more) m more ∧
        ∀ m' rest, ReadsRequest (p.2 ++ more) m' rest → m' = m ∧ rest = more) → ∀ more,
      ReadsEach ((ps.map Prod.snd).flatten ++ more) ms more ∧ ∀ ms' rest, ReadsEach ((ps.map Prod.snd).flatten ++ more) ms' rest →
        ms'.length = ms.length → ms' = ms ∧ rest = more := by
    intro ps ms hlen hh more
    refine readsEach_unique (fun i b m h1 h2 => ?_) (by simp [hlen])
    rw [List.getElem?_map] at h1
    obtain ⟨p, h3, rfl⟩ := Option.map_eq_some_iff.1 h1
    exact hh i p m h3 h2
  rcases hl.wrote with ⟨h1, h2⟩ | ⟨h1, -, ps, p, w, h2, h3, h4⟩
  · obtain ⟨ms, k1, k2⟩ := key l.puts fun _ h => h
    refine ⟨ms, [], .inl ⟨k1, rfl⟩, fun n m hm => ?_, fun more => ?_⟩
    · have hlt := (List.getElem?_eq_some_iff.1 hm).1
      exact ⟨_, List.getElem?_eq_getElem (by omega), (k2 n _ m (List.getElem?_eq_getElem (by omega)) hm).1⟩
    · rw [h2]
      exact reads l.puts ms k1 (fun n p m e1 e2 => (k2 n p m e1 e2).2) more
  · obtain ⟨ms, k1, k2⟩ := key ps fun p hp => by rw [h2]; exact List.mem_append_left _ hp
    refine ⟨ms, w, .inr ⟨by rw [h2]; simp [k1], h1, p, by rw [h2, k1]; simp, h3⟩, fun n m hm => ?_, fun more => ?_⟩
    · have hlt := (List.getElem?_eq_some_iff.1 hm).1
      have hps : ps[n]? = some (ps[n]'(by omega)) := List.getElem?_eq_getElem (by omega)
      exact ⟨_, by rw [h2, List.getElem?_append_left (by omega)]; exact hps, (k2 n _ m hps hm).1⟩
    · rw [h4, List.append_assoc]
      exact reads ps ms k1 (fun n p m e1 e2 => (k2 n p m e1 e2).2) (w ++ more)

/-- C175, part: whatever bytes any number of clients send over HTTP/1, an upstream that reads a connection finds on it one
message for each request that was put there, in their order, and at the end maybe a part of the last one; there is no other way
to read it. Every message has the method, the target and the body of the request it was made for. Missing: HTTP/2, CONNECT and
configurations with spaces, see C175_violated_always. -/
theorem C175_partial (A : Around K) (hc : ∀ x, A.comes x → CameOverHttp1 x) (g : Hub K) (h : g.Reached A) (l : Line)
    (hl : l ∈ g.lines) :
    ∃ (ms : List HttpRequest) (part : Str),
      (ms.length = l.puts.length ∧ part = [] ∨ ms.length + 1 = l.puts.length ∧ l.cut = true ∧
        ∃ p, l.puts[ms.length]? = some p ∧ part <+: p.2) ∧
      (∀ (n : Nat) m, ms[n]? = some m → ∃ (p : Nat × Str) (j i : Nat) (q : UpReq) (t : Task K), l.puts[n]? = some p ∧ g.asks[p.1]? = some (j, i, q) ∧ g.tasks[j]? = some t ∧
        (i, q) ∈ t.s.calls ∧ l.key = A.keyOf q.uri ∧ MadeFor t.x q m) ∧
      ∀ more, ReadsEach (l.wrote ++ more) ms (part ++ more) ∧
        ∀ ms' rest, ReadsEach (l.wrote ++ more) ms' rest → ms'.length = ms.length → ms' = ms ∧ rest = part ++ more := by
  obtain ⟨k, hk⟩ := List.mem_iff_getElem?.1 hl
  obtain ⟨ms, part, h1, h2, h3⟩ := line_reads ((Hub.inv h).lines k l hk) (P := fun p m => ∃ (j i : Nat) (q : UpReq) (t : Task K),
    g.asks[p.1]? = some (j, i, q) ∧ g.tasks[j]? = some t ∧ (i, q) ∈ t.s.calls ∧ l.key = A.keyOf q.uri ∧ MadeFor t.x q m) (by
      intro p hp
      obtain ⟨m, j, i, q, t, k1, k2, k3, k4, k5, k6⟩ := put_reads h hc hl hp
      exact ⟨m, ⟨j, i, q, t, k1, k2, k3, k4, k5⟩, k6⟩)
  refine ⟨ms, part, h1, fun n m hm => ?_, h3⟩
  obtain ⟨p, k1, j, i, q, t, k2⟩ := h2 n m hm
  exact ⟨p, j, i, q, t, k1, k2⟩

/-- C175 is violated by targets with a space, which come over HTTP/2: nothing that follows the requests before it can be read
as a request. -/
theorem C175_violated_always (A : Around K) (g : Hub K) (h : g.Reached A) (l : Line) (hl : l ∈ g.lines) (hc : l.cut = false)
    (ps ps' : List (Nat × Str)) (tag : Nat) (bytes : Str) (hp : l.puts = ps ++ (tag, bytes) :: ps') (j i : Nat) (q : UpReq)
    (hq : g.asks[tag]? = some (j, i, q)) (target : Str) (ht : wireTarget q = some target) (hs : ' ' ∈ target) :
    ∃ tail, l.wrote = (ps.map Prod.snd).flatten ++ tail ∧ ∀ more, ¬ ∃ m rest, ReadsRequest (tail ++ more) m rest := by
  obtain ⟨k, hk⟩ := List.mem_iff_getElem?.1 hl
  have hline := (Hub.inv h).lines k l hk
  rcases hline.wrote with ⟨-, hw⟩ | ⟨h1, -⟩
  · obtain ⟨j', i', q', keys, ⟨h1, t, h2, h3⟩, -, h5, -⟩ := hline.puts (tag, bytes) (by rw [hp]; simp)
    simp only at h1 h5
    rw [hq] at h1
    injection h1 with h1
    injection h1 with _ h1
    injection h1 with _ h1
    subst h1
    refine ⟨bytes ++ (ps'.map Prod.snd).flatten, by rw [hw, hp]; simp, fun more => ?_⟩
    rw [List.append_assoc]
    exact C128_violated_always t.x t.s (C174_alone A g h t (List.mem_of_getElem? h2)).2.1 (i', q) h3 keys bytes h5 target ht hs _
  · rw [hc] at h1
    cases h1

/-- A request that comes over HTTP/2, with a space in its target. -/
def Demo.withSpace : Setup Nat := Demo.targeted "" "/a?x y"

/-- C175 is violated: the request of one client makes everything on the connection unreadable for the upstream, and the request
of another client is put on the connection after it. -/
theorem C175_violated : ∃ (A : Around Nat) (g : Hub Nat) (l : Line) (p1 p2 : Nat × Str) (q1 q2 : UpReq), g.Reached A ∧
    A.comes = (fun x => x = Demo.withSpace ∨ x = Demo.setup) ∧ g.tasks.map Task.x = [Demo.withSpace, Demo.setup] ∧ g.lines = [l] ∧
    l.puts = [p1, p2] ∧ g.asks[p1.1]? = some (0, 0, q1) ∧ g.asks[p2.1]? = some (1, 0, q2) ∧ l.wrote = p1.2 ++ p2.2 ∧
    p1.2.take 23 = "GET /a?x y HTTP/1.1\r\nHo".toList ∧ ∀ more, ¬ ∃ m rest, ReadsRequest (l.wrote ++ more) m rest := by
  obtain ⟨s1, q1, b1, h1, c1, m1, g1, n1, w1, z1, f1⟩ := Demo.calls (x := Demo.withSpace) (method := "GET".toList)
    (fun q => (writeRequest (sentNames Demo.withSpace.rq) q).map (·.take 23) == some "GET /a?x y HTTP/1.1\r\nHo".toList &&
      wireTarget q == some "/a?x y".toList) ⟨by decide, by decide⟩ (by decide +kernel)
  obtain ⟨s2, q2, b2, h2, c2, m2, g2, n2, w2, -, -⟩ := Demo.calls (x := Demo.setup) (method := "GET".toList) (hw := ⟨by decide, by decide⟩)
    (h := by decide +kernel)
  simp only [Bool.and_eq_true, beq_iff_eq] at f1
  rw [← z1, w1] at f1
  have quiet : ∀ a ∈ [Demo.go, Act.hgCall 0], ∀ i r, a ≠ .hgReturn i (some r) := by simp
  have r1 := (Hub.Reached.new (A := { Demo.around with comes := fun x => x = Demo.withSpace ∨ x = Demo.setup })).step
    (.accept Demo.withSpace (.inl rfl)) |>.step (.accept Demo.setup (.inr rfl)) |>.acts (j := 0) rfl h1 quiet (by simp)
  have r3 := (r1.acts (j := 1) rfl h2 quiet (by simp)).step (.dial "up".toList)
  obtain ⟨t1, l1, r4, x1, -, -, -, -, k1, u1, p1, d1, e1⟩ := exchange r3 (j := 0) rfl (i := 0) (q := q1) (by simp [c1]) g1 (k := 0) rfl rfl rfl
    rfl rfl rfl n1 w1 (by rw [m1]; exact Demo.evil_receives) (by decide) (by decide +kernel)
  obtain ⟨t2, l2, r5, x2, -, -, -, -, k2, u2, p2, d2, e2⟩ := exchange r4 (j := 1) rfl (i := 0) (q := q2) (by simp [c2]) g2 (k := 0) rfl
    (by rw [k1]; rfl) (by rw [e1]) (by rw [e1]) (by rw [e1]) (by rw [e1])
    n2 w2 (by rw [m2]; exact Demo.evil_receives) (by decide) (by decide +kernel)
  rw [p1] at p2
  rw [u1] at u2
  obtain ⟨tail, hw, hu⟩ := C175_violated_always _ _ r5 l2 List.mem_cons_self d2 [] [(1, b2)] 0 b1 p2 0 0 q1 rfl "/a?x y".toList
    (by rw [← wireTarget_credited]; exact f1.2) (by decide)
  refine ⟨_, _, l2, _, _, q1, q2, r5, rfl, ?_, rfl, p2, rfl, rfl, u2, Option.some.inj f1.1, fun more => ?_⟩
  · show [t1.x, t2.x] = _
    rw [x1, x2]
  · rw [hw]
    exact hu more

theorem Demo.evil_posted : Receives "POST".toList Demo.evilText Demo.evilWire (some [])
    ⟨200, (1, 1), [("Content-Length".toList, ["4".toList])], .sized 4, 4⟩ "evil".toList :=
  ⟨by decide +kernel, rfl, List.Perm.refl _, rfl, by decide +kernel, ⟨fun _ => ⟨[], by decide +kernel⟩, fun _ => rfl⟩,
    by decide +kernel⟩

/-- The hypotheses of `C175_partial` are satisfiable: two requests of a client are put on one connection, the body of the first
looks like the beginning of a request. -/
example : ∃ (A : Around Nat) (g : Hub Nat) (l : Line), (∀ x, A.comes x → CameOverHttp1 x) ∧ g.Reached A ∧ l ∈ g.lines ∧
    l.puts.length = 2 ∧ l.cut = false ∧
    l.wrote = ("POST /a/x HTTP/1.1\r\nHost: up:80\r\nUser-Agent: Go-http-client/1.1\r\nContent-Length: 5\r\n" ++
      "X-Request-Id: XR-abc-u\r\nExpect: 100-continue\r\nAccept-Encoding: gzip\r\n\r\nGET /" ++
      "GET /a/x HTTP/1.1\r\nHost: up:80\r\nUser-Agent: Go-http-client/1.1\r\nX-Request-Id: XR-abc-u\r\nAccept: */*\r\n" ++
      "Accept-Encoding: gzip\r\n\r\n").toList := by
  obtain ⟨s1, q1, b1, h1, c1, m1, g1, n1, w1, z1, f1⟩ := Demo.calls (x := Demo.held) (method := "POST".toList)
    (fun q => writeRequest (sentNames Demo.held.rq) q ==
      some ("POST /a/x HTTP/1.1\r\nHost: up:80\r\nUser-Agent: Go-http-client/1.1\r\nContent-Length: 5\r\n" ++
      "X-Request-Id: XR-abc-u\r\nExpect: 100-continue\r\nAccept-Encoding: gzip\r\n\r\nGET /").toList)
    ⟨by decide, by decide⟩ (by decide +kernel)
  obtain ⟨s2, q2, b2, h2, c2, m2, g2, n2, w2, z2, f2⟩ := Demo.calls (x := Demo.setup) (method := "GET".toList)
    (fun q => writeRequest (sentNames Demo.setup.rq) q ==
      some ("GET /a/x HTTP/1.1\r\nHost: up:80\r\nUser-Agent: Go-http-client/1.1\r\nX-Request-Id: XR-abc-u\r\nAccept: */*\r\n" ++
      "Accept-Encoding: gzip\r\n\r\n").toList)
    ⟨by decide, by decide⟩ (by decide +kernel)
  simp only [beq_iff_eq] at f1 f2
  rw [← z1, w1] at f1
  rw [← z2, w2] at f2
  have quiet : ∀ a ∈ [Demo.go, Act.hgCall 0], ∀ i r, a ≠ .hgReturn i (some r) := by simp
  have r1 := (Hub.Reached.new (A := { Demo.around with comes := fun x => x = Demo.held ∨ x = Demo.setup })).step
    (.accept Demo.held (.inl rfl)) |>.step (.accept Demo.setup (.inr rfl)) |>.acts (j := 0) rfl h1 quiet (by simp)
  have r3 := (r1.acts (j := 1) rfl h2 quiet (by simp)).step (.dial "up".toList)
  obtain ⟨t1, l1, r4, x1, -, -, -, -, k1, u1, p1, d1, e1⟩ := exchange r3 (j := 0) rfl (i := 0) (q := q1) (by simp [c1]) g1 (k := 0) rfl rfl rfl
    rfl rfl rfl n1 w1 (by rw [m1]; exact Demo.evil_posted) (by decide) (by decide +kernel)
  obtain ⟨t2, l2, r5, x2, -, -, -, -, k2, u2, p2, d2, e2⟩ := exchange r4 (j := 1) rfl (i := 0) (q := q2) (by simp [c2]) g2 (k := 0) rfl
    (by rw [k1]; rfl) (by rw [e1]) (by rw [e1]) (by rw [e1]) (by rw [e1])
    n2 w2 (by rw [m2]; exact Demo.evil_receives) (by decide) (by decide +kernel)
  have spaces : NoSpaces Demo.setup.c := by
    refine ⟨by decide, fun name ms h m hm => ?_⟩
    have : ms = [⟨"r".toList, [], Demo.url⟩] := by
      simp only [Demo.setup, Demo.config] at h
      split at h
      · exact (Option.some.inj h).symm
      · cases h
    rw [this] at hm
    rw [List.mem_singleton.1 hm]
    decide
  refine ⟨_, _, l2, ?_, r5, List.mem_cons_self, by rw [p2, p1]; rfl, d2, ?_⟩
  · rintro x (rfl | rfl)
    · exact ⟨⟨_, _, Demo.held_arrives⟩, spaces, by decide⟩
    · exact ⟨⟨_, _, Demo.get_arrives (.inl rfl)⟩, spaces, by decide⟩
  · rw [u2, u1, Option.some.inj f1, Option.some.inj f2]
    decide +kernel

end J8a

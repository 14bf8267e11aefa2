import Verif.Model.Pipeline
import Verif.Props.Persist
import Verif.Props.Reception
import Verif.Props.Status
import Verif.Spec.Pipeline
/-!
# C167: several requests on one connection
-/
namespace J8a
open Go Uri

variable {K : Type}

/-! ## Answers are read in one way -/

theorem ReadsAnswer.unique {method s : Str} {m m' : HttpResponse} {r r' : Str} (h : ReadsAnswer method s m r)
    (h' : ReadsAnswer method s m' r') : m = m' ∧ r = r' := by
  induction h with
  | final hr hs =>
    cases h' with
    | final hr' _ => exact ReadsResponse.unique hr hr'
    | interim hr' _ h2 =>
      have := (ReadsResponse.unique hr hr').1
      subst this
      omega
  | interim hr _ h2 _ _ ih =>
    cases h' with
    | final hr' h3 =>
      have := (ReadsResponse.unique hr hr').1
      subst this
      omega
    | interim hr' _ _ _ ha =>
      have := (ReadsResponse.unique hr hr').2
      subst this
      exact ih ha

theorem ReadsAnswers.unique {methods : List Str} {s : Str} {ms ms' : List HttpResponse} {r r' : Str}
    (h : ReadsAnswers methods s ms r) (h' : ReadsAnswers methods s ms' r') : ms = ms' ∧ r = r' := by
  induction h generalizing ms' with
  | none => cases h' with | none => exact ⟨rfl, rfl⟩
  | more ha _ ih =>
    cases h' with
    | more ha' hs' =>
      obtain ⟨e1, e2⟩ := ReadsAnswer.unique ha ha'
      subst e1 e2
      obtain ⟨e1, e2⟩ := ih hs'
      exact ⟨by rw [e1], e2⟩

theorem continue_reads (method more : Str) : ReadsResponse method (continueLine ++ more)
    ⟨"HTTP/1.1".toList, 100, "Continue".toList, [], []⟩ more := by
  refine ⟨.inl rfl, by decide, "100".toList, [], more, by decide, by decide, by decide, ?_, rfl, ?_, ?_⟩
  · intro l hl; cases hl
  · exact .none (.inr (.inl ⟨by decide, by decide⟩))
  · rfl

/-! ## One turn -/

/-- What is asked of a turn: HEAD is spelt like that, it is not CONNECT, nothing was written late (C50), and what is told to
the client that is not the gateway's own text is text: the identities, the date, the headers of the upstream's responses, none
of which is a 1xx. -/
structure Turn.Clean (t : Turn K) : Prop where
  head : toUpper t.x.rq.method = "HEAD".toList → t.x.rq.method = "HEAD".toList
  connect : t.x.rq.method ≠ "CONNECT".toList
  orderly : t.x.ReachesOrderly t.s
  ids : TextIds t.x
  text : t.c.Text
  up : ∀ r, Recv t.s r → r.Clean ∧ 200 ≤ r.status

theorem Turn.Clean.cut {t : Turn K} (h : t.Clean) : NamesCut t.s := by
  intro r hr p hp
  have := ((h.up r hr).1 p hp).1
  exact ⟨fun hm => absurd (this.2 _ hm) (by decide), fun hm => absurd (this.2 _ hm) (by decide)⟩

theorem panics_silent {x : Setup K} {s : St} (h : x.Reaches s) (hd : x.dec = .panic) : s.sent = [] := by
  obtain ⟨as, h⟩ := h
  have := run_invariant (P := fun s => s.n = 0 ∧ s.sent = [] ∧ s.pc = .panicked)
    (fun s a s' hi hs => by
      obtain ⟨h0, h1, h2⟩ := hi
      cases a <;> step_cases hs <;> simp_all) (s := initial x.dec) (by simp [hd, initial]) h
  exact this.2.1

/-- What is written in a turn is read as the one response that the handler sent, which is a final one. -/
theorem turn_read {t : Turn K} {stream : Str} {rest : Option Str} (ht : t.Takes stream rest) (hc : t.Clean) :
    200 ≤ t.y.status ∧ ∃ m, ReadAs t.x (writeResponse t.c t.keys t.y) t.y m := by
  have hr : t.x.Reaches t.s := ht.reaches
  have hy : t.y ∈ t.s.sent := by rw [ht.sent]; exact List.mem_cons_self
  have hco : ConnOf t.x t.c := ⟨ht.method, hc.text⟩
  have hown : OwnRefuses t.x t.y := fun h => absurd h hc.connect
  cases hd : t.x.dec with
  | panic => rw [panics_silent hr hd] at hy; cases hy
  | respond code msg =>
    have hcode : 400 ≤ code ∧ code ≤ 503 := by
      rcases decision_respond hd with h | h | ⟨-, -, h | ⟨r, -, h | h⟩⟩ <;> rw [h.1] <;> decide
    have hv : validStatus code = true := by
      unfold validStatus
      simp only [Bool.and_eq_true, decide_eq_true_eq]
      omega
    have hs := (onlyAnswer hr hd hv).done ht.done
    rw [ht.sent] at hs
    injection hs with hs
    have ho : t.y.header "Content-Length".toList = [] := by rw [hs]; exact json_cl _ _ _
    refine ⟨?_, C133_own_partial t.x t.s hr t.y hy ho hc.ids hc.head hown t.c hco t.keys ht.keys⟩
    rw [hs]
    show 200 ≤ code
    omega
  | forward r u l =>
    have hpos := (ordInv_of_reaches hc.orderly hd).inv.pos
    have hcur : ∀ v, t.s.curA.vResp = some v → Recv t.s v := fun v hv => ⟨t.s.cur, cur_lt hpos, hv⟩
    refine ⟨?_, C133_clean_partial t.x t.s hc.orderly hd ht.done t.y hy hc.ids
      (fun v hv => (hc.up v (hcur v hv)).1) hc.head t.c hco t.keys ht.keys⟩
    obtain ⟨y', hy', ha⟩ := C50_answer_partial t.x t.s hc.orderly hd ht.done
    rw [ht.sent] at hy'
    injection hy' with hy'
    rw [hy']
    cases ha with
    | proxied v h1 h2 => exact (hc.up v (hcur v h1.1.2.1)).2
    | client v h1 h2 => show 200 ≤ v.status; omega
    | dwn => exact (by decide : (200 : Int) ≤ 504)
    | up => exact (by decide : (200 : Int) ≤ 504)
    | bad => exact (by decide : (200 : Int) ≤ 502)

/-- If the body ends with the connection, so does the connection. -/
theorem turn_ends {t : Turn K} {stream : Str} {rest : Option Str} (ht : t.Takes stream rest) (hc : t.Clean)
    {m : HttpResponse} (hm : ReadAs t.x (writeResponse t.c t.keys t.y) t.y m) (hu : UntilEnd t.x.rq.method m) :
    endsAfter t.c t.y = true := by
  have hy : t.y ∈ t.s.sent := by rw [ht.sent]; exact List.mem_cons_self
  obtain ⟨-, h2, -⟩ := read_values (more := []) ht.reaches hy hc.cut hc.head (fun h => absurd h hc.connect)
    ⟨ht.method, hc.text⟩ ht.keys (hm.only [] fun _ => rfl).1 (fun _ => rfl) "A".toList (by decide)
  obtain ⟨h3, h4⟩ := h2 hu
  unfold endsAfter closesAfter closesEarly keeps10
  rw [h3, h4]
  simp

/-- The answer to this turn, whatever follows. -/
theorem turn_answers {t : Turn K} {stream : Str} {rest : Option Str} (ht : t.Takes stream rest) (hc : t.Clean)
    {m : HttpResponse} (hm : ReadAs t.x (writeResponse t.c t.keys t.y) t.y m) (more : Str)
    (hmore : endsAfter t.c t.y = true → more = []) : ReadsAnswer t.x.rq.method (t.bytes ++ more) m more := by
  have h1 := (hm.only more fun hu => hmore (turn_ends ht hc hm hu)).1
  have h2 : 200 ≤ m.status := by
    have := hm.status
    have := (turn_read ht hc).1
    omega
  have h3 := ReadsAnswer.final h1 h2
  unfold Turn.bytes
  split
  · rw [List.append_assoc]
    exact .interim (continue_reads _ _) (by decide) (by decide) (by decide) h3
  · exact h3

/-! ## All turns -/

/-- C167, part: what a client receives on a connection is read, in one way only, as a sequence of answers: one for each turn,
in the order of the turns, and each of them is the response that the handler of this turn sent, up to what the library adds;
interim ones may stand before it. Missing: CONNECT; upstreams that send 101, see C167_violated; responses that are not
well-formed, see C133_violated; late writes, see C50_violated. -/
theorem C167_replies_partial (stream out : Str) (ts : List (Turn K)) (h : Serves stream ts out) (hc : ∀ t ∈ ts, t.Clean) :
    ∃ ms, ms.length = ts.length ∧
      (∀ p ∈ ts.zip ms, ReadAs p.1.x (writeResponse p.1.c p.1.keys p.1.y) p.1.y p.2 ∧ 200 ≤ p.2.status) ∧
      ReadsAnswers (ts.map fun t => t.x.rq.method) out ms [] ∧
      ∀ ms' rest, ReadsAnswers (ts.map fun t => t.x.rq.method) out ms' rest → ms' = ms ∧ rest = [] := by
  have key : ∃ ms, ms.length = ts.length ∧
      (∀ p ∈ ts.zip ms, ReadAs p.1.x (writeResponse p.1.c p.1.keys p.1.y) p.1.y p.2 ∧ 200 ≤ p.2.status) ∧
      ReadsAnswers (ts.map fun t => t.x.rq.method) out ms [] := by
    induction h with
    | idle => exact ⟨[], rfl, by simp, .none⟩
    | @last _ _ t ht =>
      have hct := hc t List.mem_cons_self
      obtain ⟨h2, m, hm⟩ := turn_read ht hct
      have h3 := hm.status
      refine ⟨[m], rfl, ?_, ?_⟩
      · intro p hp
        rw [List.zip_cons_cons, List.zip_nil_left, List.mem_singleton] at hp
        subst hp
        exact ⟨hm, show 200 ≤ m.status by omega⟩
      · have := turn_answers ht hct hm [] fun _ => rfl
        rw [List.append_nil] at this
        exact .more this .none
    | @turn _ _ out t ts ht he _ ih =>
      have hct := hc t List.mem_cons_self
      obtain ⟨h2, m, hm⟩ := turn_read ht hct
      have h3 := hm.status
      obtain ⟨ms, g1, g2, g3⟩ := ih fun t h => hc t (List.mem_cons_of_mem _ h)
      refine ⟨m :: ms, by simp [g1], ?_, ?_⟩
      · intro p hp
        rw [List.zip_cons_cons] at hp
        rcases List.mem_cons.1 hp with rfl | hp
        · exact ⟨hm, show 200 ≤ m.status by omega⟩
        · exact g2 p hp
      · exact .more (turn_answers ht hct hm out fun h => by rw [he] at h; cases h) g3
  obtain ⟨ms, h1, h2, h3⟩ := key
  exact ⟨ms, h1, h2, h3, fun ms' rest h' => ReadsAnswers.unique h' h3⟩

/-- The request of this turn is what was made of this message. -/
structure Paired (t : Turn K) (m : HttpRequest) : Prop where
  message : ∃ here next, ReadsIncoming here m next ∧ Arrives here t.x.rq (some next)
  method : t.x.rq.method = m.method
  target : t.x.rq.requestURI = m.target
  body : bodyText t.x.rq.body.bytes = m.body
  complete : t.x.rq.body.ending = .eof

theorem paired {t : Turn K} {stream next : Str} {rest : Option Str} {m : HttpRequest} (ht : t.Takes stream rest)
    (hr : ReadsIncoming stream m next) (ha : Acceptable m) (hb : HeadBare m) (hl : m.body.length < 2 ^ 63) :
    Paired t m ∧ rest = some next := by
  obtain ⟨d1, d2, d3, d4, d5, -⟩ := C165_delivered_partial stream next m hr ha hb hl t.x.rq rest ht.arrives
  exact ⟨⟨⟨stream, next, hr, d5 ▸ ht.arrives⟩, d1, d2, d3, d4⟩, d5⟩

theorem arrives_nil {rq : Request} {rest : Option Str} : ¬ Arrives [] rq rest := by
  rintro ⟨h, after, hd⟩
  have := hd.head
  have e : readHead [] = none := by decide
  rw [e] at this
  cases this

/-- C167, part: if the client's bytes begin with well-formed messages as in C165, then the turns are for these messages, in
their order: no bytes of one message are taken for another one. When there are no other bytes there are not more turns than
messages. -/
theorem C167_pairs_partial (stream out rest : Str) (ts : List (Turn K)) (h : Serves stream ts out) (ms : List HttpRequest)
    (hr : ReadsRequests stream ms rest)
    (ha : ∀ m ∈ ms, Acceptable m ∧ HeadBare m ∧ m.body.length < 2 ^ 63) :
    (∀ p ∈ ts.zip ms, Paired p.1 p.2) ∧ (rest = [] → ts.length ≤ ms.length) := by
  induction h generalizing ms with
  | idle => exact ⟨by simp, fun _ => Nat.zero_le _⟩
  | last ht =>
    cases hr with
    | none => exact ⟨by simp, fun h => absurd (h ▸ ht.arrives) arrives_nil⟩
    | @more _ _ _ m ms hm _ =>
      obtain ⟨a1, a2, a3⟩ := ha m List.mem_cons_self
      have hp := (paired ht hm a1 a2 a3).1
      refine ⟨?_, fun _ => by simp⟩
      intro p hp'
      rw [List.zip_cons_cons, List.zip_nil_left, List.mem_singleton] at hp'
      subst hp'
      exact hp
  | turn ht _ _ ih =>
    cases hr with
    | none => exact ⟨by simp, fun h => absurd (h ▸ ht.arrives) arrives_nil⟩
    | @more _ _ _ m ms hm hrest =>
      obtain ⟨a1, a2, a3⟩ := ha m List.mem_cons_self
      obtain ⟨hp, he⟩ := paired ht hm a1 a2 a3
      injection he with he
      subst he
      obtain ⟨g1, g2⟩ := ih ms hrest fun m h => ha m (List.mem_cons_of_mem _ h)
      refine ⟨?_, fun h => by simpa using g2 h⟩
      intro p hp'
      rw [List.zip_cons_cons] at hp'
      rcases List.mem_cons.1 hp' with rfl | hp'
      · exact hp
      · exact g1 p hp'

/-- C167, part, both: a client that sends well-formed messages and nothing else reads, in one way only, answers to the first
of them, in their order, and the answer to each is what the handler sent for it. -/
theorem C167_partial (stream out : Str) (ts : List (Turn K)) (h : Serves stream ts out) (hc : ∀ t ∈ ts, t.Clean)
    (ms : List HttpRequest) (hr : ReadsRequests stream ms [])
    (ha : ∀ m ∈ ms, Acceptable m ∧ HeadBare m ∧ m.body.length < 2 ^ 63) :
    ∃ as : List HttpResponse, as.length = ts.length ∧ as.length ≤ ms.length ∧
      ReadsAnswers ((ms.take as.length).map HttpRequest.method) out as [] ∧
      (∀ as' rest, ReadsAnswers ((ms.take as.length).map HttpRequest.method) out as' rest → as' = as ∧ rest = []) ∧
      ∀ (i : Nat) (t : Turn K) (m : HttpRequest) (a : HttpResponse), ts[i]? = some t → ms[i]? = some m → as[i]? = some a →
        Paired t m ∧ ReadAs t.x (writeResponse t.c t.keys t.y) t.y a := by
  obtain ⟨as, h1, h2, h3, h4⟩ := C167_replies_partial stream out ts h hc
  obtain ⟨g1, g2⟩ := C167_pairs_partial stream out [] ts h ms hr ha
  have hl : ts.length ≤ ms.length := g2 rfl
  have hmeth : (ms.take as.length).map HttpRequest.method = ts.map fun t => t.x.rq.method := by
    apply List.ext_getElem
    · simp [h1]; omega
    · intro i hi hi'
      simp only [List.getElem_map, List.getElem_take]
      have hit : i < ts.length := by simpa using hi'
      have hm : (ts[i], ms[i]'(by omega)) ∈ ts.zip ms := by
        rw [List.mem_iff_getElem]
        exact ⟨i, by simp; omega, by simp⟩
      exact (g1 _ hm).method.symm
  refine ⟨as, h1, by omega, by rw [hmeth]; exact h3, by rw [hmeth]; exact h4, ?_⟩
  intro i t m a e1 e2 e3
  obtain ⟨i1, e1⟩ := List.getElem?_eq_some_iff.1 e1
  obtain ⟨i2, e2⟩ := List.getElem?_eq_some_iff.1 e2
  obtain ⟨i3, e3⟩ := List.getElem?_eq_some_iff.1 e3
  constructor
  · refine g1 (t, m) (List.mem_iff_getElem.2 ⟨i, by simp; omega, by simp [e1, e2]⟩)
  · exact (h2 (t, a) (List.mem_iff_getElem.2 ⟨i, by simp; omega, by simp [e1, e3]⟩)).1

/-! ## An example -/

/-- An undisturbed request that is answered with this response. -/
theorem Demo.served {x : Setup Nat} {r : UpResp} {as : List Act} (hr : r.status < 400)
    (ht : ∀ a ∈ as, ∀ i, a ≠ .atmptTimer i)
    (hdec : ∃ r u l, x.dec = .forward r u l)
    (hx : ∃ s, Demo.exec x as = some s ∧ ((Demo.seen s).finished && (s.n == 1 && s.cur == 0) &&
      s.curA.vResp == some r && s.sent.map Sent.status == [r.status]) = true) :
    ∃ s, x.ReachesOrderly s ∧ s.pc = .done ∧ (∀ r', Recv s r' → r' = r) ∧ s.sent = [proxiedResponse x.respEnv r] ∧
      s.curA.vResp = some r := by
  obtain ⟨s, hs, hp⟩ := hx
  simp only [Bool.and_eq_true, beq_iff_eq] at hp
  obtain ⟨⟨⟨h1, h2, h0⟩, h3⟩, h4⟩ := hp
  have ho := C50_covered_no_timeout _ s _ hs ht
  have hd := Demo.done_of_seen h1
  obtain ⟨y, hy, h5⟩ := Demo.one_of_map h4
  refine ⟨s, ho, hd, ?_, ?_, h3⟩
  · rintro r' ⟨k, hk, hv⟩
    have : k = 0 := by omega
    subst this
    have hc : s.curA.vResp = some r' := by
      unfold St.curA
      rw [h0]
      exact hv
    exact Option.some.inj (hc.symm.trans h3)
  · obtain ⟨r0, u, l, hdec⟩ := hdec
    obtain ⟨v, hv, hyv, -⟩ := C37_partial x s ho hdec hd y (by rw [hy]; simp) (by rw [h5]; exact hr)
    rw [hy, hyv, Option.some.inj (hv.symm.trans h3)]

/-- A message that holds its body back, which looks like the beginning of a message. -/
def Demo.heldMessage : HttpRequest where
  method := "post".toList
  target := "/a/x".toList
  fields := [("Host".toList, "h".toList), ("Content-Length".toList, "5".toList), ("Expect".toList, "100-continue".toList)]
  body := "GET /".toList

def Demo.getMessage : HttpRequest where
  method := "get".toList
  target := "/a/x".toList
  fields := [("Host".toList, "h".toList), ("Accept".toList, "*/*".toList)]
  body := []

def Demo.held : Setup Nat :=
  { Demo.setup with
    rq := { Demo.request with
      method := "post".toList
      header := [("Content-Length".toList, ["5".toList]), ("Expect".toList, ["100-continue".toList])]
      contentLength := 5
      body := { pieces := [[71, 69, 84], [32, 47]] } } }

def Demo.getText : Str := "get /a/x HTTP/1.1\r\nHost: h\r\nAccept: */*\r\n\r\n".toList

def Demo.twoTexts : Str :=
  "post /a/x HTTP/1.1\r\nHost: h\r\nContent-Length: 5\r\nExpect: 100-continue\r\n\r\nGET /".toList ++ Demo.getText

theorem Demo.get_reads (next : Str) : ReadsIncoming (Demo.getText ++ next) Demo.getMessage next := by
  refine ⟨⟨by decide, by decide⟩, ⟨by decide, by decide⟩, ?_⟩
  refine ⟨[("Host".toList ++ ':' :: ([' '] ++ ("h".toList ++ [])), ("Host".toList, "h".toList)),
    ("Accept".toList ++ ':' :: ([' '] ++ ("*/*".toList ++ [])), ("Accept".toList, "*/*".toList))], next, ?_, rfl,
    .none (by decide) (by decide), ?_⟩
  · intro l hl
    rcases List.mem_cons.1 hl with rfl | hl
    · exact Demo.line ⟨by decide, by decide⟩ (by decide) (by decide) (by decide)
    · rw [List.mem_singleton.1 hl]
      exact Demo.line ⟨by decide, by decide⟩ (by decide) (by decide) (by decide)
  · have e : Demo.getText = "get".toList ++ ' ' :: ("/a/x".toList ++ ' ' :: ("HTTP/1.1".toList ++ (crlf ++
      ("Host: h".toList ++ (crlf ++ ("Accept: */*".toList ++ (crlf ++ crlf))))))) := by decide
    rw [e]
    simp [Demo.getMessage, crlf]

theorem Demo.two_read : ReadsRequests Demo.twoTexts [Demo.heldMessage, Demo.getMessage] [] := by
  refine .more (next := Demo.getText) ⟨⟨by decide, by decide⟩, ⟨by decide, by decide⟩, ?_⟩
    (.more (Demo.get_reads []) .none)
  · refine ⟨[("Host".toList ++ ':' :: ([' '] ++ ("h".toList ++ [])), ("Host".toList, "h".toList)),
      ("Content-Length".toList ++ ':' :: ([' '] ++ ("5".toList ++ [])), ("Content-Length".toList, "5".toList)),
      ("Expect".toList ++ ':' :: ([' '] ++ ("100-continue".toList ++ [])), ("Expect".toList, "100-continue".toList))],
      "GET /".toList ++ Demo.getText, ?_, rfl,
      .sized (v := "5".toList) (by decide) (by decide) (by decide) (by decide) (by decide), by decide +kernel⟩
    intro l hl
    rcases List.mem_cons.1 hl with rfl | hl
    · exact Demo.line ⟨by decide, by decide⟩ (by decide) (by decide) (by decide)
    rcases List.mem_cons.1 hl with rfl | hl
    · exact Demo.line ⟨by decide, by decide⟩ (by decide) (by decide) (by decide)
    · rw [List.mem_singleton.1 hl]
      exact Demo.line ⟨by decide, by decide⟩ (by decide) (by decide) (by decide)

theorem Demo.held_arrives : Arrives Demo.twoTexts Demo.held.rq (some Demo.getText) := by
  have hu : ∃ u, requestUrl "post".toList "/a/x".toList = some u ∧ "/a/x".toList = u.requestURI :=
    ⟨(requestUrl "post".toList "/a/x".toList).getD { path := [] }, by decide +kernel, by decide +kernel⟩
  refine ⟨⟨"post".toList, "/a/x".toList, (1, 1), Demo.held.rq.header, .sized 5⟩, "GET /".toList ++ Demo.getText,
    by decide +kernel, rfl, rfl, hu, List.Perm.refl _, rfl, by decide +kernel, ?_, by decide +kernel⟩
  exact ⟨fun _ => ⟨Demo.getText, by decide +kernel⟩, fun _ => rfl⟩

theorem Demo.get_arrives {next : Str} (hn : next = [] ∨ next = Demo.getText) :
    Arrives (Demo.getText ++ next) Demo.setup.rq (some next) := by
  have hu : ∃ u, requestUrl "get".toList "/a/x".toList = some u ∧ "/a/x".toList = u.requestURI :=
    ⟨(requestUrl "get".toList "/a/x".toList).getD { path := [] }, by decide +kernel, by decide +kernel⟩
  refine ⟨⟨"get".toList, "/a/x".toList, (1, 1), Demo.setup.rq.header, .sized 0⟩, next,
    ?_, rfl, rfl, hu, List.Perm.refl _, rfl, by simp [readBody, bodyText, Demo.setup, Demo.request], ?_, by simp [readBody]⟩
  · rcases hn with rfl | rfl <;> decide +kernel
  · exact ⟨fun _ => ⟨next, by simp [readBody]⟩, fun _ => rfl⟩

/-- A turn that is answered with this response. -/
def Demo.turnOf (x : Setup Nat) (r : UpResp) (keys : List Str) (continued : Bool) (s : St) : Turn Nat where
  x := x
  s := s
  y := proxiedResponse x.respEnv r
  c := { Demo.conn with method := x.rq.method }
  keys := keys
  continued := continued

theorem Demo.takes {x : Setup Nat} {r : UpResp} {keys : List Str} {continued : Bool} {s : St} {stream : Str}
    {rest : Option Str} (ha : Arrives stream x.rq rest) (h1 : x.ReachesOrderly s) (h2 : s.pc = .done)
    (h3 : s.sent = [proxiedResponse x.respEnv r]) (he : Enumerates keys (proxiedResponse x.respEnv r).header)
    (hc : continued = true → wantsContinue x.rq = true) : (Demo.turnOf x r keys continued s).Takes stream rest :=
  ⟨ha, h1.imp fun _ h => h.1, h2, h3, rfl, he, fun h => ⟨rfl, hc h⟩⟩

theorem Demo.ok_clean : Demo.ok.Clean := by
  intro p hp
  obtain rfl := List.mem_singleton.1 hp
  refine ⟨token_of_valid (by decide), fun v hv => ?_⟩
  obtain rfl := List.mem_singleton.1 hv
  exact fieldText_lit (s := "ok".toList) (by decide)

theorem Demo.no_timer (r : UpResp) : ∀ a ∈ Demo.success r, ∀ i, a ≠ .atmptTimer i := by
  intro a ha i hi
  subst hi
  revert ha
  simp [Demo.success, Demo.attempt, Demo.headers, Demo.body]

/-- The hypotheses are satisfiable, and what is written is what one expects: the first client message, whose body looks like
a message, is answered after an interim response, then the second one. -/
example : ∃ (ts : List (Turn Nat)) (out : Str), ts.length = 2 ∧ Serves Demo.twoTexts ts out ∧ (∀ t ∈ ts, t.Clean) ∧
    ReadsRequests Demo.twoTexts [Demo.heldMessage, Demo.getMessage] [] ∧
    (∀ m ∈ [Demo.heldMessage, Demo.getMessage], Acceptable m ∧ HeadBare m ∧ m.body.length < 2 ^ 63) ∧
    out = ("HTTP/1.1 100 Continue\r\n\r\n" ++
      "HTTP/1.1 200 OK\r\nContent-Encoding: identity\r\nContent-Length: 2\r\nServer: j8a v1 abc\r\nX: ok\r\n" ++
      "X-Request-Id: XR-abc-u\r\nDate: Mon, 16 Nov 2026 10:00:00 GMT\r\n\r\nhi" ++
      "HTTP/1.1 200 OK\r\nContent-Encoding: identity\r\nContent-Length: 2\r\nServer: j8a v1 abc\r\nX: ok\r\n" ++
      "X-Request-Id: XR-abc-u\r\nDate: Mon, 16 Nov 2026 10:00:00 GMT\r\n\r\nhi").toList := by
  obtain ⟨s1, a1, a2, a3, a4, -⟩ := Demo.served (x := Demo.held) (r := Demo.ok) (by decide) (Demo.no_timer Demo.ok)
    ⟨Demo.route, Demo.url, "default".toList, by decide +kernel⟩ (Demo.of_check (by decide +kernel))
  obtain ⟨s2, b1, b2, b3, b4, -⟩ := Demo.served (x := Demo.setup) (r := Demo.ok) (by decide) (Demo.no_timer Demo.ok)
    ⟨Demo.route, Demo.url, "default".toList, by decide +kernel⟩ (Demo.of_check (by decide +kernel))
  have t1 := Demo.takes (continued := true) Demo.held_arrives a1 a2 a4
    (enumerates_of (keys := Demo.okKeys) (by decide) (by decide +kernel) (by decide +kernel)) fun _ => by decide +kernel
  have t2 := Demo.takes (continued := false) (Demo.get_arrives (.inl rfl)) b1 b2 b4
    (enumerates_of (keys := Demo.okKeys) (by decide) (by decide +kernel) (by decide +kernel)) fun h => by cases h
  have e : endsAfter { Demo.conn with method := "post".toList } (proxiedResponse Demo.held.respEnv Demo.ok) = false := by
    decide +kernel
  have o : continueLine ++ writeResponse { Demo.conn with method := "post".toList } Demo.okKeys
      (proxiedResponse Demo.held.respEnv Demo.ok) ++
      writeResponse { Demo.conn with method := "get".toList } Demo.okKeys (proxiedResponse Demo.setup.respEnv Demo.ok) =
      ("HTTP/1.1 100 Continue\r\n\r\n" ++
      "HTTP/1.1 200 OK\r\nContent-Encoding: identity\r\nContent-Length: 2\r\nServer: j8a v1 abc\r\nX: ok\r\n" ++
      "X-Request-Id: XR-abc-u\r\nDate: Mon, 16 Nov 2026 10:00:00 GMT\r\n\r\nhi" ++
      "HTTP/1.1 200 OK\r\nContent-Encoding: identity\r\nContent-Length: 2\r\nServer: j8a v1 abc\r\nX: ok\r\n" ++
      "X-Request-Id: XR-abc-u\r\nDate: Mon, 16 Nov 2026 10:00:00 GMT\r\n\r\nhi").toList := by
    decide +kernel
  refine ⟨_, _, rfl, .turn t1 e (.last t2), ?_, Demo.two_read, ?_, o⟩
  · intro t ht
    rcases List.mem_cons.1 ht with rfl | ht
    · refine ⟨fun h => absurd h (by decide : toUpper Demo.held.rq.method ≠ _),
        (by decide : Demo.held.rq.method ≠ _), a1, ⟨Demo.text_ids.id, Demo.text_ids.version, Demo.text_ids.xrid⟩, Demo.conn_of.text, ?_⟩
      intro r hr
      rw [a3 r hr]
      exact ⟨Demo.ok_clean, by decide⟩
    · rw [List.mem_singleton.1 ht]
      refine ⟨fun h => absurd h (by decide : toUpper Demo.setup.rq.method ≠ _),
        (by decide : Demo.setup.rq.method ≠ _), b1, Demo.text_ids, Demo.conn_of.text, ?_⟩
      intro r hr
      rw [b3 r hr]
      exact ⟨Demo.ok_clean, by decide⟩
  · intro m hm
    rcases List.mem_cons.1 hm with rfl | hm
    · refine ⟨⟨⟨"h".toList, by decide, by decide⟩, .inr ⟨"100-continue".toList, by decide, by decide⟩, ?_⟩,
        fun h => absurd h (by decide), by decide⟩
      have e : fieldValues Demo.heldMessage.fields "trailer".toList = [] := by decide
      rw [e]
      intro v hv
      cases hv
    · rw [List.mem_singleton.1 hm]
      refine ⟨⟨⟨"h".toList, by decide, by decide⟩, .inl (by decide), ?_⟩, fun h => absurd h (by decide), by decide⟩
      have e : fieldValues Demo.getMessage.fields "trailer".toList = [] := by decide
      rw [e]
      intro v hv
      cases hv

/-! ## Where it fails -/

/-- C167 fails for every turn in which a 101 is passed on: the client did not get an answer to its request, and what follows
cannot be read. -/
theorem C167_violated_always (t : Turn K) (hs : t.y.status = 101) (more : Str) :
    ¬ ∃ m rest, ReadsAnswer t.x.rq.method (t.bytes ++ more) m rest := by
  have hst : ∀ m rest, ReadsResponse t.x.rq.method (writeResponse t.c t.keys t.y ++ more) m rest → m.status = 101 := by
    intro m rest hr
    obtain ⟨code, lines, s, h1, h2, h3, -, -, -, he⟩ := hr.text
    have hv : m.version.length = 8 := by rcases hr.version with h | h <;> rw [h] <;> decide
    have e1 := congrArg (fun s : Str => (s.drop 9).take 3) he
    have e2 : ((m.version ++ ' ' :: (code ++ ' ' :: (m.reason ++ (crlf ++
      (lines.flatMap (fun l => l.1 ++ crlf) ++ (crlf ++ s)))))).drop 9).take 3 = code := by
      rw [show (m.version ++ ' ' :: (code ++ ' ' :: (m.reason ++ (crlf ++
        (lines.flatMap (fun l => l.1 ++ crlf) ++ (crlf ++ s)))))) = (m.version ++ [' ']) ++ (code ++ ' ' :: (m.reason ++ (crlf ++
        (lines.flatMap (fun l => l.1 ++ crlf) ++ (crlf ++ s))))) by simp, List.drop_left' (by simp [hv]),
        List.take_left' h1]
    rw [e2] at e1
    have e3 : ((writeResponse t.c t.keys t.y ++ more).drop 9).take 3 = "101".toList := by
      unfold writeResponse
      rw [hs, show natToDec (101 : Int).toNat = "101".toList by decide]
      split <;> rfl
    rw [← h3, ← e1, e3]
    decide
  have hno : ∀ m rest, ¬ ReadsAnswer t.x.rq.method (writeResponse t.c t.keys t.y ++ more) m rest := by
    intro m rest h
    cases h with
    | final hr h2 => have := hst _ _ hr; omega
    | interim hr _ _ h2 => exact h2 (hst _ _ hr)
  rintro ⟨m, rest, h⟩
  unfold Turn.bytes at h
  split at h
  · rw [List.append_assoc] at h
    cases h with
    | final hr h2 =>
      have := (ReadsResponse.unique hr (continue_reads _ _)).1
      subst this
      exact absurd h2 (by decide)
    | interim hr _ _ _ ha =>
      have := (ReadsResponse.unique hr (continue_reads _ _)).2
      subst this
      exact hno _ _ ha
  · exact hno _ _ h

/-- C167 fails: here. The client sends two messages; the upstream answers the first one with 101, and the gateway goes on
with HTTP. -/
theorem C167_violated : ∃ (t1 t2 : Turn Nat) (out : Str), Serves (Demo.getText ++ Demo.getText) [t1, t2] out ∧
    ReadsRequests (Demo.getText ++ Demo.getText) [Demo.getMessage, Demo.getMessage] [] ∧
    t1.x.ReachesOrderly t1.s ∧ t1.s.curA.vResp = some Demo.switching ∧
    ¬ ∃ m rest, ReadsAnswer Demo.getMessage.method out m rest := by
  have hnt : ∀ a ∈ Demo.low Demo.switching ++ [Demo.go], ∀ i, a ≠ .atmptTimer i := by
    intro a ha i hi
    subst hi
    revert ha
    simp [Demo.low, Demo.headers, Demo.body]
  obtain ⟨s1, a1, a2, -, a4, a5⟩ := Demo.served (x := Demo.setup) (r := Demo.switching) (by decide) hnt
    ⟨Demo.route, Demo.url, "default".toList, by decide +kernel⟩ (Demo.of_check (by decide +kernel))
  obtain ⟨s2, b1, b2, -, b4, -⟩ := Demo.served (x := Demo.setup) (r := Demo.ok) (by decide) (Demo.no_timer Demo.ok)
    ⟨Demo.route, Demo.url, "default".toList, by decide +kernel⟩ (Demo.of_check (by decide +kernel))
  have t1 := Demo.takes (continued := false) (Demo.get_arrives (.inr rfl)) a1 a2 a4
    (enumerates_of (keys := ["Content-Length", "Server", "X", "X-Request-Id"].map String.toList) (by decide)
      (by decide +kernel) (by decide +kernel)) fun h => by cases h
  have t2 := Demo.takes (continued := false) (Demo.get_arrives (.inl rfl)) b1 b2 b4
    (enumerates_of (keys := Demo.okKeys) (by decide) (by decide +kernel) (by decide +kernel)) fun h => by cases h
  have e : endsAfter { Demo.conn with method := "get".toList } (proxiedResponse Demo.setup.respEnv Demo.switching) = false := by
    decide +kernel
  rw [List.append_nil] at t2
  exact ⟨_, _, _, .turn t1 e (.last t2), .more (Demo.get_reads _) (.more (Demo.get_reads []) .none), a1, a5,
    C167_violated_always (Demo.turnOf Demo.setup Demo.switching _ false s1) rfl _⟩

end J8a

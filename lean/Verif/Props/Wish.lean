import Verif.Props.Pipeline
import Verif.Lemmas.Wish
/-!
# C169 — a client decides whether its connection is kept
-/
namespace J8a
open Go

variable {K : Type}

/-- RFC 7230 6.1: the options are tokens, so there is no white space in them. -/
def OptionsPlain (values : List Str) : Prop := ∀ o ∈ connectionOptions values, ' ' ∉ o ∧ '\t' ∉ o

theorem ows_lower {c : Char} (h : isOws c = true) : c.toLower = c := by
  unfold isOws at h
  simp only [Bool.or_eq_true, decide_eq_true_eq] at h
  rcases h with rfl | rfl <;> decide

theorem values_token {vs : List Str} {token : Str} (ht : toLower token = token) :
    valuesHaveToken vs token = true ↔ token ∈ connectionOptions vs := by
  unfold valuesHaveToken connectionOptions
  rw [List.any_eq_true]
  simp only [List.mem_flatMap, List.mem_map]
  refine exists_congr fun v => and_congr_right fun _ => ?_
  rw [valueHasToken_eq _ _ _ (Nat.lt_succ_self _), List.any_eq_true]
  refine exists_congr fun o => and_congr_right fun _ => ?_
  unfold equalFold
  rw [ht, beq_iff_eq]

theorem get_head (e : Entries) : e.get "Connection".toList = (e.values "Connection".toList).headD [] := by
  unfold Entries.get
  rw [show canon "Connection".toList = "Connection".toList by decide]

theorem first_token {vs : List Str} {token : Str} (ht : toLower token = token) (hne : token ≠ [])
    (hb : ∀ c : Char, c.toLower ∈ token → isTokenBoundary c = false) (hp : OptionsPlain vs)
    (h : hasToken (vs.headD []) token = true) : token ∈ connectionOptions vs := by
  cases vs with
  | nil => simp [hasToken, hasTokenAfter] at h
  | cons v vs =>
    obtain ⟨o, ho, he⟩ := hasToken_listed (v := v) hne (by rw [ht]; exact hb) (by
      intro o ho c hc
      cases hw : isOws c with
      | false => rfl
      | true =>
        have hm : c ∈ toLower (trimOws o) := List.mem_map.2 ⟨c, hc, ows_lower hw⟩
        have := hp (toLower (trimOws o)) (by
          unfold connectionOptions
          exact List.mem_flatMap.2 ⟨v, by simp, List.mem_map.2 ⟨o, ho, rfl⟩⟩)
        unfold isOws at hw
        simp only [Bool.or_eq_true, decide_eq_true_eq] at hw
        rcases hw with rfl | rfl
        · exact absurd hm this.1
        · exact absurd hm this.2) h
    unfold connectionOptions
    refine List.mem_flatMap.2 ⟨v, by simp, List.mem_map.2 ⟨o, ho, ?_⟩⟩
    unfold equalFold at he
    rw [ht, beq_iff_eq] at he
    exact he

theorem boundary_letters {token : Str} (h : ∀ c ∈ token, c ≠ ' ' ∧ c ≠ ',' ∧ c ≠ '\t') :
    ∀ c : Char, c.toLower ∈ token → isTokenBoundary c = false := by
  intro c hc
  cases hb : isTokenBoundary c with
  | false => rfl
  | true =>
    unfold isTokenBoundary at hb
    simp only [Bool.or_eq_true, decide_eq_true_eq] at hb
    rcases hb with (rfl | rfl) | rfl
    · exact absurd rfl (h _ hc).1
    · exact absurd rfl (h _ hc).2.1
    · exact absurd rfl (h _ hc).2.2

/-- What is made of the head of a request that is not of HTTP/1.0. -/
theorem wantsClose_new {h : Head} (hv : h.version ≠ (1, 0)) (hp : OptionsPlain (h.header.values "Connection".toList)) :
    wantsClose h = true ↔ "close".toList ∈ connectionOptions (h.header.values "Connection".toList) := by
  unfold wantsClose shouldClose
  rw [if_neg hv, Bool.or_eq_true, values_token (by decide), get_head]
  exact ⟨fun h => h.elim id (first_token (by decide) (by decide) (boundary_letters (by decide)) hp), .inl⟩

theorem version_incoming {stream rest : Str} {m : HttpRequest} (hr : ReadsIncoming stream m rest) {h : Head} {after : Str}
    (hh : readHead stream = some (h, after)) : h.version = (1, 1) := by
  obtain ⟨first, r1, proto, lines, kvs, c, e1, e2, e3, a1, a2, -, a4, -⟩ := readHead_some hh
  obtain ⟨ls, s, -, -, -, rfl⟩ := hr.text
  have nm : ∀ {c}, c ∉ tchars → c ∉ m.method := fun hc => token_no hr.method hc
  have nt : ∀ {c : Char}, c.toNat ≤ 0x20 → c ∉ m.target := fun hc hm => by
    have := (hr.target.2 _ hm).1
    omega
  have hfirst : '\n' ∉ m.method ++ ' ' :: (m.target ++ ' ' :: "HTTP/1.1".toList) := by
    simp only [List.mem_append, List.mem_cons, not_or]
    exact ⟨nm (by decide), by decide, nt (by decide), by decide, by decide⟩
  have b1 := readLine_crlf hfirst (ls.flatMap (fun l => l.1 ++ crlf) ++ (crlf ++ s))
  simp only [List.append_assoc, List.cons_append] at b1
  rw [b1] at a1
  simp only [Option.some.injEq, Prod.mk.injEq] at a1
  rw [← a1.1, parseRequestLine_of (nm (by decide)) (nt (by decide))] at a2
  simp only [Option.some.injEq, Prod.mk.injEq] at a2
  rw [← a2.2.2] at a4
  exact (Option.some.inj (by rw [← a4]; decide))

/-- C169, part: after the response to a well-formed message with a complete body, the connection ends if and only if `close`
is among the options of the message, in whatever field and spelling; and the response says so. -/
theorem C169_partial (stream rest : Str) (m : HttpRequest) (hr : ReadsIncoming stream m rest) (ha : Acceptable m)
    (hbare : HeadBare m) (hlen : m.body.length < 2 ^ 63)
    (hp : OptionsPlain (fieldValues m.fields "connection".toList))
    (x : Setup K) (rest' : Option Str) (h : Head) (after : Str) (hd : Delivers stream x.rq rest' h after)
    (c : ReplyConn) (hc : ConnFrom h c) (ht : c.Text)
    (hk : c.keepAlives = true) (hbr : c.broken = false) (hun : c.unread = false)
    (s : St) (hs : x.Reaches s) (y : Sent) (hy : y ∈ s.sent) (hcut : NamesCut s)
    (hq : ∀ r, Recv s r → ∀ p ∈ r.header, canon p.1 ≠ "Connection".toList)
    (hm : toUpper m.method = "HEAD".toList → m.method = "HEAD".toList)
    (hcon : toUpper m.method ≠ "CONNECT".toList) (hlen' : (y.body.length : Int) ≤ maxInt64)
    (keys : List Str) (he : Enumerates keys y.header) (more : Str) (a : HttpResponse) (rest'' : Str)
    (hread : ReadsResponse m.method (writeResponse c keys y ++ more) a rest'')
    (hmore : UntilEnd m.method a → more = []) :
    (endsAfter c y = true ↔ "close".toList ∈ connectionOptions (fieldValues m.fields "connection".toList)) ∧
    (SaysClose a ↔ "close".toList ∈ connectionOptions (fieldValues m.fields "connection".toList)) := by
  have hver := version_incoming hr hd.head
  obtain ⟨h', after', g1, g2, -, -, g5, -⟩ := readHead_incoming hr ha hbare hlen
  rw [hd.head] at g1
  injection g1 with g1
  injection g1 with g1 g1'
  subst g1 g1'
  have hval := g5 "Connection".toList (by decide) (by decide) (by decide)
  rw [show canon "Connection".toList = "Connection".toList by decide,
    show toLower "Connection".toList = "connection".toList by decide] at hval
  have hmeth : x.rq.method = m.method := hd.method.trans g2
  rw [← hmeth] at hm hcon hread hmore
  have hcv : c.version = .v11 := by rw [hc.version, hver]; rfl
  have hcl : c.closing = true ↔ "close".toList ∈ connectionOptions (fieldValues m.fields "connection".toList) := by
    rw [hc.closing, ← hval]
    exact wantsClose_new (by rw [hver]; decide) (by rw [hval]; exact hp)
  have hco : ConnOf x c := ⟨hc.method.trans hd.method.symm, ht⟩
  obtain ⟨q1, q2⟩ := C154_quiet_partial x s hs y hy hcut hm hcon c hco keys he more a rest'' hread hmore hlen' hq
  have hcon' : OwnRefuses x y := fun e => absurd (by rw [e]; decide) hcon
  obtain ⟨-, hu, -⟩ := read_values hs hy hcut hm hcon' hco he hread hmore "Connection".toList (by decide)
  have hnu : ¬ UntilEnd x.rq.method a := by
    intro hh
    have := (hu hh).1
    unfold ReplyConn.modern at this
    rw [hcv] at this
    exact absurd this (by decide)
  have h1 : endsAfter c y = true ↔ "close".toList ∈ connectionOptions (fieldValues m.fields "connection".toList) := by
    rw [q1, ← hcl]
    unfold MayEnd
    rw [hcv, hbr, hun, hk]
    simp [hnu]
  exact ⟨h1, (q2 (by rw [hcv]; exact nofun)).symm.trans h1⟩

theorem old_keep {h : Head} (hv : h.version = (1, 0)) (hp : OptionsPlain (h.header.values "Connection".toList))
    (hone : (h.header.values "Connection".toList).length ≤ 1) :
    wants10KeepAlive h = true ↔ "keep-alive".toList ∈ connectionOptions (h.header.values "Connection".toList) := by
  unfold wants10KeepAlive
  rw [hv, get_head]
  simp only [decide_true, Bool.true_and]
  refine ⟨first_token (by decide) (by decide) (boundary_letters (by decide)) hp, fun hl => ?_⟩
  unfold connectionOptions at hl
  obtain ⟨v, hv, hl⟩ := List.mem_flatMap.1 hl
  obtain ⟨o, ho, he⟩ := List.mem_map.1 hl
  obtain ⟨v', hv'⟩ : ∃ v', h.header.values "Connection".toList = [v'] := by
    cases hc : h.header.values "Connection".toList with
    | nil => rw [hc] at hv; cases hv
    | cons a l => cases l with
      | nil => exact ⟨a, rfl⟩
      | cons b l => rw [hc] at hone; simp at hone
  rw [hv'] at hv ⊢
  obtain rfl := List.mem_singleton.1 hv
  exact hasToken_of_listed (by decide) ho (by unfold equalFold; rw [he]; decide)

/-- C169, part, for HTTP/1.0: with at most one Connection field that does not list both options, the connection ends if the
client listed `close` or did not list `keep-alive`, and for no other reason. -/
theorem C169_old_partial (h : Head) (hv : h.version = (1, 0)) (c : ReplyConn) (hc : ConnFrom h c)
    (hp : OptionsPlain (h.header.values "Connection".toList))
    (hone : (h.header.values "Connection".toList).length ≤ 1)
    (hboth : ¬ ("close".toList ∈ connectionOptions (h.header.values "Connection".toList) ∧
      "keep-alive".toList ∈ connectionOptions (h.header.values "Connection".toList)))
    (hk : c.keepAlives = true) (hbr : c.broken = false) (hun : c.unread = false) :
    MayEnd c ↔ "close".toList ∈ connectionOptions (h.header.values "Connection".toList) ∨
      "keep-alive".toList ∉ connectionOptions (h.header.values "Connection".toList) := by
  have hkeep := old_keep hv hp hone
  have hcv : c.version = .v10 (wants10KeepAlive h) := by rw [hc.version, hv]; rfl
  unfold MayEnd
  rw [hcv, hbr, hun, hk]
  cases hw : wants10KeepAlive h with
  | true =>
    have hin := hkeep.1 hw
    simp
    exact ⟨fun hcl => hboth ⟨hcl, hin⟩, hin⟩
  | false =>
    have hin : "keep-alive".toList ∉ connectionOptions (h.header.values "Connection".toList) := fun hi => by
      rw [hkeep.2 hi] at hw; cases hw
    simp only [true_or, or_true, true_iff]
    exact .inr hin

/-- C169 fails for every client with HTTP/1.0 that lists both options in one field: `close` is not heeded (RFC 7230 6.3 has
it first), the connection is kept. -/
theorem C169_violated_old (h : Head) (hv : h.version = (1, 0)) (c : ReplyConn) (hc : ConnFrom h c)
    (hp : OptionsPlain (h.header.values "Connection".toList))
    (hone : (h.header.values "Connection".toList).length ≤ 1)
    (hboth : "close".toList ∈ connectionOptions (h.header.values "Connection".toList) ∧
      "keep-alive".toList ∈ connectionOptions (h.header.values "Connection".toList))
    (hk : c.keepAlives = true) (hbr : c.broken = false) (hun : c.unread = false) : ¬ MayEnd c := by
  have hcv : c.version = .v10 true := by
    rw [hc.version, hv, (old_keep hv hp hone).2 hboth.2]; rfl
  unfold MayEnd
  rw [hcv, hbr, hun, hk]
  simp

/-! ## Examples -/

/-- The head of the request of `Demo.getText`. -/
def Demo.getHead : Head := ⟨"get".toList, "/a/x".toList, (1, 1), Demo.setup.rq.header, .sized 0⟩

theorem Demo.get_delivers : Delivers Demo.getText Demo.setup.rq (some []) Demo.getHead [] := by
  have hu : ∃ u, requestUrl "get".toList "/a/x".toList = some u ∧ "/a/x".toList = u.requestURI :=
    ⟨(requestUrl "get".toList "/a/x".toList).getD { path := [] }, by decide +kernel, by decide +kernel⟩
  refine ⟨by decide +kernel, rfl, rfl, hu, List.Perm.refl _, rfl, by simp [readBody, bodyText, Demo.getHead, Demo.setup, Demo.request], ?_,
    by simp [readBody, Demo.getHead]⟩
  exact ⟨fun _ => ⟨[], by simp [readBody, Demo.getHead]⟩, fun _ => rfl⟩

/-- A client that asks for the end of its connection in its own spelling. -/
def Demo.leavingMessage : HttpRequest where
  method := "get".toList
  target := "/a/x".toList
  fields := [("Host".toList, "h".toList), ("connection".toList, "x".toList), ("Connection".toList, "y , CLOSE".toList)]
  body := []

def Demo.leavingText : Str :=
  "get /a/x HTTP/1.1\r\nHost: h\r\nconnection: x\r\nConnection: y , CLOSE\r\n\r\n".toList

def Demo.leaving : Setup Nat :=
  { Demo.setup with
    rq := { Demo.request with header := [("Connection".toList, ["x".toList, "y , CLOSE".toList])] } }

def Demo.leavingHead : Head := ⟨"get".toList, "/a/x".toList, (1, 1), Demo.leaving.rq.header, .sized 0⟩

theorem Demo.leaving_reads : ReadsIncoming Demo.leavingText Demo.leavingMessage [] := by
  refine ⟨⟨by decide, by decide⟩, ⟨by decide, by decide⟩, ?_⟩
  refine ⟨[("Host".toList ++ ':' :: ([' '] ++ ("h".toList ++ [])), ("Host".toList, "h".toList)),
    ("connection".toList ++ ':' :: ([' '] ++ ("x".toList ++ [])), ("connection".toList, "x".toList)),
    ("Connection".toList ++ ':' :: ([' '] ++ ("y , CLOSE".toList ++ [])), ("Connection".toList, "y , CLOSE".toList))], [], ?_,
    rfl, .none (by decide) (by decide), by decide +kernel⟩
  intro l hl
  rcases List.mem_cons.1 hl with rfl | hl
  · exact Demo.line ⟨by decide, by decide⟩ (by decide) (by decide) (by decide)
  rcases List.mem_cons.1 hl with rfl | hl
  · exact Demo.line ⟨by decide, by decide⟩ (by decide) (by decide) (by decide)
  · rw [List.mem_singleton.1 hl]
    exact Demo.line ⟨by decide, by decide⟩ (by decide) (by decide) (by decide)

theorem Demo.leaving_delivers : Delivers Demo.leavingText Demo.leaving.rq (some []) Demo.leavingHead [] := by
  have hu : ∃ u, requestUrl "get".toList "/a/x".toList = some u ∧ "/a/x".toList = u.requestURI :=
    ⟨(requestUrl "get".toList "/a/x".toList).getD { path := [] }, by decide +kernel, by decide +kernel⟩
  refine ⟨by decide +kernel, rfl, rfl, hu, List.Perm.refl _, rfl, by decide +kernel, ?_, by decide +kernel⟩
  exact ⟨fun _ => ⟨[], by decide +kernel⟩, fun _ => rfl⟩

/-- Both clients: the one that asks is told that its connection ends, the other is not. -/
example :
    ConnFrom Demo.leavingHead { Demo.conn with closing := true } ∧ ConnFrom Demo.getHead Demo.conn ∧
    OptionsPlain (fieldValues Demo.leavingMessage.fields "connection".toList) ∧ Acceptable Demo.leavingMessage ∧
    HeadBare Demo.leavingMessage ∧
    (∃ s, Demo.leaving.ReachesOrderly s ∧ s.sent = [proxiedResponse Demo.leaving.respEnv Demo.ok] ∧
      (∀ r, Recv s r → r = Demo.ok) ∧
      endsAfter { Demo.conn with closing := true } (proxiedResponse Demo.leaving.respEnv Demo.ok) = true ∧
      endsAfter Demo.conn (proxiedResponse Demo.leaving.respEnv Demo.ok) = false) := by
  refine ⟨⟨rfl, by decide, by decide +kernel⟩, ⟨rfl, by decide, by decide +kernel⟩, by unfold OptionsPlain; decide +kernel,
    ⟨⟨"h".toList, by decide, by decide⟩, .inl (by decide), by decide⟩, fun h => absurd h (by decide), ?_⟩
  obtain ⟨s, h1, -, h3, h4, -⟩ := Demo.served (x := Demo.leaving) (r := Demo.ok) (as := Demo.success Demo.ok) (by decide)
    (Demo.no_timer _) ⟨Demo.route, Demo.url, "default".toList, by decide +kernel⟩ (Demo.of_check (by decide +kernel))
  exact ⟨s, h1, h4, h3, by decide +kernel, by decide +kernel⟩

/-- C169 as stated fails: the upstream's `close` ends the connection of a client that did not ask for it. -/
theorem C169_violated : ∃ s y m, Delivers Demo.getText Demo.setup.rq (some []) Demo.getHead [] ∧
    ConnFrom Demo.getHead Demo.conn ∧ Demo.conn.keepAlives = true ∧ Demo.conn.broken = false ∧ Demo.conn.unread = false ∧
    "close".toList ∉ connectionOptions (fieldValues Demo.getMessage.fields "connection".toList) ∧
    Demo.setup.ReachesOrderly s ∧ s.pc = .done ∧ s.sent = [y] ∧
    ReadAs Demo.setup (writeResponse Demo.conn Demo.connectedKeys y) y m ∧ ¬ UntilEnd Demo.setup.rq.method m ∧
    endsAfter Demo.conn y = true := by
  obtain ⟨s, y, m, h1, h2, h3, h4, -, h6, h7⟩ := C154_violated.1
  exact ⟨s, y, m, Demo.get_delivers, ⟨rfl, by decide, by decide +kernel⟩, rfl, rfl, rfl, by decide +kernel, h1, h2, h3, h4, h6, h7⟩

/-- And words around `close` are not looked at: this client is left, too. -/
theorem C169_violated_words : ∃ h after,
    readHead "get /a/x HTTP/1.1\r\nHost: h\r\nConnection: do not close\r\n\r\n".toList = some (h, after) ∧
    "close".toList ∉ connectionOptions (h.header.values "Connection".toList) ∧ wantsClose h = true :=
  ⟨⟨"get".toList, "/a/x".toList, (1, 1), [("Connection".toList, ["do not close".toList])], .sized 0⟩, [], by decide +kernel,
    by decide +kernel, by decide +kernel⟩

end J8a

import Verif.Props.RespWire
/-!
# C154 and C155: what a response says about its connection and its length
-/
namespace J8a
open Go

variable {K : Type}

/-- Whatever a client reads is the response that was written, with these values under a name. -/
theorem read_values {x : Setup K} {s : St} (h : x.Reaches s) {y : Sent} (hy : y ∈ s.sent) (hcut : NamesCut s)
    (hm : toUpper x.rq.method = "HEAD".toList → x.rq.method = "HEAD".toList)
    (hcon : OwnRefuses x y) {c : ReplyConn} (hc : ConnOf x c) {keys : List Str}
    (he : Enumerates keys y.header) {more : Str} {m : HttpResponse} {rest : Str}
    (hr : ReadsResponse x.rq.method (writeResponse c keys y ++ more) m rest)
    (hmore : UntilEnd x.rq.method m → more = []) (k : Str)
    (hk : k.all isTokenChar = true) : m = sentResponse c keys y ∧
      (UntilEnd x.rq.method m → c.modern = false ∧ lengthKnown c y = false) ∧
      fieldValues m.fields (toLower k) = (respValues c y (canon k)).map trimOws := by
  obtain ⟨s1, s2⟩ := status_valid h hy
  have hok := (C133_exact x s h y hy hcut hm hcon c hc keys he more).1 ⟨m, rest, hr⟩
  have hfo : ∀ f ∈ responseFields c keys y, validFieldName f.1 = true ∧ FieldText f.2 := by
    intro f hf
    rcases responseFields_from hf with hx | ⟨hk, hx, v, hv, hv2⟩
    · have := extra_ok hc.text hx
      exact ⟨this.1, this.2.2⟩
    · obtain ⟨h1, h2⟩ := hok _ hx v hv
      exact ⟨valid_of_token h1, by rw [hv2]; exact printable_iff.2 h2⟩
  have hm' := hc.method
  have hn := names_canon h hy he
  have hfr : Framed c.method y := hm' ▸ framed h hy hm
  have hcon' : TunnelEmpty c.method y := hm' ▸ tunnel_empty h hy hcon
  obtain ⟨b0, r0, h0⟩ := something_reads he hc.text hn hfr hfo s1 s2 hcon' more
  rw [hm'] at h0
  have e0 := (ReadsResponse.unique hr h0).1
  have hu : UntilEnd c.method (sentResponse c keys y) → more = [] := by
    intro hu
    refine hmore ?_
    rw [e0, ← hm']
    exact hu
  have hs := sentResponse_reads he hc.text hn hfr hfo s1 s2 hcon' more hu
  rw [hm'] at hs
  have e1 := (ReadsResponse.unique hr hs).1
  rw [e1]
  refine ⟨rfl, fun hu => ?_, ?_⟩
  · rw [← hm'] at hu
    rcases body_reads he hc.text hn hfr hfo s1 hcon' with ⟨hnu, -⟩ | ⟨-, h1, h2, -⟩
    · exact absurd hu hnu
    · exact ⟨h1, h2⟩
  · exact sentResponse_values he hc.text hn (fun f hf => (hfo f hf).1) k hk

/-! ## C154: the end of the connection -/

/-- RFC 7230 6.1: the options in a list of Connection fields: the parts between commas, without white space around them,
in lower case. -/
def connectionOptions (values : List Str) : List Str :=
  values.flatMap fun v => (split ',' v).map fun o => toLower (trimOws o)

/-- RFC 7230 6.3 and 6.6: the response says that the connection ends, or, in HTTP/1.0, does not say that it is kept. -/
def SaysClose (m : HttpResponse) : Prop :=
  "close".toList ∈ connectionOptions (fieldValues m.fields "connection".toList) ∨
    (m.version = "HTTP/1.0".toList ∧
      "keep-alive".toList ∉ connectionOptions (fieldValues m.fields "connection".toList))

instance (m : HttpResponse) : Decidable (SaysClose m) := by unfold SaysClose; infer_instance

/-- The reasons to end a connection: the client asked for it, or, in HTTP/1.0, did not ask for anything else, or stopped
halfway; there is an unread body; the gateway shuts down. -/
def MayEnd (c : ReplyConn) : Prop :=
  (c.closing = true ∧ c.version ≠ .v10 true) ∨ c.version = .v10 false ∨ c.broken = true ∨ c.unread = true ∨
    c.keepAlives = false

instance (c : ReplyConn) : Decidable (MayEnd c) := by unfold MayEnd; infer_instance

theorem values_connection {c : ReplyConn} {y : Sent} (hn : y.header "Connection".toList = []) :
    closesEarly c y = ((!keeps10 c y && (!c.modern || c.closing)) || c.broken || !c.keepAlives) ∧
    closesAfter c y = (closesEarly c y || c.unread) ∧
    respValues c y "Connection".toList =
      if (c.unread && !closesEarly c y) || (closesAfter c y && c.modern) then ["close".toList]
      else if keeps10 c y then ["keep-alive".toList] else [] := by
  have hg : y.header.get "Connection".toList = [] := by
    unfold Hdr.get
    rw [show canon "Connection".toList = "Connection".toList by decide, hn]
    rfl
  have h0 : closesEarly c y = ((!keeps10 c y && (!c.modern || c.closing)) || c.broken || !c.keepAlives) := by
    unfold closesEarly
    rw [hg, show (decide (([] : Str) = "close".toList)) = false by decide, Bool.or_false]
  have h1 : closesAfter c y = (closesEarly c y || c.unread) := by
    unfold closesAfter tooBig
    cases closesEarly c y <;> cases c.unread <;> rfl
  have hs : switchesProtocol y = false := by
    unfold switchesProtocol
    rw [hn]
    simp only [List.any_nil, Bool.and_false]
  have h2 : dropsConnection c y = closesAfter c y := by
    unfold dropsConnection
    rw [hg, hs, show hasToken [] "close".toList = false by decide, h1]
    unfold tooBig
    cases closesEarly c y <;> cases c.unread <;> cases c.keepAlives <;> rfl
  refine ⟨h0, h1, ?_⟩
  unfold respValues
  rw [extra_values, hn]
  rw [if_neg (c := "Date".toList = _ ∧ _) (fun h => absurd h.1 (by decide)),
    if_neg (c := "Content-Length".toList = _) (by decide),
    if_neg (c := "Content-Type".toList = _ ∧ _) (fun h => absurd h.1 (by decide)),
    if_neg (c := "Transfer-Encoding".toList = _ ∧ _) (fun h => absurd h.1 (by decide)), if_pos (c := "Connection".toList = _) rfl]
  simp only [List.map_nil, ite_self, List.nil_append, List.append_nil]
  unfold ownConnection
  rw [h2, hn]
  unfold tooBig
  simp only [decide_true, Bool.and_true]
  split
  · rfl
  · split <;> rfl

/-- The declared length is the length that is written, except for other spellings of HEAD and CONNECT. -/
theorem wrote_declared {x : Setup K} {s : St} (h : x.Reaches s) {y : Sent} (hy : y ∈ s.sent)
    (hm : toUpper x.rq.method = "HEAD".toList → x.rq.method = "HEAD".toList)
    (hcon : toUpper x.rq.method ≠ "CONNECT".toList) {c : ReplyConn} (hc : c.method = x.rq.method)
    (hlen : (y.body.length : Int) ≤ maxInt64) : wroteOther c y = false := by
  unfold wroteOther
  rcases length_of_reaches h hy with ⟨code, msg, rfl⟩ | ⟨-, ⟨hn, hz⟩ | ⟨-, hb⟩⟩
  · have hd : declaredLength (jsonResponse x.respEnv code msg).header = none := by
      unfold declaredLength
      rw [get_cl, json_cl]
      rfl
    rw [hd]
  · cases declaredLength y.header with
    | none => rfl
    | some n =>
      have : bodyAllowed y.status = false := by
        unfold bodyAllowed
        rcases hn with hn | ⟨h1, h2⟩ | hn
        · rw [hn]; decide
        · simp only [Bool.and_eq_false_iff, Bool.not_eq_false', Bool.and_eq_true, decide_eq_true_eq]
          left; left; omega
        · exact absurd hn hcon
      rw [this]
      simp
  · by_cases hh : c.method = "HEAD".toList
    · cases declaredLength y.header with
      | none => rfl
      | some n => simp only [hh]; simp
    · have e := hb fun h' => hh (hc.trans (hm h'))
      rw [show declaredLength y.header = some y.body.length by
        unfold declaredLength
        rw [get_cl, e, List.headD_cons, if_neg (natToDec_ne_nil _), atoi_natToDec, if_pos hlen]
        simp]
      simp

/-- A body of unknown length ends with the connection, for an old client. -/
theorem unknown_ends {x : Setup K} {s : St} (h : x.Reaches s) {y : Sent} (hy : y ∈ s.sent) (hcut : NamesCut s)
    (hm : toUpper x.rq.method = "HEAD".toList → x.rq.method = "HEAD".toList)
    (hcon : OwnRefuses x y) {c : ReplyConn} (hc : ConnOf x c) {keys : List Str}
    (he : Enumerates keys y.header) {more : Str} {m : HttpResponse} {rest : Str}
    (hr : ReadsResponse x.rq.method (writeResponse c keys y ++ more) m rest)
    (hmore : UntilEnd x.rq.method m → more = []) (hlen : (y.body.length : Int) ≤ maxInt64) (hold : c.modern = false) :
    lengthKnown c y = false ↔ UntilEnd x.rq.method m := by
  obtain ⟨e, hu, hte⟩ := read_values h hy hcut hm hcon hc he hr hmore "Transfer-Encoding".toList (by decide)
  obtain ⟨-, -, hcl⟩ := read_values h hy hcut hm hcon hc he hr hmore "Content-Length".toList (by decide)
  have hfr := framed h hy hm
  refine ⟨fun hk => ?_, fun h => (hu h).2⟩
  have hch : chunking c y = false := by unfold chunking; rw [hold, Bool.and_false]
  rw [canon_te, values_te hfr.te, hch, show toLower "Transfer-Encoding".toList = "transfer-encoding".toList by decide] at hte
  unfold lengthKnown at hk
  simp only [Bool.or_eq_false_iff, decide_eq_false_iff_not, Bool.not_eq_false', Option.isSome_eq_false_iff,
    Option.isNone_iff_eq_none] at hk
  obtain ⟨⟨⟨k1, k2⟩, k3⟩, k4⟩ := hk
  have hn : y.header "Content-Length".toList = [] := by
    rcases hfr.length (hc.method ▸ k1) with h | h | h
    · exact h
    · rw [show declaredLength y.header = some 0 by
        unfold declaredLength
        rw [get_cl, h]
        decide] at k3
      cases k3
    · rw [show declaredLength y.header = some y.body.length by
        unfold declaredLength
        rw [get_cl, h, List.headD_cons, if_neg (natToDec_ne_nil _), atoi_natToDec, if_pos hlen]
        simp] at k3
      cases k3
  rw [canon_cl, values_cl, hn, k4, show toLower "Content-Length".toList = "content-length".toList by decide] at hcl
  refine ⟨?_, hte, ?_⟩
  · rw [e]
    show ¬ Bodiless x.rq.method y.status.toNat
    rw [bodiless_iff (status_valid h hy).1, not_or, not_or]
    exact ⟨hc.method ▸ k1, by rw [k2]; decide, fun ⟨h1, h2⟩ => hcon h1 hn h2⟩
  · rw [hcl]
    simp

/-- C154, in part: if no upstream sends a Connection header, a connection is ended exactly for one of the reasons, or
because the body ends with it, and whatever a client reads says whether it is. For every schedule; for a client with HTTP/1.0 that asked for the
connection to be kept, what it reads is right as long as nothing goes wrong. -/
theorem C154_quiet_partial (x : Setup K) (s : St) (h : x.Reaches s) (y : Sent) (hy : y ∈ s.sent) (hcut : NamesCut s)
    (hm : toUpper x.rq.method = "HEAD".toList → x.rq.method = "HEAD".toList)
    (hcon : toUpper x.rq.method ≠ "CONNECT".toList) (c : ReplyConn) (hc : ConnOf x c) (keys : List Str)
    (he : Enumerates keys y.header) (more : Str) (m : HttpResponse) (rest : Str)
    (hr : ReadsResponse x.rq.method (writeResponse c keys y ++ more) m rest)
    (hmore : UntilEnd x.rq.method m → more = []) (hlen : (y.body.length : Int) ≤ maxInt64)
    (hq : ∀ r, Recv s r → ∀ p ∈ r.header, canon p.1 ≠ "Connection".toList) :
    (endsAfter c y = true ↔ MayEnd c ∨ UntilEnd x.rq.method m) ∧
    ((c.version = .v10 true → c.keepAlives = true ∧ c.broken = false) → (endsAfter c y = true ↔ SaysClose m)) := by
  have hcon' : OwnRefuses x y := fun e => absurd (by rw [e]; decide) hcon
  have hends : endsAfter c y = closesAfter c y := by
    unfold endsAfter
    rw [wrote_declared h hy hm hcon hc.method hlen, Bool.or_false]
  rw [hends]
  have hn : y.header "Connection".toList = [] := by
    cases hv : y.header "Connection".toList with
    | nil => rfl
    | cons v vs =>
      rcases header_from h hy (k := "Connection".toList) (v := v) (by rw [hv]; exact .head _) with hg | ⟨-, r, h1, p, h2, h3, -⟩
      · exact absurd hg (by decide)
      · exact absurd h3 (hq r h1 p h2)
  obtain ⟨h0, h1, h2⟩ := values_connection (c := c) hn
  obtain ⟨e, hu, hv⟩ := read_values h hy hcut hm hcon' hc he hr hmore "Connection".toList (by decide)
  rw [show canon "Connection".toList = "Connection".toList by decide,
    show toLower "Connection".toList = "connection".toList by decide, h2] at hv
  have hver : m.version = if c.modern then "HTTP/1.1".toList else "HTTP/1.0".toList := by rw [e]; rfl
  cases hversion : c.version with
  | v11 =>
    have hmod : c.modern = true := by unfold ReplyConn.modern; rw [hversion]; rfl
    have hk10 : keeps10 c y = false := by unfold keeps10; rw [hversion]; rfl
    have hnu : ¬ UntilEnd x.rq.method m := fun h => by have := (hu h).1; rw [hmod] at this; cases this
    rw [hmod, hk10, h1, h0, hmod, hk10] at hv
    rw [hmod] at hver
    rw [h1, h0, hmod, hk10]
    unfold MayEnd SaysClose
    rw [hv, hver, hversion]
    simp only [hnu, or_false]
    cases c.closing <;> cases c.broken <;> cases c.unread <;> cases c.keepAlives <;>
      exact ⟨by simp, fun _ => by decide +kernel⟩
  | v10 keep =>
    have hmod : c.modern = false := by unfold ReplyConn.modern; rw [hversion]; rfl
    have hun := unknown_ends h hy hcut hm hcon' hc he hr hmore hlen hmod
    rw [hmod] at hver
    cases keep with
    | false =>
      have hk10 : keeps10 c y = false := by unfold keeps10; rw [hversion]; rfl
      rw [hmod, hk10, h1, h0, hmod, hk10] at hv
      rw [h1, h0, hmod, hk10]
      unfold MayEnd SaysClose
      rw [hv, hver, hversion]
      cases c.closing <;> cases c.broken <;> cases c.unread <;> cases c.keepAlives <;>
        exact ⟨by simp, fun _ => by decide +kernel⟩
    | true =>
      have hk10 : keeps10 c y = lengthKnown c y := by unfold keeps10; rw [hversion]; rfl
      rw [hmod, hk10, h1, h0, hmod, hk10] at hv
      rw [h1, h0, hmod, hk10]
      unfold MayEnd SaysClose
      rw [hv, hver, hversion, ← hun]
      cases lengthKnown c y <;> cases c.closing <;> cases c.broken <;> cases c.unread <;> cases c.keepAlives <;>
        refine ⟨by simp, fun hok => ?_⟩ <;>
        first
        | exact absurd (hok rfl).1 (by decide)
        | exact absurd (hok rfl).2 (by decide)
        | decide +kernel

/-- A client that asked for the end of its connection is told that it ends, others are not. -/
example : ([false, true].map fun b => let c : ReplyConn := { Demo.conn with closing := b }
      (endsAfter c (proxiedResponse Demo.setup.respEnv Demo.ok),
        writeResponse c (["Content-Encoding", "Content-Length", "Server", "X", "X-Request-Id"].map String.toList)
          (proxiedResponse Demo.setup.respEnv Demo.ok))) =
    [(false, ("HTTP/1.1 200 OK\r\nContent-Encoding: identity\r\nContent-Length: 2\r\nServer: j8a v1 abc\r\nX: ok\r\n" ++
        "X-Request-Id: XR-abc-u\r\nDate: Mon, 16 Nov 2026 10:00:00 GMT\r\n\r\nhi").toList),
     (true, ("HTTP/1.1 200 OK\r\nContent-Encoding: identity\r\nContent-Length: 2\r\nServer: j8a v1 abc\r\nX: ok\r\n" ++
        "X-Request-Id: XR-abc-u\r\nDate: Mon, 16 Nov 2026 10:00:00 GMT\r\nConnection: close\r\n\r\nhi").toList)] := by
  decide +kernel

/-- Old clients that did and did not ask for the connection to be kept, and what they get. -/
example : ([false, true].map fun b => let c : ReplyConn := { Demo.conn with version := .v10 b }
      (endsAfter c (proxiedResponse Demo.setup.respEnv Demo.ok),
        writeResponse c (["Content-Encoding", "Content-Length", "Server", "X", "X-Request-Id"].map String.toList)
          (proxiedResponse Demo.setup.respEnv Demo.ok))) =
    [(true, ("HTTP/1.0 200 OK\r\nContent-Encoding: identity\r\nContent-Length: 2\r\nServer: j8a v1 abc\r\nX: ok\r\n" ++
        "X-Request-Id: XR-abc-u\r\nDate: Mon, 16 Nov 2026 10:00:00 GMT\r\n\r\nhi").toList),
     (false, ("HTTP/1.0 200 OK\r\nContent-Encoding: identity\r\nContent-Length: 2\r\nServer: j8a v1 abc\r\nX: ok\r\n" ++
        "X-Request-Id: XR-abc-u\r\nDate: Mon, 16 Nov 2026 10:00:00 GMT\r\nConnection: keep-alive\r\n\r\nhi").toList)] := by
  decide +kernel

/-- C154 fails for every client with HTTP/1.0 that asked for the connection to be kept and whose request body could not
be read to its end, and during a shutdown: it reads that the connection is kept, and the connection ends. -/
theorem C154_violated_old_always (x : Setup K) (s : St) (h : x.Reaches s) (y : Sent) (hy : y ∈ s.sent) (hcut : NamesCut s)
    (hm : toUpper x.rq.method = "HEAD".toList → x.rq.method = "HEAD".toList)
    (hcon : toUpper x.rq.method ≠ "CONNECT".toList) (c : ReplyConn) (hc : ConnOf x c) (keys : List Str)
    (he : Enumerates keys y.header) (more : Str) (m : HttpResponse) (rest : Str)
    (hr : ReadsResponse x.rq.method (writeResponse c keys y ++ more) m rest)
    (hsized : ¬ UntilEnd x.rq.method m) (hlen : (y.body.length : Int) ≤ maxInt64)
    (hq : ∀ r, Recv s r → ∀ p ∈ r.header, canon p.1 ≠ "Connection".toList)
    (hver : c.version = .v10 true) (hbad : c.broken = true ∨ c.keepAlives = false) :
    endsAfter c y = true ∧ ¬ SaysClose m := by
  have hmore : UntilEnd x.rq.method m → more = [] := fun h => absurd h hsized
  have hcon' : OwnRefuses x y := fun e => absurd (by rw [e]; decide) hcon
  have hmod : c.modern = false := by unfold ReplyConn.modern; rw [hver]; rfl
  have hkn : lengthKnown c y = true := by
    cases hk : lengthKnown c y with
    | true => rfl
    | false => exact absurd ((unknown_ends h hy hcut hm hcon' hc he hr hmore hlen hmod).1 hk) hsized
  refine ⟨(C154_quiet_partial x s h y hy hcut hm hcon c hc keys he more m rest hr hmore hlen hq).1.2 (.inl ?_), ?_⟩
  · rcases hbad with h | h
    · exact .inr (.inr (.inl h))
    · exact .inr (.inr (.inr (.inr h)))
  · have hn : y.header "Connection".toList = [] := by
      cases hv : y.header "Connection".toList with
      | nil => rfl
      | cons v vs =>
        rcases header_from h hy (k := "Connection".toList) (v := v) (by rw [hv]; exact .head _) with hg | ⟨-, r, h1, p, h2, h3, -⟩
        · exact absurd hg (by decide)
        · exact absurd h3 (hq r h1 p h2)
    obtain ⟨h0, h1, h2⟩ := values_connection (c := c) hn
    obtain ⟨-, -, hv⟩ := read_values h hy hcut hm hcon' hc he hr hmore "Connection".toList (by decide)
    rw [show canon "Connection".toList = "Connection".toList by decide,
      show toLower "Connection".toList = "connection".toList by decide, h2] at hv
    have hk10 : keeps10 c y = true := by unfold keeps10; rw [hver, hkn]; rfl
    have hce : closesEarly c y = true := by
      rw [h0]
      rcases hbad with h | h <;> rw [h] <;> simp only [Bool.or_true, Bool.true_or, Bool.not_false]
    rw [hce, hmod, hk10] at hv
    have hv : fieldValues m.fields "connection".toList = ["keep-alive".toList] := by
      rw [hv]
      simp only [Bool.not_true, Bool.and_false, Bool.or_self, Bool.false_eq_true, if_false, if_true]
      decide
    unfold SaysClose
    rw [hv]
    rintro (h | h)
    · exact absurd h (by decide +kernel)
    · exact h.2 (by decide +kernel)

/-- This is what such a client gets. -/
example : let c : ReplyConn := { Demo.conn with version := .v10 true, broken := true }
    endsAfter c (proxiedResponse Demo.setup.respEnv Demo.ok) = true ∧
    writeResponse c (["Content-Encoding", "Content-Length", "Server", "X", "X-Request-Id"].map String.toList)
        (proxiedResponse Demo.setup.respEnv Demo.ok) =
      ("HTTP/1.0 200 OK\r\nContent-Encoding: identity\r\nContent-Length: 2\r\nServer: j8a v1 abc\r\nX: ok\r\n" ++
        "X-Request-Id: XR-abc-u\r\nDate: Mon, 16 Nov 2026 10:00:00 GMT\r\nConnection: keep-alive\r\n\r\nhi").toList := by
  decide +kernel

/-- Passing on a response with one Connection header. -/
def Demo.connected (v : String) : UpResp :=
  { status := 200, header := [("Connection".toList, [v.toList])], body := [104, 105] }

def Demo.connectedKeys : List Str :=
  ["Connection", "Content-Encoding", "Content-Length", "Server", "X-Request-Id"].map String.toList

/-- What is sent, and when `c` is the connection, what is read. -/
theorem Demo.connected_reads (v : String) (hv : FieldText v.toList) (c : ReplyConn) (hc : ConnOf Demo.setup c)
    (hen : Enumerates Demo.connectedKeys (proxiedResponse Demo.setup.respEnv (Demo.connected v)).header)
    (hx : ∃ s, Demo.exec Demo.setup (Demo.success (Demo.connected v)) = some s ∧ ((Demo.seen s).finished &&
      (s.n == 1 && s.cur == 0) && s.curA.vResp == some (Demo.connected v) &&
      s.sent.map Sent.status == [(Demo.connected v).status]) = true) :
    ∃ s y, Demo.setup.ReachesOrderly s ∧ s.pc = .done ∧ s.sent = [y] ∧
      y = proxiedResponse Demo.setup.respEnv (Demo.connected v) ∧
      ∃ m, ReadAs Demo.setup (writeResponse c Demo.connectedKeys y) y m ∧
        (c.modern = true → ¬ UntilEnd Demo.setup.rq.method m) ∧
        fieldValues m.fields "connection".toList = (respValues c y "Connection".toList).map trimOws := by
  obtain ⟨s, h1, h2, h3, h4, h5⟩ := Demo.answered (r := Demo.connected v) (show (200 : Int) < 400 by decide) hx
  have hcut : NamesCut s := by
    intro r hr p hp
    rw [h4 r hr] at hp
    obtain rfl := List.mem_singleton.1 hp
    exact ⟨show ':' ∉ "Connection".toList by decide, show '\n' ∉ "Connection".toList by decide⟩
  have hcl : (Demo.connected v).Clean := by
    intro p hp
    obtain rfl := List.mem_singleton.1 hp
    refine ⟨token_of_valid (show validFieldName "Connection".toList = true by decide), fun w hw => ?_⟩
    obtain rfl := List.mem_singleton.1 hw
    exact hv
  obtain ⟨r0, u, l, hdec⟩ : ∃ r u l, Demo.setup.dec = .forward r u l :=
    ⟨Demo.route, Demo.url, "default".toList, by decide +kernel⟩
  have hy : proxiedResponse Demo.setup.respEnv (Demo.connected v) ∈ s.sent := by rw [h5]; exact .head _
  have hr : Demo.setup.Reaches s := h1.imp fun _ h => h.1
  have hm : toUpper Demo.setup.rq.method = "HEAD".toList → Demo.setup.rq.method = "HEAD".toList :=
    fun h => absurd h (by decide)
  obtain ⟨m, hread⟩ := C133_clean_partial Demo.setup s h1 hdec h2 _ hy Demo.text_ids
    (fun w hw => by rw [h3] at hw; cases hw; exact hcl) hm c hc Demo.connectedKeys hen
  obtain ⟨-, hu, hval⟩ := read_values hr hy hcut hm (fun e => absurd e (by decide)) hc hen (hread.only [] (fun _ => rfl)).1 (fun _ => rfl)
    "Connection".toList (by decide)
  exact ⟨s, _, h1, h2, h5, rfl, m, hread, (fun h1 h2 => by have := (hu h2).1; rw [h1] at this; cases this), hval⟩

/-- C154 as stated fails. `close` from an upstream ends the connection of a client that did not ask for it. `Close` from
an upstream is told to the client, and the connection does not end. -/
theorem C154_violated :
    (∃ s y m, Demo.setup.ReachesOrderly s ∧ s.pc = .done ∧ s.sent = [y] ∧
      ReadAs Demo.setup (writeResponse Demo.conn Demo.connectedKeys y) y m ∧ ¬ MayEnd Demo.conn ∧
      ¬ UntilEnd Demo.setup.rq.method m ∧ endsAfter Demo.conn y = true) ∧
    (∃ s y m, Demo.setup.ReachesOrderly s ∧ s.pc = .done ∧ s.sent = [y] ∧
      ReadAs Demo.setup (writeResponse Demo.conn Demo.connectedKeys y) y m ∧ SaysClose m ∧
      endsAfter Demo.conn y = false) := by
  constructor
  · obtain ⟨s, y, h1, h2, h3, h4, m, h5, hu, -⟩ := Demo.connected_reads "close" (fieldText_lit (by decide)) Demo.conn Demo.conn_of
      (enumerates_of (by decide) (by decide +kernel) (by decide +kernel)) (Demo.of_check (by decide +kernel))
    refine ⟨s, y, m, h1, h2, h3, h5, by decide, hu rfl, ?_⟩
    rw [h4]; decide +kernel
  · obtain ⟨s, y, h1, h2, h3, h4, m, h5, -, h6⟩ := Demo.connected_reads "Close" (fieldText_lit (by decide)) Demo.conn Demo.conn_of
      (enumerates_of (by decide) (by decide +kernel) (by decide +kernel)) (Demo.of_check (by decide +kernel))
    refine ⟨s, y, m, h1, h2, h3, h5, ?_, ?_⟩
    · unfold SaysClose
      rw [h6, h4]
      exact .inl (by decide +kernel)
    · rw [h4]; decide +kernel

/-! ## C155: the announced length -/

/-- RFC 7230 2.6, 3.3.1 and 3.3.2, for the response `y` to a request with that method, of a client with HTTP/1.1 or, if
`old`, HTTP/1.0. -/
structure Announced (method : Str) (old : Bool) (y : Sent) (m : HttpResponse) : Prop where
  /-- the response has the version of the request -/
  version : m.version = if old then "HTTP/1.0".toList else "HTTP/1.1".toList
  /-- statuses without body announce none -/
  bodiless : (100 ≤ m.status ∧ m.status < 200) ∨ m.status = 204 ∨ m.status = 304 →
    fieldValues m.fields "content-length".toList = [] ∧ fieldValues m.fields "transfer-encoding".toList = []
  /-- an answer to HEAD has no chunks, and the length of an own response is right or absent -/
  head : method = "HEAD".toList → fieldValues m.fields "transfer-encoding".toList = [] ∧
    (y.header "Content-Length".toList = [] → ¬ Bodiless "GET".toList m.status →
      fieldValues m.fields "content-length".toList =
        if y.body ≠ [] ∧ y.body.length ≤ 2048 then [natToDec y.body.length] else [])
  /-- everything else announces the length of the body, or else that it comes in chunks, which is done for own responses
  of more than 2048 bytes; with HTTP/1.0 there are no chunks and the body ends with the connection -/
  other : ¬ Bodiless method m.status →
    (fieldValues m.fields "content-length".toList = [natToDec m.body.length] ∧
      fieldValues m.fields "transfer-encoding".toList = [] ∨
     fieldValues m.fields "content-length".toList = [] ∧
      fieldValues m.fields "transfer-encoding".toList = if old then [] else ["chunked".toList]) ∧
    (fieldValues m.fields "content-length".toList = [] ↔
      y.header "Content-Length".toList = [] ∧ 2048 < y.body.length)

theorem bodyAllowed_iff {n : Int} (h : 100 ≤ n) :
    bodyAllowed n = false ↔ (100 ≤ n.toNat ∧ n.toNat < 200) ∨ n.toNat = 204 ∨ n.toNat = 304 := by
  unfold bodyAllowed
  simp only [Bool.and_eq_false_iff, Bool.not_eq_false', Bool.and_eq_true, decide_eq_true_eq, decide_eq_false_iff_not,
    Decidable.not_not]
  omega

/-- An own response is written with its length or in chunks, by its length. -/
theorem own_length {c : ReplyConn} {y : Sent} (hn : y.header "Content-Length".toList = [])
    (ht : y.header "Trailer".toList = []) (hb : bodyAllowed y.status = true) :
    handedOver y = y.body ∧ ownLength c y =
      if (c.method ≠ "HEAD".toList ∨ y.body ≠ []) ∧ y.body.length ≤ 2048 then some y.body.length else none := by
  have hg : y.header.get "Content-Length".toList = [] := by rw [get_cl, hn]; rfl
  have hd : declaredLength y.header = none := by unfold declaredLength; rw [if_pos hg]
  have hh : handedOver y = y.body := by unfold handedOver; rw [if_pos hb, hd]
  refine ⟨hh, ?_⟩
  unfold ownLength
  rw [hh]
  by_cases hl : (c.method ≠ "HEAD".toList ∨ y.body ≠ []) ∧ y.body.length ≤ 2048
  · rw [if_pos ⟨hl.2, ht, hb, hg, hl.1⟩, if_pos hl]
  · rw [if_neg (fun h => hl ⟨h.2.2.2.2, h.1⟩), if_neg hl]

theorem trimOws_dec (n : Nat) : trimOws (natToDec n) = natToDec n := trimOws_digits n

/-- C155, in part: whatever a client reads, for every schedule. (No slice is longer than an int can tell.) -/
theorem C155_announced_partial (x : Setup K) (s : St) (h : x.Reaches s) (y : Sent) (hy : y ∈ s.sent) (hcut : NamesCut s)
    (hm : toUpper x.rq.method = "HEAD".toList → x.rq.method = "HEAD".toList)
    (hcon : OwnRefuses x y) (c : ReplyConn) (hc : ConnOf x c) (keys : List Str)
    (he : Enumerates keys y.header) (more : Str) (m : HttpResponse) (rest : Str)
    (hlen : (y.body.length : Int) ≤ maxInt64)
    (hr : ReadsResponse x.rq.method (writeResponse c keys y ++ more) m rest)
    (hmore : UntilEnd x.rq.method m → more = []) : Announced x.rq.method (c.version ≠ .v11) y m := by
  obtain ⟨s1, s2⟩ := status_valid h hy
  obtain ⟨hmeq, -, hte⟩ := read_values h hy hcut hm hcon hc he hr hmore "Transfer-Encoding".toList (by decide)
  obtain ⟨-, -, hcl⟩ := read_values h hy hcut hm hcon hc he hr hmore "Content-Length".toList (by decide)
  have hfr := framed h hy hm
  have hm' := hc.method
  rw [show canon "Transfer-Encoding".toList = "Transfer-Encoding".toList by decide, values_te hfr.te,
    show toLower "Transfer-Encoding".toList = "transfer-encoding".toList by decide] at hte
  rw [show canon "Content-Length".toList = "Content-Length".toList by decide,
    show toLower "Content-Length".toList = "content-length".toList by decide] at hcl
  have hst : m.status = y.status.toNat := by rw [hmeq]; rfl
  have own : y.header "Content-Length".toList = [] → y.header "Trailer".toList = [] := by
    intro hn
    obtain ⟨code, msg, rfl⟩ := (own_iff h hy).1 hn
    rw [json_header, if_neg (by decide), std_other _ _ (by decide) (by decide) (by decide)]
  have hold : (decide (c.version ≠ .v11)) = !c.modern := by
    unfold ReplyConn.modern
    cases c.version <;> rfl
  rw [hold]
  refine ⟨?_, fun hb => ?_, fun hh => ?_, fun hb => ?_⟩
  · rw [hmeq]
    show (if c.modern then "HTTP/1.1".toList else "HTTP/1.0".toList) = _
    cases c.modern <;> decide
  · rw [hst, ← bodyAllowed_iff s1] at hb
    have hk : chunking c y = false := chunking_known (by unfold lengthKnown; rw [hb]; simp only [Bool.not_false, Bool.or_true, Bool.true_or])
    have ho : ownLength c y = none := by unfold ownLength; rw [if_neg (fun h => by rw [hb] at h; cases h.2.2.1)]
    rw [hcl, hte, values_cl, hk, ho, hb]
    exact ⟨rfl, rfl⟩
  · have hk : chunking c y = false := chunking_known (by unfold lengthKnown; rw [hm', hh]; simp only [decide_true, Bool.true_or])
    refine ⟨by rw [hte, hk]; rfl, fun hn hb => ?_⟩
    have ht := own hn
    have hb' : bodyAllowed y.status = true := by
      cases hba : bodyAllowed y.status with
      | true => rfl
      | false =>
        rw [bodyAllowed_iff s1, ← hst] at hba
        refine absurd ?_ hb
        rcases hba with h | h | h
        · exact .inr (.inl h)
        · exact .inr (.inr (.inl h))
        · exact .inr (.inr (.inr (.inl h)))
    obtain ⟨h1, h2⟩ := own_length (c := c) hn ht hb'
    rw [hcl, values_cl, hk, h2, hn]
    by_cases hl : y.body ≠ [] ∧ y.body.length ≤ 2048
    · rw [if_pos hl, if_pos (c := _ ∧ y.body.length ≤ 2048) ⟨.inr hl.1, hl.2⟩]
      simp [trimOws_dec]
    · rw [if_neg hl, if_neg (c := _ ∧ y.body.length ≤ 2048) (fun h => hl ⟨h.1.resolve_left (fun n => n (hm'.trans hh)), h.2⟩)]
      simp
  · have hne : c.method ≠ "HEAD".toList := fun h => hb (.inl (hm'.symm.trans h))
    have hb' : bodyAllowed y.status = true := by
      cases hba : bodyAllowed y.status with
      | true => rfl
      | false =>
        rw [bodyAllowed_iff s1, ← hst] at hba
        refine absurd ?_ hb
        rcases hba with h | h | h
        · exact .inr (.inl h)
        · exact .inr (.inr (.inl h))
        · exact .inr (.inr (.inr (.inl h)))
    have hbody : m.body.length = (handedOver y).length := by
      rw [hmeq]
      show (if c.method = "HEAD".toList then [] else bodyText (handedOver y)).length = _
      rw [if_neg hne]
      exact List.length_map _
    constructor
    · rcases framing (hm' ▸ hfr) hne hb' with ⟨h1, h2⟩ | ⟨h1, -, h2⟩
      · left
        rw [hcl, hte, h1, h2, hbody]
        exact ⟨by rw [List.map_singleton, trimOws_dec], rfl⟩
      · right
        rw [hcl, hte, h1, h2]
        refine ⟨rfl, ?_⟩
        cases c.modern <;> decide
    · rw [hcl]
      constructor
      · intro hz
        have hz := List.map_eq_nil_iff.1 hz
        rw [values_cl, List.append_eq_nil_iff] at hz
        obtain ⟨hz1, hz2⟩ := hz
        have ho : ownLength c y = none := by
          cases ho : ownLength c y with
          | none => rfl
          | some n => rw [ho] at hz2; cases hz2
        by_cases hn : y.header "Content-Length".toList = []
        · refine ⟨hn, ?_⟩
          obtain ⟨h1, h2⟩ := own_length (c := c) hn (own hn) hb'
          rw [h2] at ho
          by_cases hl : y.body.length ≤ 2048
          · rw [if_pos ⟨.inl hne, hl⟩] at ho; cases ho
          · omega
        · exfalso
          have hsome : (declaredLength y.header).isSome = true := by
            rcases hfr.length (hm' ▸ hne) with h | h | h
            · exact absurd h hn
            · rw [show declaredLength y.header = some 0 by
                unfold declaredLength
                rw [get_cl, h]
                decide]
              rfl
            · rw [show declaredLength y.header = some y.body.length by
                unfold declaredLength
                rw [get_cl, h, List.headD_cons, if_neg (natToDec_ne_nil _), atoi_natToDec, if_pos hlen]
                simp]
              rfl
          have hk : chunking c y = false := chunking_known (by unfold lengthKnown; rw [hsome]; simp only [Bool.or_true, Bool.true_or])
          rw [if_neg (by rw [hb', hk]; decide), List.map_eq_nil_iff] at hz1
          exact hn hz1
      · rintro ⟨hn, hl⟩
        obtain ⟨h1, h2⟩ := own_length (c := c) hn (own hn) hb'
        rw [if_neg (fun h => absurd h.2 (by omega))] at h2
        rw [values_cl, hn, h2]
        simp

/-- Answers to HEAD and to others, of 2048 and 2049 bytes, made by the gateway. -/
example : (["GET", "HEAD"].flatMap fun m => [2048, 2049].map fun n =>
      let c : ReplyConn := { Demo.conn with method := m.toList }
      let y : Sent := { status := 404, header := Hdr.empty, body := List.replicate n 7 }
      (respValues c y "Content-Length".toList, respValues c y "Transfer-Encoding".toList)) =
    [(["2048".toList], []), ([], ["chunked".toList]), (["2048".toList], []), ([], [])] := by
  decide +kernel

/-- The connection of a client that writes HEAD in lower case. -/
def Demo.headConn : ReplyConn := { Demo.conn with method := "head".toList }

/-- C155 as stated fails for the method `head`, which is no HEAD for `net/http` and for the client: a length is announced
and no byte follows. The connection ends and the response does not say so, against C154. -/
theorem C155_violated : ∃ s y, Demo.headSetup.ReachesOrderly s ∧ s.pc = .done ∧ s.sent = [y] ∧
    ConnOf Demo.headSetup Demo.headConn ∧ ¬ Bodiless Demo.headSetup.rq.method y.status.toNat ∧
    Enumerates (["Content-Length", "Server", "X-Request-Id"].map String.toList) y.header ∧
    writeResponse Demo.headConn (["Content-Length", "Server", "X-Request-Id"].map String.toList) y =
      ("HTTP/1.1 200 OK\r\nContent-Length: 1234\r\nServer: j8a v1 abc\r\n" ++
      "X-Request-Id: XR-abc-u\r\nDate: Mon, 16 Nov 2026 10:00:00 GMT\r\n\r\n").toList ∧
    endsAfter Demo.headConn y = true ∧ ¬ MayEnd Demo.headConn := by
  obtain ⟨s, hs, hp⟩ := Demo.of_check (x := Demo.headSetup) (as := Demo.successEmpty Demo.sized)
    (p := fun s => (Demo.seen s).finished && s.curA.vResp == some Demo.sized && s.sent.map Sent.status == [200])
    (by decide +kernel)
  simp only [Bool.and_eq_true, beq_iff_eq] at hp
  obtain ⟨⟨h1, h2⟩, h3⟩ := hp
  obtain ⟨y, hy, h4⟩ := Demo.one_of_map h3
  have ho := Demo.orderly_empty hs
  have hd := Demo.done_of_seen h1
  obtain ⟨r0, u, l, hdec⟩ : ∃ r u l, Demo.headSetup.dec = .forward r u l :=
    ⟨Demo.route, Demo.url, "default".toList, by decide +kernel⟩
  obtain ⟨v, hv, hyv, -⟩ := C37_partial Demo.headSetup s ho hdec hd y (by rw [hy]; simp) (by rw [h4]; decide)
  rw [h2] at hv
  cases hv
  refine ⟨s, y, ho, hd, hy, ⟨rfl, Demo.conn_of.text⟩, ?_, ?_, ?_, ?_, ?_⟩
  · rw [h4]
    rintro (h | h | h | h | h)
    · exact absurd h (by decide)
    · exact absurd h.2 (by decide)
    · exact absurd h (by decide)
    · exact absurd h (by decide)
    · exact absurd h.1 (by decide)
  · rw [hyv]; exact enumerates_of (by decide) (by decide +kernel) (by decide +kernel)
  · rw [hyv]; decide +kernel
  · rw [hyv]; decide +kernel
  · decide

/-- Everything that is passed on in answer to CONNECT, in whatever spelling, has the declared length 0. -/
theorem connect_zero {x : Setup K} {s : St} (h : x.Reaches s) {y : Sent} (hy : y ∈ s.sent)
    (hcm : toUpper x.rq.method = "CONNECT".toList) (hpass : y.header "Content-Length".toList ≠ []) :
    y.header "Content-Length".toList = ["0".toList] := by
  rcases length_of_reaches h hy with ⟨code, msg, e⟩ | ⟨-, ⟨-, hz⟩ | ⟨hn, -⟩⟩
  · exact absurd (by rw [e]; exact json_cl _ _ _) hpass
  · exact hz
  · exact absurd (.inr (.inr hcm)) hn

/-- C154 fails for every body that is passed on in answer to CONNECT, in whatever spelling: whatever the client reads does
not say that the connection ends, and it ends. No byte of the body is read. -/
theorem C154_violated_connect_always (x : Setup K) (s : St) (h : x.Reaches s) (y : Sent) (hy : y ∈ s.sent)
    (hcut : NamesCut s) (hcm : toUpper x.rq.method = "CONNECT".toList) (hown : OwnRefuses x y) (c : ReplyConn)
    (hc : ConnOf x c) (keys : List Str) (he : Enumerates keys y.header) (more : Str) (m : HttpResponse) (rest : Str)
    (hr : ReadsResponse x.rq.method (writeResponse c keys y ++ more) m rest)
    (hmore : UntilEnd x.rq.method m → more = [])
    (hq : ∀ r, Recv s r → ∀ p ∈ r.header, canon p.1 ≠ "Connection".toList)
    (hpass : y.header "Content-Length".toList ≠ []) (hs : 200 ≤ y.status ∧ y.status ≠ 204 ∧ y.status ≠ 304)
    (hb : y.body ≠ []) (hver : c.version = .v11) (hmay : ¬ MayEnd c) :
    endsAfter c y = true ∧ ¬ SaysClose m ∧ m.body = [] := by
  have hmod : c.modern = true := by unfold ReplyConn.modern; rw [hver]; rfl
  have hm : toUpper x.rq.method = "HEAD".toList → x.rq.method = "HEAD".toList := fun h => by
    rw [hcm] at h; exact absurd h (by decide)
  have hne : c.method ≠ "HEAD".toList := fun h => by
    rw [← hc.method, h] at hcm; exact absurd hcm (by decide)
  have hz := connect_zero h hy hcm hpass
  have hd : declaredLength y.header = some 0 := by
    unfold declaredLength
    rw [get_cl, hz]
    decide
  have hba : bodyAllowed y.status = true := by
    unfold bodyAllowed
    simp only [Bool.and_eq_true, Bool.not_eq_true', Bool.and_eq_false_iff, decide_eq_false_iff_not, decide_eq_true_eq]
    omega
  have hpos : 0 < y.body.length := List.length_pos_iff.2 hb
  have hw : wroteOther c y = true := by
    unfold wroteOther
    rw [hd]
    show (decide _ && _ && decide (0 ≠ y.body.length)) = true
    rw [decide_eq_true hne, hba, decide_eq_true (by omega)]
    rfl
  have hn : y.header "Connection".toList = [] := by
    cases hv : y.header "Connection".toList with
    | nil => rfl
    | cons v vs =>
      rcases header_from h hy (k := "Connection".toList) (v := v) (by rw [hv]; exact .head _) with hg | ⟨-, r, h1, p, h2, h3, -⟩
      · exact absurd hg (by decide)
      · exact absurd h3 (hq r h1 p h2)
  obtain ⟨h0, h1, h2⟩ := values_connection (c := c) hn
  obtain ⟨e, -, hv⟩ := read_values h hy hcut hm hown hc he hr hmore "Connection".toList (by decide)
  refine ⟨by unfold endsAfter; rw [hw, Bool.or_true], ?_, ?_⟩
  · have hk10 : keeps10 c y = false := by unfold keeps10; rw [hver]; rfl
    have hvs : m.version = "HTTP/1.1".toList := by
      rw [e]
      show (if c.modern then _ else _) = _
      rw [hmod, if_pos rfl]
    rw [show canon "Connection".toList = "Connection".toList by decide,
      show toLower "Connection".toList = "connection".toList by decide, h2, h1, h0, hmod, hk10] at hv
    unfold MayEnd at hmay
    rw [hver] at hmay
    unfold SaysClose
    rw [hv, hvs]
    revert hmay
    cases c.closing <;> cases c.broken <;> cases c.unread <;> cases c.keepAlives <;> decide +kernel
  · rw [e]
    show (if c.method = "HEAD".toList then [] else bodyText (handedOver y)) = []
    rw [if_neg hne]
    unfold handedOver
    rw [hba, hd, if_pos rfl]
    show bodyText (if 0 < y.body.length then [] else y.body) = []
    rw [if_pos hpos]
    rfl

/-- C155 leaves out RFC 7230 3.3.2: "A server MUST NOT send a Content-Length header field in any 2xx response to a CONNECT
request". Whatever a client reads of a 2xx response that is passed on, it has one (unless the status is 204). -/
theorem C155_violated_connect_always (x : Setup K) (s : St) (h : x.Reaches s) (y : Sent) (hy : y ∈ s.sent)
    (hcut : NamesCut s) (hcm : x.rq.method = "CONNECT".toList) (c : ReplyConn)
    (hc : ConnOf x c) (keys : List Str) (he : Enumerates keys y.header) (more : Str) (m : HttpResponse) (rest : Str)
    (hr : ReadsResponse x.rq.method (writeResponse c keys y ++ more) m rest)
    (hmore : UntilEnd x.rq.method m → more = [])
    (hpass : y.header "Content-Length".toList ≠ []) (hs : 200 ≤ y.status ∧ y.status < 300 ∧ y.status ≠ 204) :
    fieldValues m.fields "content-length".toList = ["0".toList] := by
  have hm : toUpper x.rq.method = "HEAD".toList → x.rq.method = "HEAD".toList := fun h => by
    rw [hcm] at h; exact absurd h (by decide)
  have hz := connect_zero h hy (by rw [hcm]; decide) hpass
  have hba : bodyAllowed y.status = true := by
    unfold bodyAllowed
    simp only [Bool.and_eq_true, Bool.not_eq_true', Bool.and_eq_false_iff, decide_eq_false_iff_not, decide_eq_true_eq]
    omega
  have hd : declaredLength y.header = some 0 := by
    unfold declaredLength
    rw [get_cl, hz]
    decide
  obtain ⟨-, -, hcl⟩ := read_values h hy hcut hm (fun _ e => absurd e hpass) hc he hr hmore "Content-Length".toList (by decide)
  rw [show canon "Content-Length".toList = "Content-Length".toList by decide,
    show toLower "Content-Length".toList = "content-length".toList by decide, values_cl, hz] at hcl
  have hk : chunking c y = false := chunking_known (by
    unfold lengthKnown; rw [hd]; simp only [Option.isSome_some, Bool.or_true, Bool.true_or])
  have ho : ownLength c y = none := by
    unfold ownLength
    rw [if_neg]
    rw [get_cl, hz]
    exact fun h => absurd h.2.2.2.1 (by decide)
  rw [hcl, hk, ho, hba]
  decide

/-- A request to open a tunnel. -/
def Demo.tunnelSetup : Setup Nat :=
  { Demo.setup with rq := { Demo.request with method := "CONNECT".toList } }

def Demo.tunnelConn : ReplyConn := { Demo.conn with method := "CONNECT".toList }

def Demo.okKeys : List Str := ["Content-Encoding", "Content-Length", "Server", "X", "X-Request-Id"].map String.toList

/-- Both happen: the upstream's answer of two bytes to CONNECT is announced with a length, its bytes are lost, and the
connection ends without a word. -/
theorem C154_violated_connect : ∃ s y, Demo.tunnelSetup.ReachesOrderly s ∧ s.pc = .done ∧ s.sent = [y] ∧
    ConnOf Demo.tunnelSetup Demo.tunnelConn ∧ Enumerates Demo.okKeys y.header ∧ y.body ≠ [] ∧
    writeResponse Demo.tunnelConn Demo.okKeys y =
      ("HTTP/1.1 200 OK\r\nContent-Encoding: identity\r\nContent-Length: 0\r\nServer: j8a v1 abc\r\nX: ok\r\n" ++
      "X-Request-Id: XR-abc-u\r\nDate: Mon, 16 Nov 2026 10:00:00 GMT\r\n\r\n").toList ∧
    endsAfter Demo.tunnelConn y = true ∧ ¬ MayEnd Demo.tunnelConn := by
  obtain ⟨s, hs, hp⟩ := Demo.of_check (x := Demo.tunnelSetup) (as := Demo.success Demo.ok)
    (p := fun s => (Demo.seen s).finished && s.curA.vResp == some Demo.ok && s.sent.map Sent.status == [200])
    (by decide +kernel)
  simp only [Bool.and_eq_true, beq_iff_eq] at hp
  obtain ⟨⟨h1, h2⟩, h3⟩ := hp
  obtain ⟨y, hy, h4⟩ := Demo.one_of_map h3
  have ho := Demo.orderly_success hs
  have hd := Demo.done_of_seen h1
  obtain ⟨r0, u, l, hdec⟩ : ∃ r u l, Demo.tunnelSetup.dec = .forward r u l :=
    ⟨Demo.route, Demo.url, "default".toList, by decide +kernel⟩
  obtain ⟨v, hv, hyv, -⟩ := C37_partial Demo.tunnelSetup s ho hdec hd y (by rw [hy]; simp) (by rw [h4]; decide)
  rw [h2] at hv
  cases hv
  refine ⟨s, y, ho, hd, hy, ⟨rfl, Demo.conn_of.text⟩, ?_, ?_, ?_, ?_, by decide⟩
  · rw [hyv]; exact enumerates_of (by decide) (by decide +kernel) (by decide +kernel)
  · rw [hyv]; decide +kernel
  · rw [hyv]; decide +kernel
  · rw [hyv]; decide +kernel

end J8a

import Verif.Props.Wish
/-!
# C172: switches to another protocol

Also part of C154: the end of a connection is announced whatever an upstream says about its own.
-/
namespace J8a
open Go

variable {K : Type}

/-- RFC 7230 6.7: the client is told that the connection switches to another protocol. -/
def SaysSwitch (m : HttpResponse) : Prop :=
  m.status = 101 ∧ fieldValues m.fields "upgrade".toList ≠ [] ∧
    "upgrade".toList ∈ connectionOptions (fieldValues m.fields "connection".toList)

/-- The gateway is told so by an upstream. -/
def UpResp.SaysSwitch (v : UpResp) : Prop :=
  v.status = 101 ∧ v.header.values "Upgrade".toList ≠ [] ∧
    "upgrade".toList ∈ connectionOptions (v.header.values "Connection".toList)

theorem options_trim (vs : List Str) : connectionOptions (vs.map trimOws) = connectionOptions vs := by
  unfold connectionOptions
  rw [List.flatMap_map]
  congr 1
  funext v
  have := congrArg (List.map toLower) (split_trim v)
  rw [List.map_map, List.map_map] at this
  exact this

theorem options_append (a b : List Str) : connectionOptions (a ++ b) = connectionOptions a ++ connectionOptions b :=
  List.flatMap_append

/-- What is written as Connection. -/
theorem conn_values (c : ReplyConn) (y : Sent) : respValues c y "Connection".toList =
    (if dropsConnection c y then [] else (y.header "Connection".toList).map fun v => trimString (newlineToSpace v)) ++
      (ownConnection c y).toList := by
  have hex : "Connection".toList ∈ respExclude c y ↔ dropsConnection c y = true := by
    unfold respExclude
    simp only [List.mem_append]
    constructor
    · rintro ((h | h) | h)
      · split at h
        · cases h
        · unfold suppressedHeaders at h
          split at h <;> exact absurd h (by decide)
      · split at h
        · exact absurd h (by decide)
        · cases h
      · split at h
        · assumption
        · cases h
    · intro h
      exact .inr (by rw [if_pos h]; exact List.mem_singleton.2 rfl)
  unfold respValues
  rw [extra_values, if_neg (c := "Date".toList = _ ∧ _) (fun h => absurd h.1 (by decide)),
    if_neg (c := "Content-Length".toList = _) (by decide),
    if_neg (c := "Content-Type".toList = _ ∧ _) (fun h => absurd h.1 (by decide)),
    if_neg (c := "Transfer-Encoding".toList = _ ∧ _) (fun h => absurd h.1 (by decide)), if_pos (c := "Connection".toList = _) rfl]
  simp only [List.nil_append, List.append_nil]
  by_cases h : dropsConnection c y = true
  · rw [if_pos (hex.2 h), if_pos h]
  · rw [if_neg (fun h' => h (hex.1 h')), if_neg h]

/-- What is written as Upgrade. -/
theorem upgrade_values (c : ReplyConn) (y : Sent) : respValues c y "Upgrade".toList =
    (y.header "Upgrade".toList).map fun v => trimString (newlineToSpace v) := by
  unfold respValues
  rw [extra_values, if_neg (c := "Date".toList = _ ∧ _) (fun h => absurd h.1 (by decide)),
    if_neg (c := "Content-Length".toList = _) (by decide),
    if_neg (c := "Content-Type".toList = _ ∧ _) (fun h => absurd h.1 (by decide)),
    if_neg (c := "Transfer-Encoding".toList = _ ∧ _) (fun h => absurd h.1 (by decide)),
    if_neg (c := "Connection".toList = _) (by decide), if_neg]
  · simp only [List.append_nil]
  · intro h
    unfold respExclude at h
    simp only [List.mem_append] at h
    rcases h with (h | h) | h
    · split at h
      · cases h
      · unfold suppressedHeaders at h
        split at h <;> revert h <;> decide
    · split at h
      · revert h; decide
      · cases h
    · split at h
      · revert h; decide
      · cases h

theorem map_trim {vs : List Str} (h : ∀ v ∈ vs, FieldText v) :
    (vs.map fun v => trimString (newlineToSpace v)).map trimOws = vs.map trimOws := by
  rw [List.map_map]
  exact List.map_congr_left fun v hv => trim_text (h v hv)

/-! ## C154: the end is announced -/

/-- C154, part: a client with HTTP/1.1 whose connection ends after the response is told so, whatever Connection headers
upstreams send, for every schedule; unless it is told that the connection switches to another protocol. Missing: that it is
told only then, which does not hold, see C154_violated; clients with HTTP/1.0, see C154_violated_old_always; Connection
headers of upstreams that are no lists of tokens. -/
theorem C154_said_partial (x : Setup K) (s : St) (h : x.Reaches s) (y : Sent) (hy : y ∈ s.sent) (hcut : NamesCut s)
    (hm : toUpper x.rq.method = "HEAD".toList → x.rq.method = "HEAD".toList)
    (hcon : toUpper x.rq.method ≠ "CONNECT".toList) (c : ReplyConn) (hc : ConnOf x c) (keys : List Str)
    (he : Enumerates keys y.header) (more : Str) (m : HttpResponse) (rest : Str)
    (hr : ReadsResponse x.rq.method (writeResponse c keys y ++ more) m rest)
    (hmore : UntilEnd x.rq.method m → more = []) (hlen : (y.body.length : Int) ≤ maxInt64)
    (hq : ∀ r, Recv s r → ∀ p ∈ r.header, canon p.1 = "Connection".toList → ∀ v ∈ p.2, FieldText v ∧ OptionsPlain [v])
    (hsw : y.status ≠ 101 ∨ y.header "Upgrade".toList = []) (hv : c.version = .v11) (hend : endsAfter c y = true) :
    SaysClose m := by
  have hcon' : OwnRefuses x y := fun e => absurd (by rw [e]; decide) hcon
  have hca : closesAfter c y = true := by
    unfold endsAfter at hend
    rw [wrote_declared h hy hm hcon hc.method hlen, Bool.or_false] at hend
    exact hend
  obtain ⟨-, -, hval⟩ := read_values h hy hcut hm hcon' hc he hr hmore "Connection".toList (by decide)
  rw [show canon "Connection".toList = "Connection".toList by decide,
    show toLower "Connection".toList = "connection".toList by decide, conn_values, List.map_append] at hval
  have hmod : c.modern = true := by unfold ReplyConn.modern; rw [hv]; rfl
  have hns : switchesProtocol y = false := by
    unfold switchesProtocol
    rcases hsw with hsw | hsw
    · rw [decide_eq_false hsw, Bool.false_and, Bool.false_and]
    · have : y.header.get "Upgrade".toList = [] := by
        unfold Hdr.get
        rw [show canon "Upgrade".toList = "Upgrade".toList by decide, hsw]
        rfl
      rw [this, show decide (([] : Str) ≠ []) = false by decide, Bool.and_false, Bool.false_and]
  refine .inl ?_
  rw [hval, options_append]
  have hfrom : ∀ v ∈ y.header "Connection".toList, FieldText v ∧ OptionsPlain [v] := by
    intro v hv
    rcases header_from h hy hv with hg | ⟨-, r, h1, p, h2, h3, h4⟩
    · exact absurd hg (by decide)
    · exact hq r h1 p h2 h3 v h4
  by_cases hd : dropsConnection c y = true
  · refine List.mem_append_right _ ?_
    have : ownConnection c y = some "close".toList := by
      unfold ownConnection
      rw [if_pos (by rw [hd, hmod, Bool.and_self, Bool.or_true])]
    rw [this]
    decide +kernel
  · refine List.mem_append_left _ ?_
    rw [if_neg hd, map_trim fun v hv => (hfrom v hv).1, options_trim]
    unfold dropsConnection at hd
    rw [hca, hns] at hd
    simp only [Bool.true_and, Bool.not_false, Bool.and_true, Bool.or_eq_true, not_or, Bool.not_eq_true',
      Bool.not_eq_false] at hd
    have hg : y.header.get "Connection".toList = (y.header "Connection".toList).headD [] := by
      unfold Hdr.get
      rw [show canon "Connection".toList = "Connection".toList by decide]
    rw [hg] at hd
    refine first_token (by decide) (by decide) (boundary_letters (by decide)) ?_ hd.2.2
    intro o ho
    obtain ⟨v, hv, ho⟩ := List.mem_flatMap.1 ho
    exact (hfrom v hv).2 o (List.mem_flatMap.2 ⟨v, List.mem_singleton.2 rfl, ho⟩)

/-! ## C172 -/

/-- The values that an upstream sends under a name that the gateway leaves alone. -/
theorem proxied_values {x : Setup K} {v : UpResp} {y : Sent} (h : Proxied x v y) :
    y.header "Connection".toList = v.header.values "Connection".toList ∧
      y.header "Upgrade".toList = v.header.values "Upgrade".toList :=
  ⟨h.upstream _ (by decide) (by decide), h.upstream _ (by decide) (by decide)⟩

theorem clean_values {v : UpResp} (h : v.Clean) (k : Str) : ∀ w ∈ v.header.values k, FieldText w := by
  intro w hw
  obtain ⟨p, hp, hwp⟩ := values_mem hw
  exact (h p hp).2 w hwp

/-- C172, part: a client is told of a switch only if the last upstream that was asked said so. Full statement: never,
because the gateway does not switch. Missing: upstreams that say so, see C172_violated_always. -/
theorem C172_partial (x : Setup K) (s : St) (h : x.ReachesOrderly s) {r : Route} {u : URL} {l : Str}
    (hd : x.dec = .forward r u l) (hf : s.pc = .done) (y : Sent) (hy : y ∈ s.sent) (hcut : NamesCut s)
    (hm : toUpper x.rq.method = "HEAD".toList → x.rq.method = "HEAD".toList) (c : ReplyConn) (hc : ConnOf x c)
    (keys : List Str) (he : Enumerates keys y.header)
    (hcl : ∀ v, s.curA.vResp = some v → v.header.WF ∧ v.Clean) (m : HttpResponse) (more rest : Str)
    (hr : ReadsResponse x.rq.method (writeResponse c keys y ++ more) m rest) (hmore : UntilEnd x.rq.method m → more = [])
    (hsays : SaysSwitch m) : ∃ v, s.curA.vResp = some v ∧ v.SaysSwitch := by
  have hr0 : x.Reaches s := h.imp fun _ h => h.1
  have hcon := own_refuses h hd hf hy
  obtain ⟨e, -, h1⟩ := read_values hr0 hy hcut hm hcon hc he hr hmore "Connection".toList (by decide)
  obtain ⟨-, -, h2⟩ := read_values hr0 hy hcut hm hcon hc he hr hmore "Upgrade".toList (by decide)
  obtain ⟨g1, g2, g3⟩ := hsays
  have hst : y.status = 101 := by
    have h0 : y.status.toNat = 101 := by rw [e] at g1; exact g1
    omega
  obtain ⟨v, hv, hyv, hpr⟩ := C37_partial x s h hd hf y hy (by rw [hst]; decide)
  obtain ⟨hw, hcl⟩ := hcl v hv
  obtain ⟨p1, p2⟩ := proxied_values (hpr hw)
  rw [show canon "Connection".toList = "Connection".toList by decide,
    show toLower "Connection".toList = "connection".toList by decide, conn_values, List.map_append] at h1
  rw [show canon "Upgrade".toList = "Upgrade".toList by decide,
    show toLower "Upgrade".toList = "upgrade".toList by decide, upgrade_values, p2] at h2
  refine ⟨v, hv, by rw [← (hpr hw).status]; exact hst, fun h0 => g2 (by rw [h2, h0]; rfl), ?_⟩
  rw [h1, options_append, List.mem_append] at g3
  rcases g3 with g3 | g3
  · split at g3
    · cases g3
    · rw [p1, map_trim (clean_values hcl _), options_trim] at g3
      exact g3
  · exfalso
    have key : ownConnection c y = some "close".toList ∨ ownConnection c y = some "keep-alive".toList ∨
        ownConnection c y = none := by
      unfold ownConnection
      split
      · exact .inl rfl
      · split
        · exact .inr (.inl rfl)
        · exact .inr (.inr rfl)
    rcases key with k | k | k <;> rw [k] at g3 <;> revert g3 <;> decide +kernel

/-- C172 fails for every upstream that switches: whatever the client's connection is like (unless a body is left to be
read), the client is told that it has switched, to the protocol that the upstream named. What the upstream sent in that
protocol is not passed on, and the connection goes on with HTTP unless there is a reason to end it. -/
theorem C172_violated_always (x : Setup K) (s : St) (h : x.ReachesOrderly s) {r : Route} {u : URL} {l : Str}
    (hd : x.dec = .forward r u l) (hf : s.pc = .done) (y : Sent) (hy : y ∈ s.sent) (hcut : NamesCut s) (hi : TextIds x)
    (hm : toUpper x.rq.method = "HEAD".toList → x.rq.method = "HEAD".toList) (c : ReplyConn) (hc : ConnOf x c)
    (keys : List Str) (he : Enumerates keys y.header) (v : UpResp) (hv : s.curA.vResp = some v) (hw : v.header.WF)
    (hcl : v.Clean) (hsays : v.SaysSwitch) (hup : (v.header.values "Upgrade".toList).head? ≠ some [])
    (hproxied : y.status < 400) (hun : c.unread = false) :
    ∃ m, ReadAs x (writeResponse c keys y) y m ∧ SaysSwitch m ∧ m.body = [] ∧
      fieldValues m.fields "upgrade".toList = (v.header.values "Upgrade".toList).map trimOws ∧
      fieldValues m.fields "connection".toList = (v.header.values "Connection".toList).map trimOws ∧
      (endsAfter c y = true → MayEnd c ∨ (v.header.values "Connection".toList).head? = some "close".toList) := by
  have hr0 : x.Reaches s := h.imp fun _ h => h.1
  have hcon := own_refuses h hd hf hy
  obtain ⟨v', hv', hyv, hpr⟩ := C37_partial x s h hd hf y hy hproxied
  obtain rfl : v = v' := Option.some.inj (hv.symm.trans hv')
  obtain ⟨p1, p2⟩ := proxied_values (hpr hw)
  obtain ⟨g1, g2, g3⟩ := hsays
  have hst : y.status = 101 := by rw [(hpr hw).status]; exact g1
  obtain ⟨m, hread⟩ := C133_clean_partial x s h hd hf y hy hi
    (fun w hw => by rw [hv] at hw; cases hw; exact hcl) hm c hc keys he
  have hr := (hread.only [] fun _ => rfl).1
  obtain ⟨e, -, h1⟩ := read_values hr0 hy hcut hm hcon hc he hr (fun _ => rfl) "Connection".toList (by decide)
  obtain ⟨-, -, h2⟩ := read_values hr0 hy hcut hm hcon hc he hr (fun _ => rfl) "Upgrade".toList (by decide)
  rw [show canon "Connection".toList = "Connection".toList by decide,
    show toLower "Connection".toList = "connection".toList by decide, conn_values, List.map_append] at h1
  rw [show canon "Upgrade".toList = "Upgrade".toList by decide,
    show toLower "Upgrade".toList = "upgrade".toList by decide, upgrade_values, p2, map_trim (clean_values hcl _)] at h2
  have hnb : tooBig c y = false := by unfold tooBig; rw [hun, Bool.false_and]
  have hss : switchesProtocol y = true := by
    unfold switchesProtocol
    rw [hst, p1]
    simp only [decide_true, Bool.true_and, Bool.and_eq_true, decide_eq_true_eq, List.any_eq_true]
    constructor
    · unfold Hdr.get
      rw [show canon "Upgrade".toList = "Upgrade".toList by decide, p2]
      cases hx : v.header.values "Upgrade".toList with
      | nil => exact absurd hx g2
      | cons a b =>
        rw [hx] at hup
        exact fun h0 => hup (congrArg some h0)
    · obtain ⟨w, hw, ho⟩ := List.mem_flatMap.1 g3
      obtain ⟨o, ho, hoe⟩ := List.mem_map.1 ho
      refine ⟨w, hw, hasToken_of_listed (by decide) ho ?_⟩
      unfold equalFold
      rw [hoe, beq_iff_eq]
      decide
  have hdr : dropsConnection c y = false := by
    unfold dropsConnection
    rw [hnb, hss, Bool.not_true, Bool.and_false, Bool.or_false]
  have hne : y.header "Connection".toList ≠ [] := by
    rw [p1]
    intro h0
    rw [h0] at g3
    cases g3
  have hown : ownConnection c y = none := by
    unfold ownConnection
    rw [hnb, hdr, decide_eq_false hne]
    simp
  rw [hdr, hown, if_neg (by decide), p1, map_trim (clean_values hcl _)] at h1
  simp only [Option.toList_none, List.map_nil, List.append_nil] at h1
  refine ⟨m, hread, ⟨?_, ?_, ?_⟩, ?_, h2, h1, ?_⟩
  · rw [e]
    show y.status.toNat = 101
    rw [hst]
    rfl
  · rw [h2]
    simpa using g2
  · rw [h1, options_trim]
    exact g3
  · rw [e]
    show (if c.method = "HEAD".toList then [] else bodyText (handedOver y)) = []
    unfold handedOver
    rw [hst, if_neg (c := bodyAllowed 101 = true) (by decide)]
    split <;> rfl
  · intro hend
    unfold endsAfter closesAfter at hend
    have hwo : wroteOther c y = false := by
      unfold wroteOther
      split
      · rw [hst, show bodyAllowed 101 = false by decide, Bool.and_false, Bool.false_and]
      · rfl
    rw [hnb, hwo, Bool.or_false, Bool.or_false] at hend
    unfold closesEarly at hend
    have hg : y.header.get "Connection".toList = (v.header.values "Connection".toList).headD [] := by
      unfold Hdr.get
      rw [show canon "Connection".toList = "Connection".toList by decide, p1]
    rw [hg] at hend
    simp only [Bool.or_eq_true, decide_eq_true_eq] at hend
    rcases hend with ((hend | hend) | hend) | hend
    · left
      simp only [Bool.and_eq_true, Bool.not_eq_true', Bool.or_eq_true] at hend
      have hk : keeps10 c y = decide (c.version = .v10 true) := by
        unfold keeps10 lengthKnown
        rw [hst, show bodyAllowed 101 = false by decide]
        simp
      rw [hk, decide_eq_false_iff_not] at hend
      rcases hend.2 with h' | h'
      · unfold ReplyConn.modern at h'
        cases hvv : c.version with
        | v11 => rw [hvv] at h'; exact absurd h' (by decide)
        | v10 b =>
          cases b with
          | true => exact absurd hvv hend.1
          | false => exact .inr (.inl hvv)
      · exact .inl ⟨h', hend.1⟩
    · exact .inl (.inr (.inr (.inl hend)))
    · exact .inl (.inr (.inr (.inr (.inr (by simpa using hend)))))
    · right
      cases hx : v.header.values "Connection".toList with
      | nil => rw [hx] at hend; exact absurd hend (by decide)
      | cons a b => rw [hx] at hend; exact congrArg some hend

/-! ## An example, and where it fails -/

/-- An upstream switches to WebSocket and sends a frame. -/
def Demo.socket : UpResp :=
  { status := 101, header := [("Upgrade".toList, ["websocket".toList]), ("Connection".toList, ["Upgrade".toList])],
    body := [0x81, 0x02, 0x68, 0x69] }

def Demo.socketKeys : List Str :=
  ["Connection", "Content-Encoding", "Content-Length", "Server", "Upgrade", "X-Request-Id"].map String.toList

/-- C172 fails: here. The client reads that the connection has switched to WebSocket, the frame of the upstream is gone, and
the connection goes on with HTTP. -/
theorem C172_violated : ∃ s y m, Demo.setup.ReachesOrderly s ∧ s.pc = .done ∧ s.sent = [y] ∧
    s.curA.vResp = some Demo.socket ∧ Demo.socket.SaysSwitch ∧ Enumerates Demo.socketKeys y.header ∧
    writeResponse Demo.conn Demo.socketKeys y = ("HTTP/1.1 101 Switching Protocols\r\nConnection: Upgrade\r\n" ++
      "Content-Encoding: identity\r\nServer: j8a v1 abc\r\nUpgrade: websocket\r\nX-Request-Id: XR-abc-u\r\n" ++
      "Date: Mon, 16 Nov 2026 10:00:00 GMT\r\n\r\n").toList ∧
    ReadAs Demo.setup (writeResponse Demo.conn Demo.socketKeys y) y m ∧ SaysSwitch m ∧ m.body = [] ∧
    endsAfter Demo.conn y = false := by
  obtain ⟨s, h1, h2, h3, h4, h5⟩ := Demo.answered (r := Demo.socket) (by decide) (Demo.of_check (by decide +kernel))
  have hcut : NamesCut s := by
    intro r hr p hp
    rw [h4 r hr] at hp
    exact (by decide : ∀ p ∈ Demo.socket.header, ':' ∉ p.1 ∧ '\n' ∉ p.1) p hp
  have hcl : Demo.socket.Clean := by
    intro p hp
    rcases List.mem_cons.1 hp with rfl | hp
    · refine ⟨token_of_valid (by decide), fun v hv => ?_⟩
      obtain rfl := List.mem_singleton.1 hv
      exact fieldText_lit (s := "websocket".toList) (by decide)
    · obtain rfl := List.mem_singleton.1 hp
      refine ⟨token_of_valid (by decide), fun v hv => ?_⟩
      obtain rfl := List.mem_singleton.1 hv
      exact fieldText_lit (s := "Upgrade".toList) (by decide)
  have hs : Demo.socket.SaysSwitch := ⟨rfl, by decide, by decide +kernel⟩
  obtain ⟨r0, u, l, hdec⟩ : ∃ r u l, Demo.setup.dec = .forward r u l :=
    ⟨Demo.route, Demo.url, "default".toList, by decide +kernel⟩
  have hen : Enumerates Demo.socketKeys (proxiedResponse Demo.setup.respEnv Demo.socket).header :=
    enumerates_of (by decide) (by decide +kernel) (by decide +kernel)
  obtain ⟨m, k1, k2, k3, -⟩ := C172_violated_always Demo.setup s h1 hdec h2 _ (by rw [h5]; exact .head _) hcut Demo.text_ids
    (fun h => absurd h (by decide)) Demo.conn Demo.conn_of Demo.socketKeys hen Demo.socket h3 ⟨by decide, by decide⟩ hcl hs
    (by decide) (by decide) rfl
  exact ⟨s, _, m, h1, h2, h5, h3, hs, hen, by decide +kernel, k1, k2, k3, by decide +kernel⟩

/-- Whatever an upstream says about its connection, the client is told that its own ends. -/
example : (["Upgrade", "keep-alive", "close", "x, CLOSE"].map fun v =>
      let c : ReplyConn := { Demo.conn with closing := true }
      let y := proxiedResponse Demo.setup.respEnv (Demo.connected v)
      (endsAfter c y, (responseFields c Demo.connectedKeys y).filter fun f => f.1 = "Connection".toList)) =
    [(true, [("Connection".toList, "close".toList)]), (true, [("Connection".toList, "close".toList)]),
     (true, [("Connection".toList, "close".toList)]), (true, [("Connection".toList, "x, CLOSE".toList)])] := by
  decide +kernel

end J8a

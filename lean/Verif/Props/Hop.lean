import Verif.Props.Client
/-!
# C86: headers about a connection stay on that connection

RFC 7230 6.1: a proxy removes the header Connection, and every header that Connection names, before it
passes a message on.
-/
namespace J8a
open Go

variable {K : Type}

/-- The headers about one connection (RFC 7230 6.1, RFC 2616 13.5.1, and Proxy-Connection). -/
def connectionHeaders : List Str :=
  ["Connection", "Keep-Alive", "Proxy-Connection", "Te", "Upgrade", "Proxy-Authenticate",
   "Proxy-Authorization", "Trailer", "Transfer-Encoding"].map String.toList

/-- C86, part: whatever request the gateway makes, Trailer and Transfer-Encoding are not passed on to the
upstream, and Content-Length is that of the body sent or absent. -/
theorem C86_framing_partial (q : UpReq) (T : NetLib) (net : WireReq → Option WireResp) (w : WireReq)
    (hs : w ∈ (httpDo T net q).1) :
    w.header "Transfer-Encoding".toList = [] ∧ w.header "Trailer".toList = [] ∧
    (w.header "Content-Length".toList = [] ∨
      w.header "Content-Length".toList = [natToDec w.body.length]) := by
  rw [httpDo_eq, List.mem_singleton] at hs
  rw [hs]
  refine ⟨rfl, rfl, ?_⟩
  have : (wireRequest T q).header "Content-Length".toList = wireLength q := wireLength_credited q
  rw [this]
  unfold wireLength
  split
  · exact .inr rfl
  · exact .inl rfl

/-- C86, part: of the headers a client gets, Transfer-Encoding is never the upstream's, under every
schedule. -/
theorem C86_response_partial (x : Setup K) (s : St) (h : x.Reaches s) (y : Sent) (hy : y ∈ s.sent) :
    y.header "Transfer-Encoding".toList = [] := by
  by_cases hn : y.header "Content-Length".toList = []
  · obtain ⟨code, msg, rfl⟩ := (own_iff h hy).1 hn
    rw [json_header, if_neg (by decide), std_other _ _ (by decide) (by decide) (by decide)]
  · obtain ⟨v, -, hf⟩ := (proxied_parts h hy hn).1
    rw [hf _ (by decide), std_other _ _ (by decide) (by decide) (by decide),
      show shouldProxyHeader "Transfer-Encoding".toList = false by decide]
    rfl

/-- C86 fails for every request: each header about the connection but Trailer and Transfer-Encoding, and
each header named in Connection (unless the gateway or the library sets it), is passed on to the upstream
exactly as the client sent it. -/
theorem C86_violated_always (x : Setup K) (s : St) (h : x.Reaches s) (hw : x.rq.header.WF) (T : NetLib)
    (net : WireReq → Option WireResp) (p : Nat × UpReq) (hp : p ∈ s.calls) (w : WireReq)
    (hs : w ∈ (httpDo T net p.2).1) (k : Str)
    (_hk : k ∈ connectionHeaders ∨ ∃ o ∈ x.rq.header.values "Connection".toList, canon o = k)
    (hn : k ∉ ["Trailer", "Transfer-Encoding", "Content-Length", "Host", "X-Request-Id", "User-Agent",
      "Accept-Encoding", "Authorization"].map String.toList)
    (hd : toLower k ∉ ["date", "content-length", "transfer-encoding", "server"].map String.toList) :
    w.header k = x.rq.header.values k := by
  refine C75_wire_partial x s h hw T net p hp w hs k ?_ hd ?_ ?_ ?_
  · intro hm
    refine hn ?_
    simp only [hopHeaders, List.map_cons, List.map_nil, List.mem_cons, List.not_mem_nil, or_false] at hm
    rcases hm with h | h | h | h | h <;> rw [h] <;> decide
  · intro he
    exact absurd (by rw [he]; decide) hn
  · intro he
    exact absurd (by rw [he]; decide) hn
  · intro he
    exact absurd (by rw [he]; decide) hn

/-- A client that asks its next hop to switch protocols, keeps a header to that hop, and names
both in Connection. -/
def hopRequest : Setup Nat :=
  { Demo.setup with rq := { Demo.request with
      header := [("Connection".toList, ["Upgrade".toList, "x-mine".toList]),
        ("Upgrade".toList, ["websocket".toList]), ("X-Mine".toList, ["secret".toList])] } }

/-- C86 fails, an execution: the upstream gets all of it. -/
theorem C86_violated : ∃ (s : St) (p : Nat × UpReq), hopRequest.Reaches s ∧ p ∈ s.calls ∧
    ∀ T net, ∀ w ∈ (httpDo T net p.2).1,
      w.header "Connection".toList = ["Upgrade".toList, "x-mine".toList] ∧
      w.header "Upgrade".toList = ["websocket".toList] ∧ w.header "X-Mine".toList = ["secret".toList] := by
  obtain ⟨s, h1, h2⟩ := Demo.of_check (x := hopRequest) (as := Demo.success Demo.ok)
    (p := fun s => s.calls.length == 1) (by decide +kernel)
  simp only [beq_iff_eq] at h2
  cases hc : s.calls with
  | nil => rw [hc] at h2; cases h2
  | cons p ps =>
    refine ⟨s, p, Demo.reaches h1, by rw [hc]; exact List.mem_cons_self, ?_⟩
    intro T net w hw
    have hp : p ∈ s.calls := by rw [hc]; exact List.mem_cons_self
    have hwf : hopRequest.rq.header.WF := ⟨by decide, by decide⟩
    refine ⟨?_, ?_, ?_⟩
    · rw [C86_violated_always hopRequest s (Demo.reaches h1) hwf T net p hp w hw _ (.inl (by decide))
        (by decide) (by decide)]
      decide
    · rw [C86_violated_always hopRequest s (Demo.reaches h1) hwf T net p hp w hw _ (.inl (by decide))
        (by decide) (by decide)]
      decide
    · rw [C86_violated_always hopRequest s (Demo.reaches h1) hwf T net p hp w hw _
        (.inr ⟨"x-mine".toList, by decide, by decide⟩) (by decide) (by decide)]
      decide

/-- An upstream that asks the gateway to close their connection and to drop a header. -/
def hopResponse : UpResp :=
  { status := 200,
    header := [("Connection".toList, ["close, x".toList]), ("X".toList, ["internal".toList])],
    body := [104, 105] }

/-- C86 fails towards the client as well: the client receives what was meant for the gateway. -/
theorem C86_violated_response : ∃ (s : St) (y : Sent), Demo.setup.Reaches s ∧ s.pc = .done ∧
    s.sent = [y] ∧ s.curA.vResp = some hopResponse ∧
    y.header "Connection".toList = ["close, x".toList] ∧ y.header "X".toList = ["internal".toList] := by
  obtain ⟨s, h1, h2⟩ := Demo.of_check (x := Demo.setup) (as := Demo.success hopResponse)
    (p := fun s => (Demo.seen s).finished && s.curA.vResp == some hopResponse &&
      s.sent.map (fun y => (y.header "Connection".toList, y.header "X".toList)) ==
        [(["close, x".toList], ["internal".toList])]) (by decide +kernel)
  simp only [Bool.and_eq_true, beq_iff_eq] at h2
  obtain ⟨y, hy, he⟩ := Demo.one_of_map h2.2
  simp only [Prod.mk.injEq] at he
  exact ⟨s, y, Demo.reaches h1, Demo.done_of_seen h2.1.1, hy, h2.1.2, he.1, he.2⟩

end J8a

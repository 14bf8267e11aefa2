import Verif.Props.HubRefuse
import Verif.Props.Refusals
/-!
# C179: clients that are turned away
-/
namespace J8a
open Go Uri

variable {K : Type}

/-- The message presents a token that is in time, and signed with a key that the gateway has had since it was started, unless the
entry asks for no signature. -/
def JwtSettings.PassesMessage (e : JwtSettings) (X : X509 K) (hmacKey : Str → K) (got : Option (List (Jwk K))) (L : Jwx K) (now : Int) (m : HttpRequest) : Prop :=
  ∃ token c skew, m.PresentsToken token ∧ L.parse token = some c ∧
    e.Skew skew ∧ skew * 1000 < now ∧ now ≤ 9000000000000 ∧ c.Present ∧ (L.skipsEpoch = false ∨ c.NotEpoch) ∧
    DatesOk L.nbfStrict skew now c ∧
    (e.alg = "none".toList ∨ (∃ n, L.signatures token = some (n + 1)) ∧
      ∃ key, e.Holds X hmacKey got key ∧ (L.parseVerify e.alg key token).isSome = true)

/-- The document gives a reason to refuse the message with that status. `tooLong` tells lengths from the limit; `fetch` is what
was served at the URLs of the jwt entries when the gateway was started. -/
def Settings.RefusesMessage (t : Settings) (X : X509 K) (hmacKey : Str → K) (fetch : Str → Str → Option (List (Jwk K))) (L : Jwx K) (pick : Policy → Str) (now : Int)
    (tooLong : Int → Int → Prop) (m : HttpRequest) (code : Int) : Prop :=
  (code = 413 ∧ tooLong m.body.length t.bodyLimit) ∨
  (code = 400 ∧ toUpper m.method ∉ proxiedMethods) ∨
  (code = 404 ∧ ∀ r ∈ t.routes, ¬ Selects r.path m.target) ∨
  ∃ r ∈ t.routes, Selects r.path m.target ∧
    (∀ r' ∈ t.routes, Selects r'.path m.target → r'.path.length ≤ r.path.length) ∧
    ((code = 401 ∧ r.jwt ≠ [] ∧ ∃ e, (r.jwt, e) ∈ t.jwt ∧ ¬ e.PassesMessage X hmacKey (fetch r.jwt e.jwksUrl) L now m) ∨
      (code = 503 ∧ ∀ ms, (r.resource, ms) ∈ t.resources →
        r.policy ≠ [] ∧ ∀ srv ∈ ms, pick (t.policy r.policy) ∉ srv.labels))

theorem message_presents {rq : Request} {m : HttpRequest} {token : Str}
    (h : rq.header.values "Authorization".toList = fieldValues m.fields "authorization".toList) (hp : m.PresentsToken token) :
    Presents rq token := by
  obtain ⟨v, h1, scheme, rest, h2, h3⟩ := hp
  rw [← h] at h1
  refine ⟨scheme, rest, ?_, h3⟩
  unfold Entries.get
  rw [show canon "Authorization".toList = "Authorization".toList by decide]
  cases hv : rq.header.values "Authorization".toList with
  | nil => rw [hv] at h1; cases h1
  | cons w ws =>
    rw [hv] at h1
    obtain rfl := Option.some.inj h1
    exact h2

theorem json_of_code {x : Setup K} {s : St} (h : x.Reaches s) (hc : s.calls = []) {y : Sent} (hy : y ∈ s.sent) :
    ∃ msg, y = jsonResponse x.respEnv y.status msg := by
  by_cases hl : y.header "Content-Length".toList = []
  · obtain ⟨code, msg, rfl⟩ := (own_iff h hy).1 hl
    exact ⟨msg, rfl⟩
  · exfalso
    obtain ⟨⟨v, ⟨k, hk, hv⟩, -⟩, -⟩ := proxied_parts h hy hl
    rcases going_or_still h with ⟨r, u, l, hd, -⟩ | ⟨-, hn⟩
    · obtain ⟨as, h⟩ := h
      have := (run_invariant (P := fun s => s.calls = [] → NoCallInv s) (fun s a s' hi hs => NoCallInv.step hi hs)
        (s := initial x.dec) (fun _ => by
          rw [hd]
          refine ⟨?_, trivial, by simp [initial]⟩
          intro k
          simp only [initial]
          split <;> exact ⟨rfl, rfl, rfl⟩) h hc).atmpt k
      rw [this.vResp] at hv
      cases hv
    · have := hn.n
      omega

/-- C179, part: a client sends message `m` to a gateway that was started with the settings `t`, and no upstream was asked when the
answer was sent. Then the client reads one message, without a field of anyone else, and its status is 502 or 504, or the document
gives a reason to refuse `m` with it. Full statement: `tooLong` for lengths above the limit, and without `hp`, `ha`, `hbare` and `hlen`.
Missing: see C163_refuses_partial and C165_delivered_partial. -/
theorem C179_turned_partial (B : Machinery K) (hsrt : IsRouteSort B.srt) (src : Sources) (t : Settings) (hw : src.Write B.yamlToJson t)
    (hp : ∀ r ∈ t.routes, (∃ p, r.path = '/' :: p) ∧ FollowsPath B.E r.path) (served : Str → List (Jwk K) → Prop)
    (x : Setup K) (hx : Running B src served x) (stream rest : Str) (m : HttpRequest) (hr : ReadsIncoming stream m rest)
    (ha : Acceptable m) (hbare : HeadBare m) (hlen : m.body.length < 2 ^ 63) (rest' : Option Str) (hd : Arrives stream x.rq rest')
    (s : St) (h : x.Reaches s) (hc : s.calls = []) (y : Sent) (hy : y ∈ s.sent) (hi : TextIds x)
    (hm : toUpper m.method = "HEAD".toList → m.method = "HEAD".toList) (c : ReplyConn) (hcn : ConnOf x c) (keys : List Str)
    (hk : Enumerates keys y.header) :
    ∃ (m' : HttpResponse) (msg : Str), ReadAs x (writeResponse c keys y) y m' ∧ NothingElse m' ∧
      y = jsonResponse x.respEnv m'.status msg ∧
      (m'.status = 502 ∨ m'.status = 504 ∨
        t.RefusesMessage B.X B.hmacKey B.fetch x.L x.pick x.now (fun n limit => limit ≤ n) m m'.status) := by
  obtain ⟨hwf, -⟩ := C165_sound_partial stream x.rq rest' hd
  obtain ⟨d1, d2, d3, d4, -, d6, -⟩ := C165_delivered_partial stream rest m hr ha hbare hlen x.rq rest' hd
  obtain ⟨msg, hj⟩ := json_of_code h hc hy
  have hres := C163_refuses_partial B hsrt src t hw hp served x hx hwf.length s h hc y hy
  have hown : OwnRefuses x y := by
    intro _ _ h2
    rcases hres with h | h | ⟨h, -⟩ | ⟨h, -⟩ | ⟨h, -⟩ | ⟨r, -, -, -, ⟨h, -⟩ | ⟨h, -⟩⟩ <;> omega
  obtain ⟨m', hm'⟩ := C133_own_partial x s h y hy (by rw [hj]; exact json_cl _ _ _) hi (by rw [d1]; exact hm) hown c hcn keys hk
  refine ⟨m', msg, hm', own_fields (hj ▸ hm'), by rw [hm'.status]; exact hj, ?_⟩
  rw [hm'.status]
  rcases hres with h | h | h
  · exact .inl (by have := hm'.status; omega)
  · exact .inr (.inl (by have := hm'.status; omega))
  refine .inr (.inr ?_)
  rcases h with ⟨h1, h2, h3⟩ | h | h | ⟨r, h1, h2, h3, h4⟩
  · refine .inl ⟨h1, ?_⟩
    rw [← d3, bodyText_length]
    by_cases h0 : 0 ≤ x.rq.contentLength
    · have := hwf.complete h0 d4
      omega
    · omega
  · exact .inr (.inl (by rw [← d1]; exact h))
  · exact .inr (.inr (.inl (by rw [← d2]; exact h)))
  · rw [d2] at h2 h3
    refine .inr (.inr (.inr ⟨r, h1, h2, h3, ?_⟩))
    rcases h4 with ⟨h4, h5, e, h6, h7⟩ | h4
    · refine .inl ⟨h4, h5, e, h6, fun ⟨token, c, skew, g1, g2⟩ => h7 ⟨token, c, skew, ?_, g2⟩⟩
      exact message_presents (d6 "Authorization".toList (by decide) (by decide) (by decide)) g1
    · exact .inr h4

/-! ## An example -/

theorem own_names (e : RespEnv) (code : Int) (msg : Str) : ∃ keys, Enumerates keys (jsonResponse e code msg).header := by
  refine ⟨(["Content-Type", "Server", "Strict-Transport-Security", "X-Request-Id"].map String.toList).filter
    fun k => (jsonResponse e code msg).header k ≠ [], List.Pairwise.sublist List.filter_sublist (by decide), fun k => ?_⟩
  rw [List.mem_filter, decide_eq_true_eq, and_iff_right_iff_imp]
  intro h
  refine Classical.byContradiction fun hn => h ?_
  have ne : ∀ n ∈ ["Content-Type", "Server", "Strict-Transport-Security", "X-Request-Id"].map String.toList, k ≠ n :=
    fun n hm he => hn (he ▸ hm)
  rw [json_header, if_neg (ne _ (by decide)), std_other _ _ (ne _ (by decide)) (ne _ (by decide)) (ne _ (by decide))]

/-- A client asks a gateway started with a document for a target that no path in it begins, and reads 404; the theorem gives the
reason, and the others do not apply. -/
example : ∃ (s : St) (y : Sent) (keys : List Str) (m' : HttpResponse),
    Running (exGateway "/z") { env := "…".toList } (fun _ _ => False) (Demo.written "/z" "/q") ∧
    ReadsIncoming (Demo.tokenText "/q") (Demo.tokenMessage "/q") [] ∧ Arrives (Demo.tokenText "/q") (Demo.written "/z" "/q").rq (some []) ∧
    (Demo.written "/z" "/q").Reaches s ∧ s.calls = [] ∧ y ∈ s.sent ∧ Enumerates keys y.header ∧
    ReadAs (Demo.written "/z" "/q") (writeResponse Demo.conn keys y) y m' ∧ m'.status = 404 ∧
    ∀ r ∈ (exSettings "/z").routes, ¬ Selects r.path "/q".toList := by
  have hread := Demo.token_reads (target := "/q") (by decide) []
  rw [List.append_nil] at hread
  have harr : Arrives (Demo.tokenText "/q") (Demo.written "/z" "/q").rq (some []) :=
    Demo.token_arrives (by decide +kernel) (by decide +kernel)
  have hrun := Demo.written_running (transform := "/z") (target := "/q") (.inl rfl) (fun _ _ => False)
  obtain ⟨s, h1, h2⟩ := Demo.of_check (x := Demo.written "/z" "/q")
    (as := [Demo.go, Demo.go]) (p := fun s => s.calls.isEmpty && s.sent.map (·.status) == [404]) (by decide +kernel)
  simp only [Bool.and_eq_true, beq_iff_eq, List.isEmpty_iff] at h2
  obtain ⟨y, hs, hy⟩ := List.map_eq_singleton_iff.1 h2.2
  have hm : y ∈ s.sent := by rw [hs]; simp
  obtain ⟨msg, hj⟩ := json_of_code (Demo.reaches h1) h2.1 hm
  obtain ⟨keys, hk⟩ : ∃ keys, Enumerates keys y.header := by
    rw [hj]
    exact own_names _ _ _
  obtain ⟨m', msg, g1, -, -, g2⟩ := C179_turned_partial (exGateway "/z") exSort_isSort { env := "…".toList } (exSettings "/z")
    (exGateway_written (.inl rfl)) (exSettings_routes (.inl rfl)) (fun _ _ => False) _ hrun _ _ _ hread
    (Demo.token_acceptable _).1 (Demo.token_acceptable _).2 (by show 0 < 2 ^ 63; decide) _ harr s (Demo.reaches h1) h2.1 y hm
    ⟨Demo.text_ids.id, Demo.text_ids.version, Demo.text_ids.xrid⟩ (fun h => absurd h (by show toUpper "get".toList ≠ _; decide))
    Demo.conn ⟨rfl, Demo.conn_of.text⟩ keys hk
  have h404 : m'.status = 404 := by have := g1.status; omega
  refine ⟨s, y, keys, m', hrun, hread, harr, Demo.reaches h1, h2.1, hm, hk, g1, h404, ?_⟩
  rw [h404] at g2
  rcases g2 with h | h | ⟨h, -⟩ | ⟨h, -⟩ | ⟨-, h⟩ | ⟨r, -, -, -, ⟨h, -⟩ | ⟨h, -⟩⟩
  case inr.inr.inr.inr.inl => exact h
  all_goals exact absurd h (by decide)

/-! ## Where it fails -/

/-- A document with a limit of four bytes. -/
def limitSettings : Settings :=
  { routes := [{ path := "/a".toList, resource := "r".toList }],
    resources := [("r".toList, [{ scheme := "http://".toList, host := "up".toList, port := 80 }])],
    connection := { downstream := { maxBodyBytes := 4 } } }

def limitDocument : JVal :=
  .obj [("routes".toList, .arr [.obj [("path".toList, jstr "/a"), ("resource".toList, jstr "r")]]),
    ("resources".toList, .obj [("r".toList, .arr [.obj [("url".toList, .obj [("scheme".toList, jstr "http://"),
      ("host".toList, jstr "up"), ("port".toList, jnat 80)])]])]),
    ("connection".toList, .obj [("downstream".toList, .obj [("maxBodyBytes".toList, jnat 4)])])]

theorem limitDocument_written : limitSettings.Written limitDocument := by
  refine ⟨_, rfl, by decide, by decide, ?_⟩
  refine List.forall_mem_cons.mpr ⟨.inr ⟨rfl, by decide⟩, ?_⟩
  refine List.forall_mem_cons.mpr ⟨.inl ⟨_, .head _, by decide, _, rfl, .cons ?_ .nil⟩, ?_⟩
  · refine ⟨_, rfl, by decide, by decide, ?_⟩
    refine List.forall_mem_cons.mpr ⟨.inl ⟨_, .head _, by decide, rfl⟩, ?_⟩
    refine List.forall_mem_cons.mpr ⟨.inr ⟨rfl, by decide⟩, ?_⟩
    refine List.forall_mem_cons.mpr ⟨.inl ⟨_, .tail _ (.head _), by decide, rfl⟩, ?_⟩
    refine List.forall_mem_cons.mpr ⟨.inr ⟨rfl, by decide⟩, ?_⟩
    exact List.forall_mem_cons.mpr ⟨.inr ⟨rfl, by decide⟩, fun _ h => nomatch h⟩
  refine List.forall_mem_cons.mpr ⟨.inr ⟨rfl, by decide⟩, ?_⟩
  refine List.forall_mem_cons.mpr ⟨.inl ⟨_, .tail _ (.head _), by decide, by decide, _, rfl,
    .cons ⟨rfl, _, rfl, .cons ?_ .nil⟩ .nil⟩, ?_⟩
  · refine ⟨_, rfl, by decide, by decide, ?_⟩
    refine List.forall_mem_cons.mpr ⟨.inr ⟨rfl, by decide⟩, ?_⟩
    refine List.forall_mem_cons.mpr ⟨.inl ⟨_, .head _, by decide, ?_⟩, fun _ h => nomatch h⟩
    refine ⟨_, rfl, by decide, by decide, ?_⟩
    refine List.forall_mem_cons.mpr ⟨.inl ⟨_, .head _, by decide, rfl⟩, ?_⟩
    refine List.forall_mem_cons.mpr ⟨.inl ⟨_, .tail _ (.head _), by decide, rfl⟩, ?_⟩
    exact List.forall_mem_cons.mpr ⟨.inl ⟨_, .tail _ (.tail _ (.head _)), by decide, ⟨_, rfl⟩, by decide⟩, fun _ h => nomatch h⟩
  refine List.forall_mem_cons.mpr ⟨.inl ⟨_, .tail _ (.tail _ (.head _)), by decide, ?_⟩, fun _ h => nomatch h⟩
  refine ⟨_, rfl, by decide, by decide, ?_⟩
  refine List.forall_mem_cons.mpr ⟨.inl ⟨_, .head _, by decide, ?_⟩, ?_⟩
  · refine ⟨_, rfl, by decide, by decide, ?_⟩
    refine List.forall_mem_cons.mpr ⟨.inr ⟨rfl, by decide⟩, ?_⟩
    refine List.forall_mem_cons.mpr ⟨.inr ⟨rfl, by decide⟩, ?_⟩
    refine List.forall_mem_cons.mpr ⟨.inr ⟨rfl, by decide⟩, ?_⟩
    refine List.forall_mem_cons.mpr ⟨.inl ⟨_, .head _, by decide, ⟨_, rfl⟩, by decide⟩, ?_⟩
    refine List.forall_mem_cons.mpr ⟨.inr ⟨rfl, by decide⟩, ?_⟩
    refine List.forall_mem_cons.mpr ⟨.inr ⟨rfl, by decide⟩, ?_⟩
    refine List.forall_mem_cons.mpr ⟨.inr ⟨rfl, by decide⟩, ?_⟩
    exact List.forall_mem_cons.mpr ⟨.inr ⟨rfl, by decide⟩, fun _ h => nomatch h⟩
  · exact List.forall_mem_cons.mpr ⟨.inr ⟨rfl, by decide⟩, fun _ h => nomatch h⟩

def limitGateway : Machinery Nat := exMachinery limitDocument

/-- A message with a body of exactly four bytes, and its bytes. -/
def Demo.limitMessage : HttpRequest where
  method := "POST".toList
  target := "/a".toList
  fields := [("host".toList, "h".toList), ("content-length".toList, "4".toList)]
  body := "abcd".toList

def Demo.limitText : Str := "POST /a HTTP/1.1\r\nhost: h\r\ncontent-length: 4\r\n\r\nabcd".toList

def Demo.limited : Setup Nat :=
  { Demo.targeted "" "/a" with
    c := (bootFrom limitGateway.yamlToJson literalEngine limitGateway.validate exSort { env := "…".toList }).getD {}
    rq := { method := "POST".toList, requestURI := "/a".toList, uri := "/a".toList,
            header := [("Content-Length".toList, ["4".toList])], contentLength := 4, body := { pieces := ["abcd".toUTF8.toList] } } }

theorem Demo.limit_reads : ReadsIncoming Demo.limitText Demo.limitMessage [] := by
  refine ⟨(⟨by decide, by decide⟩ : Token "POST".toList), (by decide : "/a".toList ≠ [] ∧ ∀ c ∈ "/a".toList, 0x20 < c.toNat ∧ c.toNat ≠ 0x7f), ?_⟩
  refine ⟨[("host".toList ++ ':' :: ([' '] ++ ("h".toList ++ [])), ("host".toList, "h".toList)),
    ("content-length".toList ++ ':' :: ([' '] ++ ("4".toList ++ [])), ("content-length".toList, "4".toList))],
    "abcd".toList, ?_, rfl, ?_, by decide⟩
  · intro l hl
    rcases List.mem_cons.1 hl with rfl | hl
    · exact Demo.line ⟨by decide, by decide⟩ (by decide) (by decide) (by decide)
    · rw [List.mem_singleton.1 hl]
      exact Demo.line ⟨by decide, by decide⟩ (by decide) (by decide) (by decide)
  · exact .sized (v := "4".toList) (body := "abcd".toList) (rest := []) (by decide) (by decide) (by decide) (by decide) (by decide)

theorem Demo.limit_acceptable : Acceptable Demo.limitMessage ∧ HeadBare Demo.limitMessage :=
  ⟨⟨⟨"h".toList, by decide, by decide⟩, .inl (by decide), by
    rw [show fieldValues Demo.limitMessage.fields "trailer".toList = [] by decide]; intro v hv; cases hv⟩, fun h => absurd h (by decide)⟩

theorem Demo.limit_arrives : Arrives Demo.limitText Demo.limited.rq (some []) := by
  have hh : readHead Demo.limitText = some (⟨"POST".toList, "/a".toList, (1, 1), [("Content-Length".toList, ["4".toList])], .sized 4⟩,
    "abcd".toList) := by decide +kernel
  obtain ⟨u, hu⟩ : ∃ u, requestUrl "POST".toList "/a".toList = some u := Option.isSome_iff_exists.1 (by decide +kernel)
  have hu' : (requestUrl "POST".toList "/a".toList).map Url.requestURI = some "/a".toList := by decide +kernel
  refine ⟨_, _, hh, rfl, rfl, ⟨u, hu, ?_⟩, List.Perm.refl _, rfl, by decide +kernel, ?_, by decide +kernel⟩
  · rw [hu] at hu'
    exact (Option.some.inj hu').symm
  · exact ⟨fun _ => ⟨[], by decide +kernel⟩, fun _ => rfl⟩

/-- C179 is violated: the document allows bodies of four bytes, a client sends one with four bytes, and reads 413. -/
theorem C179_violated : ∃ (x : Setup Nat) (m : HttpRequest) (stream : Str) (s : St) (y : Sent) (keys : List Str) (m' : HttpResponse),
    IsRouteSort limitGateway.srt ∧ ({ env := "…".toList } : Sources).Write limitGateway.yamlToJson limitSettings ∧
    (∀ r ∈ limitSettings.routes, (∃ p, r.path = '/' :: p) ∧ FollowsPath limitGateway.E r.path) ∧
    Running limitGateway { env := "…".toList } (fun _ _ => False) x ∧
    ReadsIncoming stream m [] ∧ Acceptable m ∧ HeadBare m ∧ Arrives stream x.rq (some []) ∧ (m.body.length : Int) = limitSettings.bodyLimit ∧
    x.Reaches s ∧ s.calls = [] ∧ y ∈ s.sent ∧ ConnOf x { Demo.conn with method := "POST".toList } ∧ Enumerates keys y.header ∧
    ReadAs x (writeResponse { Demo.conn with method := "POST".toList } keys y) y m' ∧ m'.status = 413 ∧
    ¬ limitSettings.RefusesMessage limitGateway.X limitGateway.hmacKey limitGateway.fetch x.L x.pick x.now (fun n limit => limit < n) m m'.status := by
  have hrun : Running limitGateway { env := "…".toList } (fun _ _ => False) Demo.limited :=
    running_fresh (by decide +kernel) rfl (getD_of_some (d := {}) (by decide +kernel))
  have hroutes : ∀ r ∈ limitSettings.routes, (∃ p, r.path = '/' :: p) ∧ FollowsPath limitGateway.E r.path := by
    intro r hr
    obtain rfl := List.mem_singleton.1 hr
    exact ⟨⟨['a'], rfl⟩, follows_literal literalEngine_law (by decide : Literal "/a".toList)⟩
  have hwrite : ({ env := "…".toList } : Sources).Write limitGateway.yamlToJson limitSettings :=
    ⟨_, _, .env (.inl rfl) (by decide), rfl, limitDocument_written⟩
  obtain ⟨s, h1, h2⟩ := Demo.of_check (x := Demo.limited)
    (as := [Demo.go, Demo.go]) (p := fun s => s.calls.isEmpty && s.sent.map (·.status) == [413]) (by decide +kernel)
  simp only [Bool.and_eq_true, beq_iff_eq, List.isEmpty_iff] at h2
  obtain ⟨y, hs, hy⟩ := List.map_eq_singleton_iff.1 h2.2
  have hm : y ∈ s.sent := by rw [hs]; simp
  obtain ⟨msg, hj⟩ := json_of_code (Demo.reaches h1) h2.1 hm
  obtain ⟨keys, hk⟩ : ∃ keys, Enumerates keys y.header := by
    rw [hj]
    exact own_names _ _ _
  have hconn : ConnOf Demo.limited { Demo.conn with method := "POST".toList } := ⟨rfl, Demo.conn_of.text⟩
  obtain ⟨m', msg, g1, -⟩ := C179_turned_partial limitGateway exSort_isSort { env := "…".toList } limitSettings
    hwrite hroutes (fun _ _ => False) _ hrun _ _ _ Demo.limit_reads
    Demo.limit_acceptable.1 Demo.limit_acceptable.2 (by decide) _ Demo.limit_arrives s (Demo.reaches h1) h2.1 y hm
    ⟨Demo.text_ids.id, Demo.text_ids.version, Demo.text_ids.xrid⟩ (fun h => absurd h (by decide)) _ hconn keys hk
  have h413 : m'.status = 413 := by have := g1.status; omega
  refine ⟨Demo.limited, _, _, s, y, keys, m', exSort_isSort, hwrite, hroutes, hrun, Demo.limit_reads, Demo.limit_acceptable.1,
    Demo.limit_acceptable.2, Demo.limit_arrives, by decide, Demo.reaches h1, h2.1, hm, hconn, hk, g1, h413, ?_⟩
  rw [h413]
  rintro (⟨-, h⟩ | ⟨h, -⟩ | ⟨h, -⟩ | ⟨r, -, -, -, ⟨h, -⟩ | ⟨h, -⟩⟩)
  · exact absurd h (by decide)
  all_goals exact absurd h (by decide)

end J8a

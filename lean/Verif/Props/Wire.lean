import Verif.Lemmas.Credited
import Verif.Lemmas.WireMessage
import Verif.Props.Target
/-!
# C128: the bytes that an upstream receives
-/
namespace J8a
open Go Uri

variable {K : Type}

theorem header_canonical {x : Setup K} {s : St} (h : x.Reaches s) (hw : x.rq.header.WF) {p : Nat × UpReq}
    (hp : p ∈ s.calls) {k : Str} (hk : p.2.header k ≠ []) : canon k = k := by
  by_cases hx : k = "X-Request-Id".toList
  · rw [hx]; decide
  · rw [C34_headers x s h hw p hp k hx] at hk
    split at hk
    · exact absurd rfl hk
    · unfold Entries.values at hk
      cases hl : x.rq.header.lookup k with
      | none => rw [hl] at hk; exact absurd rfl hk
      | some vs =>
        obtain ⟨l1, l2, e, -⟩ := List.lookup_eq_some_iff.1 hl
        exact hw.canonical (k, vs) (by rw [e]; simp)

theorem credited_canonical {x : Setup K} {s : St} (h : x.Reaches s) (hw : x.rq.header.WF) {p : Nat × UpReq}
    (hp : p ∈ s.calls) {k : Str} (hk : (credited p.2).header k ≠ []) : canon k = k := by
  by_cases ha : k = "Authorization".toList
  · rw [ha]; decide
  · rw [credited_header _ ha] at hk
    exact header_canonical h hw hp hk

/-- Names of the headers of an upstream request. -/
def sentNames (rq : Request) : List Str :=
  "X-Request-Id".toList :: (rq.header.filter fun kv =>
    kv.1 ≠ "X-Request-Id".toList ∧ toLower kv.1 ∉ droppedHeaders.map toLower ∧ kv.2 ≠ []).map Prod.fst

/-- There is a list of the names of the header of every upstream request. -/
theorem sentNames_enumerates {x : Setup K} {s : St} (h : x.Reaches s) (hw : x.rq.header.WF) {p : Nat × UpReq}
    (hp : p ∈ s.calls) : Enumerates (sentNames x.rq) p.2.header := by
  constructor
  · unfold sentNames
    rw [List.nodup_cons]
    constructor
    · intro hm
      obtain ⟨kv, hkv, he⟩ := List.mem_map.1 hm
      have := (List.mem_filter.1 hkv).2
      simp only [decide_eq_true_eq] at this
      exact this.1 he
    · exact hw.nodup.sublist (List.filter_sublist.map _)
  · intro k
    by_cases hx : k = "X-Request-Id".toList
    · obtain ⟨r, u, l, -, hq⟩ := calls_of_reaches h hp
      rw [hx, hq]
      refine ⟨fun _ => ?_, fun _ => by simp [sentNames]⟩
      simp only [scaffoldUpstreamRequest, Hdr.set, canon_xRequestID]
      rw [if_pos xRequestID_name]
      simp
    · rw [C34_headers x s h hw p hp k hx]
      unfold sentNames
      constructor
      · intro hm
        rcases List.mem_cons.1 hm with hm | hm
        · exact absurd hm hx
        · obtain ⟨kv, hkv, rfl⟩ := List.mem_map.1 hm
          obtain ⟨h1, h2⟩ := List.mem_filter.1 hkv
          simp only [decide_eq_true_eq] at h2
          rw [if_neg h2.2.1, Entries.lookup_of_mem hw.nodup h1]
          exact h2.2.2
      · intro hv
        split at hv
        · exact absurd rfl hv
        · rename_i hd
          unfold Entries.values at hv
          cases hl : x.rq.header.lookup k with
          | none => rw [hl] at hv; exact absurd rfl hv
          | some vs =>
            rw [hl] at hv
            obtain ⟨l1, l2, e, -⟩ := List.lookup_eq_some_iff.1 hl
            refine List.mem_cons_of_mem _ (List.mem_map.2 ⟨(k, vs), List.mem_filter.2 ⟨by rw [e]; simp, ?_⟩, rfl⟩)
            simp only [decide_eq_true_eq]
            exact ⟨hx, hd, hv⟩

/-- The same with what the client adds. -/
theorem enumerates_credited {keys : List Str} {q : UpReq} (he : Enumerates keys q.header) :
    ∃ keys', Enumerates keys' (credited q).header := by
  by_cases ha : (credited q).header "Authorization".toList ≠ [] ∧ "Authorization".toList ∉ keys
  · refine ⟨"Authorization".toList :: keys, List.nodup_cons.2 ⟨ha.2, he.1⟩, fun k => ?_⟩
    by_cases hk : k = "Authorization".toList
    · rw [hk]
      exact ⟨fun _ => ha.1, fun _ => List.mem_cons_self⟩
    · rw [credited_header _ hk, ← he.2 k, List.mem_cons]
      exact or_iff_right hk
  · refine ⟨keys, he.1, fun k => ?_⟩
    by_cases hk : k = "Authorization".toList
    · rw [hk]
      constructor
      · intro hm
        by_cases h0 : q.header.get "Authorization".toList = []
        · cases hu : (Url.parse q.uri).bind Url.user with
          | none => rw [credited_none hu]; exact (he.2 _).1 hm
          | some np =>
            obtain ⟨n, p⟩ := np
            rw [credited_some hu h0]
            exact List.cons_ne_nil _ _
        · rw [credited_own h0]; exact (he.2 _).1 hm
      · intro hv
        exact Classical.byContradiction fun hn => ha ⟨hv, hn⟩
    · rw [credited_header _ hk]
      exact he.2 k

/-- C128, part: what is written to an upstream, whatever follows it on the connection, is read as exactly one
request: the client's method in upper case, the target of the request line, the Host of the resource, for every
name the values of `wireHeader` (C75) without the white space around them, no transfer coding, and the body. There
is no other way to read it. Missing: targets with a space, see C128_violated_always. -/
theorem C128_read_partial (x : Setup K) (s : St) (h : x.Reaches s) (hw : x.rq.header.WF) (p : Nat × UpReq)
    (hp : p ∈ s.calls) (keys : List Str) (he : Enumerates keys (credited p.2).header) (bytes : Str)
    (hb : writeRequest keys (credited p.2) = some bytes) (t : Str) (ht : wireTarget p.2 = some t) (hne : t ≠ [])
    (hsp : ' ' ∉ t) :
    ∃ m : HttpRequest, m.method = toUpper x.rq.method ∧ m.target = t ∧ m.body = bodyText x.pb.body ∧
      (∃ host, sentHost p.2 = some host ∧ ∀ T : NetLib, T.hostOf p.2.uri = host →
        ∀ k, k.all isTokenChar = true →
          fieldValues m.fields (toLower k) = (wireHeader T (credited p.2) (canon k)).map trimOws) ∧
      (∀ f ∈ m.fields, Token f.1) ∧
      ∀ more, ReadsRequest (bytes ++ more) m more ∧
        ∀ m' rest, ReadsRequest (bytes ++ more) m' rest → m' = m ∧ rest = more := by
  obtain ⟨t', host, ht', hh, hc, hctl, rfl⟩ := writeRequest_some hb
  rw [wireTarget_credited, ht] at ht'
  obtain rfl := Option.some.inj ht'
  have hk : ∀ k ∈ keys, canon k = k := fun k hk => credited_canonical h hw hp ((he.2 k).1 hk)
  have hr := sentMessage_reads hc he hk hh hctl hne hsp
  obtain ⟨r, u, l, -, hq⟩ := calls_of_reaches h hp
  obtain ⟨c1, c2, c3⟩ := credited_same p.2
  refine ⟨sentMessage t host keys (credited p.2), c1.trans (by rw [hq]; rfl), rfl,
    (congrArg bodyText c3).trans (by rw [hq]; rfl),
    ⟨host, by rw [← sentHost_credited]; exact hh,
      fun T hT k htok => sentMessage_values hc he hk hh T (by rw [c2]; exact hT) k htok⟩, ?_, fun more => ⟨hr more, ?_⟩⟩
  · intro f hf
    obtain ⟨g, hg, rfl⟩ := List.mem_map.1 hf
    exact token_of_valid (requestFields_ok hc he hh g hg).1
  · intro m' rest h'
    exact ReadsRequest.unique h' (hr more)

theorem replace1_mem {s old new : Str} {c : Char} (h : c ∈ replace1 s old new) : c ∈ s ∨ c ∈ new := by
  unfold replace1 at h
  split at h
  · exact .inl h
  · simp only [List.mem_append] at h
    rcases h with (h | h) | h
    · exact .inl (List.mem_of_mem_take h)
    · exact .inr h
    · exact .inl (List.mem_of_mem_drop h)

/-- The configuration has no spaces in places where URIs are made from. -/
def NoSpaces (c : Config (Jwt K)) : Prop :=
  (∀ r ∈ c.routes, ' ' ∉ r.transform) ∧
    ∀ name ms, c.resources name = some ms → ∀ m ∈ ms, ' ' ∉ m.url.scheme ∧ ' ' ∉ m.url.host

theorem requestUrl_no_space {m target : Str} {u : Url} (h : requestUrl m target = some u) (hs : ' ' ∉ target) :
    ' ' ∉ u.requestURI := by
  unfold requestUrl at h
  split at h
  · obtain ⟨v, hv, rfl⟩ := Option.map_eq_some_iff.1 h
    have hs' : ' ' ∉ "http://".toList ++ target := by
      intro hm
      rcases List.mem_append.1 hm with hm | hm
      · exact absurd hm (by decide)
      · exact hs hm
    obtain ⟨h1, h2, -⟩ := parseUrl_no_space hs' hv
    exact requestURI_no_space ⟨h1, h2, by simp⟩
  · exact requestURI_no_space (parseUrl_no_space hs h)

/-- The target of a request that came over HTTP/1 has no space. -/
theorem target_no_space {x : Setup K} {s : St} (h : x.Reaches s) (hn : NoSpaces x.c) {u0 : Url}
    (hf : x.rq.From u0) (hs : ' ' ∉ x.rq.requestURI) {p : Nat × UpReq} (hp : p ∈ s.calls) {t : Str}
    (ht : wireTarget p.2 = some t) : ' ' ∉ t := by
  obtain ⟨r, u, l, hd, hq⟩ := calls_of_reaches h hp
  obtain ⟨-, -, hdi, -, hm⟩ := decision_forward hd
  have hmem : r ∈ x.c.routes := List.mem_of_find?_eq_some hdi
  obtain ⟨ms, hms, m, hmm, hmu, -⟩ := C07_mapped_sound _ _ _ _ _ _ hm
  obtain ⟨hsch, hhost⟩ := hn.2 _ _ hms m hmm
  rw [hmu] at hsch hhost
  have huri : ' ' ∉ x.rq.uri := by rw [hf.uri]; exact requestUrl_no_space hf.url hs
  have hstr : ' ' ∉ u.str := by
    unfold URL.str
    intro hm
    simp only [List.mem_append] at hm
    rcases hm with (((hm | hm) | hm) | hm) | hm
    · exact hsch hm
    · exact absurd hm (by decide)
    · exact hhost hm
    · exact absurd hm (by decide)
    · exact absurd (natToDec_isDigit hm) (by decide)
  have hup : ' ' ∉ p.2.uri := by
    rw [hq]
    show ' ' ∉ resolveUpstreamURI u r x.rq.uri
    unfold resolveUpstreamURI
    split
    · intro hm
      rcases List.mem_append.1 hm with hm | hm
      · exact hstr hm
      · rcases replace1_mem hm with hm | hm
        · exact huri hm
        · split at hm
          · simp at hm
          · exact hn.1 r hmem hm
    · intro hm
      rcases List.mem_append.1 hm with hm | hm
      · exact hstr hm
      · exact huri hm
  unfold wireTarget at ht
  obtain ⟨v, hv, rfl⟩ := Option.map_eq_some_iff.1 ht
  have hv' := parseUrl_no_space (fun hm => hup (mem_cutAt_fst hm)) (urlParse_some hv)
  split
  · split
    · exact hv'.2.1
    · cases hsent : sentHost p.2 with
      | none => simp
      | some g => exact fun hm => (sentHost_chars hsent _ hm).2 rfl
  · exact requestURI_no_space hv'

/-- C128, part: a request that came over HTTP/1, that is, through `parseRequestLine`, is written as one request that
is read in one way only, if the configuration has no spaces in schemes, hosts and transforms; CONNECT apart. -/
theorem C128_http1_partial (x : Setup K) (s : St) (h : x.Reaches s) (hw : x.rq.header.WF) (hn : NoSpaces x.c)
    (u0 : Url) (hf : x.rq.From u0) (line proto : Str)
    (hl : parseRequestLine line = some (x.rq.method, x.rq.requestURI, proto))
    (hm : toUpper x.rq.method ≠ "CONNECT".toList) (p : Nat × UpReq) (hp : p ∈ s.calls) (keys : List Str)
    (he : Enumerates keys (credited p.2).header) (bytes : Str) (hb : writeRequest keys (credited p.2) = some bytes) :
    ∃ m : HttpRequest, m.method = toUpper x.rq.method ∧ wireTarget p.2 = some m.target ∧
      m.body = bodyText x.pb.body ∧
      (∃ host, sentHost p.2 = some host ∧ ∀ T : NetLib, T.hostOf p.2.uri = host →
        ∀ k, k.all isTokenChar = true →
          fieldValues m.fields (toLower k) = (wireHeader T (credited p.2) (canon k)).map trimOws) ∧
      ∀ more, ReadsRequest (bytes ++ more) m more ∧
        ∀ m' rest, ReadsRequest (bytes ++ more) m' rest → m' = m ∧ rest = more := by
  obtain ⟨t, -, ht, -⟩ := writeRequest_some hb
  rw [wireTarget_credited] at ht
  have hs : ' ' ∉ x.rq.requestURI := by
    unfold parseRequestLine at hl
    split at hl
    · simp only [Option.some.injEq, Prod.mk.injEq] at hl
      rw [← hl.2.1]
      intro hm
      have := List.all_eq_true.1 (List.all_takeWhile (p := fun c => decide (c ≠ ' '))) _ hm
      simp at this
    · cases hl
  have hmeth : p.2.method ≠ "CONNECT".toList := by
    obtain ⟨r, u, l, -, hq⟩ := calls_of_reaches h hp
    rw [hq]; exact hm
  obtain ⟨m, h1, h2, h3, h4, -, h6⟩ := C128_read_partial x s h hw p hp keys he bytes hb t ht (wireTarget_ne ht hmeth)
    (target_no_space h hn hf hs hp ht)
  exact ⟨m, h1, by rw [ht, h2], h3, h4, h6⟩

/-- C128 fails whenever the target has a space: what is written cannot be read as a request. -/
theorem C128_violated_always (x : Setup K) (s : St) (_ : x.Reaches s) (p : Nat × UpReq) (_ : p ∈ s.calls)
    (keys : List Str) (bytes : Str) (hb : writeRequest keys (credited p.2) = some bytes) (t : Str)
    (ht : wireTarget p.2 = some t) (hsp : ' ' ∈ t) (more : Str) :
    ¬ ∃ m rest, ReadsRequest (bytes ++ more) m rest := by
  obtain ⟨t', host, ht', -, hc, hctl, rfl⟩ := writeRequest_some hb
  rw [wireTarget_credited, ht] at ht'
  obtain rfl := Option.some.inj ht'
  rintro ⟨m, rest, hr⟩
  generalize credited p.2 = q at *
  have e : q.method ++ ' ' :: t ++ " HTTP/1.1\r\n".toList ++
        (requestFields host keys q).flatMap (fun f => f.1 ++ ": ".toList ++ f.2 ++ "\r\n".toList) ++
        "\r\n".toList ++ bodyText q.body ++ more = q.method ++ ' ' :: (t ++ " HTTP/1.1\r\n".toList ++
        ((requestFields host keys q).flatMap (fun f => f.1 ++ ": ".toList ++ f.2 ++ "\r\n".toList) ++
        "\r\n".toList ++ bodyText q.body ++ more)) := by simp only [List.append_assoc, List.cons_append]
  rw [e] at hr
  exact space_unreadable (token_of_valid hc.method) hctl hsp m rest hr

/-- A request with values and a body that look like parts of requests. -/
def Demo.posting : Setup Nat :=
  { Demo.targeted "/z" "/a/b?c=1" with
    rq := { (Demo.targeted "/z" "/a/b?c=1").rq with
      method := "post".toList
      uri := "/a/b?c=1".toList
      header := [("Accept".toList, ["*/*".toList, " text/html\t".toList]), ("X-Y".toList, ["Content-Length: 5".toList])]
      contentLength := 5
      body := { pieces := [[71, 69, 84], [32, 47]] } } }

/-- The hypotheses are satisfiable, and what is written is what one expects. -/
example : ∃ (s : St) (u0 : Url) (p : Nat × UpReq), Demo.posting.Reaches s ∧ Demo.posting.rq.header.WF ∧
    NoSpaces Demo.posting.c ∧ Demo.posting.rq.From u0 ∧
    parseRequestLine "post /a/b?c=1 HTTP/1.1".toList =
      some (Demo.posting.rq.method, Demo.posting.rq.requestURI, "HTTP/1.1".toList) ∧
    p ∈ s.calls ∧ Enumerates (sentNames Demo.posting.rq) (credited p.2).header ∧
    writeRequest (sentNames Demo.posting.rq) (credited p.2) = some ("POST /z/b?c=1 HTTP/1.1\r\nHost: up:80\r\n" ++
      "User-Agent: Go-http-client/1.1\r\nContent-Length: 5\r\nX-Request-Id: XR-abc-u\r\nAccept: */*\r\n" ++
      "Accept: text/html\r\nX-Y: Content-Length: 5\r\nAccept-Encoding: gzip\r\n\r\nGET /").toList := by
  have hw : Demo.posting.rq.header.WF := ⟨by decide, by decide⟩
  have hu : ∃ u, requestUrl "post".toList "/a/b?c=1".toList = some u ∧
      "/a/b?c=1".toList = u.requestURI :=
    ⟨(requestUrl "post".toList "/a/b?c=1".toList).getD { path := [] }, by decide +kernel, by decide +kernel⟩
  obtain ⟨u, hu1, hu2⟩ := hu
  have e1 : Demo.posting.rq.method = "post".toList := rfl
  have e2 : Demo.posting.rq.requestURI = "/a/b?c=1".toList := rfl
  have e3 : Demo.posting.rq.uri = "/a/b?c=1".toList := rfl
  have hfrom : Demo.posting.rq.From u := by
    constructor
    · rw [e1, e2]; exact hu1
    · rw [e3]; exact hu2
  obtain ⟨s, h1, h2⟩ := Demo.of_check (x := Demo.posting) (as := Demo.success Demo.ok)
    (p := fun s => s.calls.map (fun p => ((Url.parse p.2.uri).bind Url.user, writeRequest (sentNames Demo.posting.rq) p.2)) ==
      [(none, some ("POST /z/b?c=1 HTTP/1.1\r\nHost: up:80\r\n" ++
      "User-Agent: Go-http-client/1.1\r\nContent-Length: 5\r\nX-Request-Id: XR-abc-u\r\nAccept: */*\r\n" ++
      "Accept: text/html\r\nX-Y: Content-Length: 5\r\nAccept-Encoding: gzip\r\n\r\nGET /").toList)])
    (by decide +kernel)
  have hr := Demo.reaches h1
  simp only [beq_iff_eq] at h2
  cases hc : s.calls with
  | nil => rw [hc] at h2; cases h2
  | cons p ps =>
    rw [hc] at h2
    simp only [List.map_cons, List.cons.injEq, Prod.mk.injEq] at h2
    have hp : p ∈ s.calls := by rw [hc]; exact List.mem_cons_self
    refine ⟨s, u, p, hr, hw, ⟨?_, ?_⟩, hfrom, by decide +kernel, hp, ?_, ?_⟩
    rotate_left 2
    · rw [credited_none h2.1.1]; exact sentNames_enumerates hr hw hp
    · rw [credited_none h2.1.1]; exact h2.1.2
    · intro r hr
      obtain rfl : r = { Demo.route with transform := "/z".toList } := by
        simpa [Demo.posting, Demo.targeted] using hr
      exact (by decide : ' ' ∉ "/z".toList)
    · intro name ms hms m hm
      simp only [Demo.posting, Demo.targeted, Demo.config] at hms
      split at hms
      · obtain rfl := Option.some.inj hms
        obtain rfl : m = ⟨"r".toList, [], Demo.url⟩ := by simpa using hm
        exact ⟨by decide, by decide⟩
      · cases hms

/-- C128 fails: the target `/a?x y`, which HTTP/2 and `url.ParseRequestURI` allow, is written as it is, and the
upstream receives something that is not a request. -/
theorem C128_violated : ∃ (s : St) (u0 : Url) (p : Nat × UpReq) (bytes : Str),
    (Demo.targeted "" "/a?x y").Reaches s ∧ (Demo.targeted "" "/a?x y").rq.From u0 ∧ p ∈ s.calls ∧
    Enumerates (sentNames (Demo.targeted "" "/a?x y").rq) (credited p.2).header ∧
    writeRequest (sentNames (Demo.targeted "" "/a?x y").rq) (credited p.2) = some bytes ∧
    bytes.take 23 = "GET /a?x y HTTP/1.1\r\nHo".toList ∧
    ∀ more, ¬ ∃ m rest, ReadsRequest (bytes ++ more) m rest := by
  have hw : (Demo.targeted "" "/a?x y").rq.header.WF := ⟨by decide, by decide⟩
  obtain ⟨u, hu⟩ := Demo.targeted_from (transform := "") (target := "/a?x y") (by decide +kernel)
  obtain ⟨s, h1, h2⟩ := Demo.of_check (x := Demo.targeted "" "/a?x y") (as := Demo.success Demo.ok)
    (p := fun s => s.calls.map (fun p => ((writeRequest (sentNames (Demo.targeted "" "/a?x y").rq) p.2).map (·.take 23),
      wireTarget p.2, (Url.parse p.2.uri).bind Url.user)) ==
        [(some "GET /a?x y HTTP/1.1\r\nHo".toList, some "/a?x y".toList, none)])
    (by decide +kernel)
  have hr := Demo.reaches h1
  simp only [beq_iff_eq] at h2
  cases hc : s.calls with
  | nil => rw [hc] at h2; cases h2
  | cons p ps =>
    rw [hc] at h2
    simp only [List.map_cons, List.cons.injEq, Prod.mk.injEq] at h2
    obtain ⟨⟨hb, ht, hu0⟩, -⟩ := h2
    obtain ⟨bytes, hb, hk⟩ := Option.map_eq_some_iff.1 hb
    have hp : p ∈ s.calls := by rw [hc]; exact List.mem_cons_self
    rw [← credited_none hu0] at hb
    exact ⟨s, u, p, bytes, hr, hu, hp, by rw [credited_none hu0]; exact sentNames_enumerates hr hw hp, hb, hk,
      C128_violated_always _ s hr p hp _ bytes hb _ ht (by decide)⟩

end J8a

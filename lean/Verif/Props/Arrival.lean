import Verif.Lemmas.IncomingHead
import Verif.Model.Arrival
import Verif.Props.Wire
/-!
# C165: request messages, from the client's bytes to the upstream's
-/
namespace J8a
open Go Uri

variable {K : Type}

/-! ## What is true of all requests that are read -/

theorem values_fixLength {m : Str} {c : Bool} {fr : Framing} {e e' : Entries} (hf : fixLength m c e = some (fr, e'))
    {k : Str} (hk : k ≠ "Content-Length".toList) : e'.values k = e.values k := by
  unfold fixLength at hf
  simp only at hf
  split at hf
  · cases hf
  · generalize (if (e.values "Content-Length".toList).length > 1 then
      [trimSpace ((e.values "Content-Length".toList).headD [])] else e.values "Content-Length".toList) = one at hf
    have h1 : (if (e.values "Content-Length".toList).length > 1 then
        delKey e "Content-Length" ++ [("Content-Length".toList, one)] else e).values k = e.values k := by
      split
      · rw [values_append_single (delKey_not_mem _ _), if_neg hk, values_delKey, if_neg hk]
      · rfl
    generalize (if (e.values "Content-Length".toList).length > 1 then
      delKey e "Content-Length" ++ [("Content-Length".toList, one)] else e) = e1 at hf h1
    have h2 : (delKey e1 "Content-Length").values k = e.values k := by rw [values_delKey, if_neg hk, h1]
    split at hf
    · split at hf
      · injection hf with hf; injection hf with _ hf; rw [← hf]; exact h1
      · cases hf
    · split at hf
      · injection hf with hf; injection hf with _ hf; rw [← hf]; exact h1
      · split at hf
        · split at hf
          · injection hf with hf; injection hf with _ hf; rw [← hf]; exact h2
          · obtain ⟨n, -, hn⟩ := Option.map_eq_some_iff.1 hf
            injection hn with _ hn; rw [← hn]; exact h1
        · injection hf with hf; injection hf with _ hf; rw [← hf]; exact h2

theorem values_fixTrailer {c : Bool} {e e' : Entries} (hf : fixTrailer c e = some e') {k : Str}
    (hk : k ≠ "Trailer".toList) : e'.values k = e.values k := by
  unfold fixTrailer at hf
  split at hf
  · simp only at hf
    split at hf
    · cases hf
    · injection hf with hf; rw [← hf, values_delKey, if_neg hk]
  · injection hf with hf; rw [← hf]

theorem coding_gone {b c : Bool} {e e' : Entries} (hf : fixCoding b e = some (c, e')) :
    e'.values "Transfer-Encoding".toList = [] := by
  unfold fixCoding at hf
  split at hf
  · simp only at hf
    split at hf
    · injection hf with hf; injection hf with _ hf; rw [← hf, values_delKey, if_pos rfl]
    · split at hf
      · split at hf
        · injection hf with hf; injection hf with _ hf
          rw [← hf, values_delKey, if_neg (by decide), values_delKey, if_pos rfl]
        · cases hf
      · cases hf
  · rename_i h
    injection hf with hf; injection hf with _ hf; rw [← hf]
    unfold Entries.values
    rw [lookup_none_of_not_mem (fun hm => h ((hasKey_iff _ _).2 hm))]
    rfl

theorem bodyText_length (b : Bytes) : (bodyText b).length = b.length := by simp [bodyText]

theorem readBody_length {n : Nat} {s : Str} : (readBody (.sized n) s).1.length ≤ n ∧
    ∀ r, (readBody (.sized n) s).2 = some r → (readBody (.sized n) s).1.length = n := by
  rw [readBody]
  split
  · rename_i h
    simp [h]
  · rename_i h
    constructor
    · simp only; omega
    · intro r hr; cases hr

/-- C165, part: whatever bytes a client sends, a request that gets to the handler has what the other theorems ask of
requests: a header map with canonical names, each a token, and values without control characters; no Host and no
Transfer-Encoding among them; a method that is a token and a target without spaces, which `requestUrl` could parse; a body
with as many bytes as announced if it is complete, and never more. Missing: see C165_wire_partial. -/
theorem C165_sound_partial (stream : Str) (rq : Request) (rest : Option Str) (ha : Arrives stream rq rest) :
    rq.WF ∧ (∃ u, rq.From u) ∧ Token rq.method ∧ ' ' ∉ rq.requestURI ∧
      (∀ kv ∈ rq.header, Token kv.1 ∧ ∀ v ∈ kv.2, validFieldValue v = true) ∧
      rq.header.values "Host".toList = [] ∧ rq.header.values "Transfer-Encoding".toList = [] ∧
      ∃ line proto, parseRequestLine line = some (rq.method, rq.requestURI, proto) := by
  obtain ⟨h, after, hd⟩ := ha
  obtain ⟨first, r1, proto, lines, kvs, c, e1, e2, e3, -, a2, a3, -, -, -, -, a6, a7, a8, hok, -, hhd⟩ := readHead_some hd.head
  have w3 : e3.WF := wf_fixTrailer (wf_fixLength (wf_fixCoding (wf_fixPragma (wf_mimeHeader kvs)) a6) a7) a8
  have wh : h.header.WF := by rw [hhd]; exact wf_delKey w3 _
  have wr : rq.header.WF := ⟨(hd.header.map _).nodup_iff.1 wh.nodup,
    fun kv hkv => wh.canonical kv (hd.header.mem_iff.2 hkv)⟩
  have hlen : (rq.body.bytes.length : Int) = (readBody h.framing after).1.length := by
    rw [← hd.body, bodyText_length]
    rfl
  refine ⟨⟨wr, ?_, ?_, ?_⟩, ?_, ?_, ?_, ?_, ?_, ?_, first, proto, by rw [hd.method, hd.requestURI]; exact a2⟩
  · rw [hd.length]
    cases h.framing <;> simp only [Framing.length] <;> omega
  · intro h0 he
    obtain ⟨r, hr⟩ := hd.ending.1 he
    rw [hlen, hd.length]
    rw [hd.length] at h0
    cases hfr : h.framing with
    | sized n =>
      rw [hfr] at hr
      rw [readBody_length.2 r hr]
      rfl
    | chunked => rw [hfr] at h0; exact absurd h0 (by decide)
    | ignored => rfl
  · intro h0
    rw [hlen, hd.length]
    rw [hd.length] at h0
    cases hfr : h.framing with
    | sized n =>
      have := (readBody_length (n := n) (s := after)).1
      simp only [Framing.length]
      omega
    | chunked => rw [hfr] at h0; exact absurd h0 (by decide)
    | ignored => simp [readBody, Framing.length]
  · obtain ⟨u, hu, hu'⟩ := hd.url
    exact ⟨u, by rw [hd.method, hd.requestURI]; exact hu, hu'⟩
  · rw [hd.method]; exact token_of_valid a3
  · rw [hd.requestURI]
    unfold parseRequestLine at a2
    split at a2
    · simp only [Option.some.injEq, Prod.mk.injEq] at a2
      rw [← a2.2.1]
      intro hm
      have := List.all_eq_true.1 (List.all_takeWhile (p := fun c => decide (c ≠ ' '))) _ hm
      simp at this
    · cases a2
  · intro kv hkv
    have hm : kv ∈ e3 := by
      have := hd.header.mem_iff.2 hkv
      rw [hhd] at this
      exact (List.mem_filter.1 this).1
    unfold headerOk at hok
    simp only [Bool.and_eq_true] at hok
    have := List.all_eq_true.1 hok.2 kv hm
    rw [Bool.and_eq_true] at this
    exact ⟨token_of_valid this.1, fun v hv => List.all_eq_true.1 this.2 v hv⟩
  · rw [← values_perm wh hd.header, hhd, values_delKey, if_pos rfl]
  · rw [← values_perm wh hd.header, hhd, values_delKey, if_neg (by decide), values_fixTrailer a8 (by decide),
      values_fixLength a7 (by decide), coding_gone a6]

/-! ## Well-formed requests -/

/-- C165, part: a request message that is well-formed, has one Host, expects nothing unusual and, with HEAD, has no body, is
delivered as it is, whatever follows it on the connection: method, target, body and, for every name, the values; and the
next request begins where the message ends. Exceptions among the names: Host and Transfer-Encoding, which the library keeps
to itself, Trailer, and Cache-Control, which it adds to `Pragma: no-cache`. -/
theorem C165_delivered_partial (stream rest : Str) (m : HttpRequest) (hr : ReadsIncoming stream m rest) (ha : Acceptable m)
    (hbare : HeadBare m) (hlen : m.body.length < 2 ^ 63) (rq : Request) (rest' : Option Str)
    (hd : Arrives stream rq rest') :
    rq.method = m.method ∧ rq.requestURI = m.target ∧ bodyText rq.body.bytes = m.body ∧ rq.body.ending = .eof ∧
      rest' = some rest ∧
      (∀ k, k.all isTokenChar = true → k ≠ [] → toLower k ∉ ["host", "transfer-encoding", "trailer", "cache-control"].map
        String.toList → rq.header.values (canon k) = fieldValues m.fields (toLower k)) ∧
      rq.header.values "Cache-Control".toList =
        if (fieldValues m.fields "pragma".toList).head? = some "no-cache".toList ∧
          fieldValues m.fields "cache-control".toList = [] then ["no-cache".toList]
        else fieldValues m.fields "cache-control".toList := by
  have hs := C165_sound_partial stream rq rest' hd
  obtain ⟨h, after, hd⟩ := hd
  obtain ⟨h', after', g1, g2, g3, g4, g5, -, -, g8⟩ := readHead_incoming hr ha hbare hlen
  rw [hd.head] at g1
  injection g1 with g1
  injection g1 with g1 g1'
  subst g1 g1'
  have hp := fun k => values_perm hs.1.header hd.header.symm k
  refine ⟨hd.method.trans g2, hd.requestURI.trans g3, ?_, ?_, ?_, ?_, ?_⟩
  · have := hd.body
    rw [g4] at this
    exact this
  · exact hd.ending.2 ⟨rest, by rw [g4]⟩
  · rw [hd.rest, g4]
  · intro k h1 h2 h3
    rw [hp]
    exact g5 k h1 h2 h3
  · rw [hp]
    exact g8

theorem bodyText_bytes {s : Str} (h : ∀ c ∈ s, c.toNat < 256) :
    bodyText (s.map fun c => UInt8.ofNat c.toNat) = s := by
  unfold bodyText
  rw [List.map_map]
  conv => rhs; rw [← List.map_id s]
  apply List.map_congr_left
  intro c hc
  simp only [Function.comp_apply, id_eq]
  have h1 : (UInt8.ofNat c.toNat).toNat = c.toNat := by
    have := h c hc
    simp only [UInt8.toNat_ofNat']
    omega
  rw [h1, Char.ofNat_toNat]

/-- C165, part: such a message does get to the handler, if its target is one that `net/http` can parse. -/
theorem C165_accepted_partial (stream rest : Str) (m : HttpRequest) (hr : ReadsIncoming stream m rest) (ha : Acceptable m)
    (hbare : HeadBare m) (hlen : m.body.length < 2 ^ 63) (hbytes : ∀ c ∈ m.body, c.toNat < 256) (u : Url)
    (hu : requestUrl m.method m.target = some u) : ∃ rq, Arrives stream rq (some rest) := by
  obtain ⟨h, after, g1, g2, g3, g4, -⟩ := readHead_incoming hr ha hbare hlen
  refine ⟨{ method := h.method, requestURI := h.target, uri := u.requestURI, header := h.header,
            contentLength := h.framing.length,
            body := { pieces := [m.body.map fun c => UInt8.ofNat c.toNat] } }, h, after, ?_⟩
  refine ⟨g1, rfl, rfl, ⟨u, by rw [g2, g3]; exact hu, rfl⟩, List.Perm.refl _, rfl, ?_, ?_, by rw [g4]⟩
  · simp only [List.flatten_cons, List.flatten_nil, List.append_nil]
    rw [bodyText_bytes hbytes, g4]
  · exact ⟨fun _ => ⟨rest, by rw [g4]⟩, fun _ => rfl⟩

/-- Fields that the gateway or the library may change on the way to an upstream. -/
def changedFields : List Str :=
  ["host", "transfer-encoding", "trailer", "cache-control", "content-length", "x-request-id", "user-agent",
    "accept-encoding", "date", "server"].map String.toList

theorem trimOws_field {lines : List (Str × (Str × Str))} (h : ∀ l ∈ lines, FieldLine l.1 l.2) (n : Str) :
    (fieldValues (lines.map Prod.snd) n).map trimOws = fieldValues (lines.map Prod.snd) n := by
  conv => rhs; rw [← List.map_id (fieldValues (lines.map Prod.snd) n)]
  apply List.map_congr_left
  intro v hv
  unfold fieldValues at hv
  obtain ⟨f, hf, rfl⟩ := List.mem_map.1 hv
  obtain ⟨l, hl, rfl⟩ := List.mem_map.1 (List.mem_filter.1 hf).1
  have hL := h l hl
  have := trimOws_value (w1 := []) (w2 := []) (v := l.2.2) (by intro c hc; cases hc) (by intro c hc; cases hc) hL.first hL.last
  simpa using this

/-- C165, part: one well-formed message in, one well-formed message out. If the client's bytes begin with message `m`, then
what an upstream receives is read, whatever follows it and in one way only, as a message with the same method (in upper
case), the same body, and the same values of every field but those of `changedFields`, and of Authorization if the client
has none and the URI has a user, see C171. Missing: the fields of that list;
CONNECT; bodies that do not fit; HEAD with a body, see C165_violated; configurations with spaces, see C128_violated. -/
theorem C165_wire_partial (stream rest : Str) (m : HttpRequest) (hr : ReadsIncoming stream m rest) (ha : Acceptable m)
    (hbare : HeadBare m) (hlen : m.body.length < 2 ^ 63) (x : Setup K) (rest' : Option Str)
    (hd : Arrives stream x.rq rest') (hfit : (m.body.length : Int) ≤ x.maxBody) (hn : NoSpaces x.c)
    (hm : toUpper m.method ≠ "CONNECT".toList) (s : St) (h : x.Reaches s) (p : Nat × UpReq) (hp : p ∈ s.calls)
    (keys : List Str) (he : Enumerates keys (credited p.2).header) (bytes : Str)
    (hb : writeRequest keys (credited p.2) = some bytes) :
    ∃ m' : HttpRequest, m'.method = toUpper m.method ∧ m'.body = m.body ∧
      (∀ k, k.all isTokenChar = true → k ≠ [] → toLower k ∉ changedFields →
        (toLower k = "authorization".toList → (∃ v, (fieldValues m.fields "authorization".toList).head? = some v ∧ v ≠ []) ∨
          (Url.parse p.2.uri).bind Url.user = none) →
        fieldValues m'.fields (toLower k) = fieldValues m.fields (toLower k)) ∧
      ∀ more, ReadsRequest (bytes ++ more) m' more ∧
        ∀ m'' r, ReadsRequest (bytes ++ more) m'' r → m'' = m' ∧ r = more := by
  obtain ⟨hw, ⟨u, hf⟩, -, -, -, -, -, line, proto, hl⟩ := C165_sound_partial stream x.rq rest' hd
  obtain ⟨d1, d2, d3, d4, -, d6, -⟩ := C165_delivered_partial stream rest m hr ha hbare hlen x.rq rest' hd
  have hfit' : (x.rq.body.bytes.length : Int) ≤ x.maxBody := by
    have := congrArg List.length d3
    rw [bodyText_length] at this
    rw [this]; exact hfit
  obtain ⟨m', g1, -, g3, ⟨host, -, g4⟩, g5⟩ := C128_http1_partial x s h hw.header hn u hf line proto hl (by rw [d1]; exact hm)
    p hp keys he bytes hb
  have hbody : p.2.body = x.pb.body := by
    obtain ⟨r, v, l, -, hq⟩ := calls_of_reaches h hp
    rw [hq]; rfl
  refine ⟨m', by rw [g1, d1], ?_, ?_, g5⟩
  · rw [g3, ← hbody, C30_forwarded_exactly x s h hw d4 hfit' p hp, d3]
  · intro k hk hne hx hau
    have hc : ∀ n : String, toLower n.toList ∈ changedFields → canon k ≠ n.toList := by
      intro n hn e
      apply hx
      rw [← e, lower_canon] at hn
      exact hn
    have hcr : (credited p.2).header (canon k) = p.2.header (canon k) := by
      by_cases hka : canon k = "Authorization".toList
      · have hl : toLower k = "authorization".toList := by rw [← lower_canon, hka]; decide
        rcases hau hl with ⟨v, hv, hv0⟩ | hu
        · rw [credited_own]
          unfold Hdr.get
          rw [show canon "Authorization".toList = canon k by rw [hka]; decide,
            C34_headers x s h hw.header p hp _ (hc "X-Request-Id" (by decide)), if_neg (by rw [hka]; decide), d6 k hk hne
            (by rw [hl]; decide), hl]
          cases hf : fieldValues m.fields "authorization".toList with
          | nil => rw [hf] at hv; cases hv
          | cons a l =>
            rw [hf] at hv
            obtain rfl : a = v := by simpa using hv
            exact hv0
        · rw [credited_none hu]
      · rw [credited_header _ hka]
    rw [g4 ⟨fun _ _ => none, fun _ => ([], .eof), fun _ => host⟩ rfl k hk]
    unfold wireHeader
    rw [if_neg (hc "Host" (by decide)), if_neg (hc "User-Agent" (by decide)), if_neg (hc "Content-Length" (by decide)),
      if_neg (fun h => h.elim (hc "Transfer-Encoding" (by decide)) (hc "Trailer" (by decide))),
      if_neg (fun h => hc "Accept-Encoding" (by decide) h.1), hcr,
      C34_headers x s h hw.header p hp _ (hc "X-Request-Id" (by decide)), if_neg, d6 k hk hne]
    · obtain ⟨lines, t, hlines, hfl, -⟩ := hr.text
      rw [← hfl]
      exact trimOws_field hlines _
    · intro hm
      apply hx
      generalize toLower k = kk at hm
      simp only [List.map_cons, List.map_nil, List.mem_cons, List.not_mem_nil, or_false] at hm
      rcases hm with rfl | rfl | rfl | rfl <;> decide
    · rw [lower_canon]
      intro hm
      apply hx
      generalize toLower k = kk at hm
      simp only [droppedHeaders, List.map_cons, List.map_nil, List.mem_cons, List.not_mem_nil, or_false] at hm
      rcases hm with rfl | rfl | rfl | rfl <;> decide

/-! ## An example -/

theorem Demo.line {n v : String} (h1 : Token n.toList)
    (h2 : ∀ c ∈ v.toList, c = '\t' ∨ (0x20 ≤ c.toNat ∧ c.toNat ≠ 0x7f))
    (h3 : ∀ c, v.toList.head? = some c → c ≠ ' ' ∧ c ≠ '\t') (h4 : ∀ c, v.toList.getLast? = some c → c ≠ ' ' ∧ c ≠ '\t') :
    FieldLine (n.toList ++ ':' :: ([' '] ++ (v.toList ++ []))) (n.toList, v.toList) :=
  ⟨h1, h2, h3, h4, [' '], [], by intro c hc; exact .inl (List.mem_singleton.1 hc), (by intro c hc; cases hc), rfl⟩

/-- A request whose body comes in two chunks and looks like a request. -/
def Demo.chunky : Setup Nat :=
  { Demo.targeted "/z" "/a/b?c=1" with
    rq := { (Demo.targeted "/z" "/a/b?c=1").rq with
      method := "post".toList
      uri := "/a/b?c=1".toList
      header := [("X-Y".toList, ["Content-Length: 5".toList])]
      contentLength := -1
      body := { pieces := [[71, 69, 84], [32, 47]] } } }

def Demo.chunkyMessage : HttpRequest where
  method := "post".toList
  target := "/a/b?c=1".toList
  fields := [("host".toList, "h:80".toList), ("x-y".toList, "Content-Length: 5".toList),
    ("Transfer-Encoding".toList, "Chunked".toList)]
  body := "GET /".toList

def Demo.chunkyStream : Str :=
  ("post /a/b?c=1 HTTP/1.1\r\nhost: h:80\r\nx-y: Content-Length: 5\r\nTransfer-Encoding: Chunked\r\n\r\n" ++
    "3;a=b\r\nGET\r\n02\r\n /\r\n0\r\nX-Y: z\r\n\r\nPUT").toList

theorem Demo.chunky_reads : ReadsIncoming Demo.chunkyStream Demo.chunkyMessage "PUT".toList := by
  refine ⟨⟨by decide, by decide⟩, ⟨by decide, by decide⟩, ?_⟩
  refine ⟨[("host".toList ++ ':' :: ([' '] ++ ("h:80".toList ++ [])), ("host".toList, "h:80".toList)),
      ("x-y".toList ++ ':' :: ([' '] ++ ("Content-Length: 5".toList ++ [])), ("x-y".toList, "Content-Length: 5".toList)),
      ("Transfer-Encoding".toList ++ ':' :: ([' '] ++ ("Chunked".toList ++ [])),
        ("Transfer-Encoding".toList, "Chunked".toList))],
      "3;a=b\r\nGET\r\n02\r\n /\r\n0\r\nX-Y: z\r\n\r\nPUT".toList, ?_, rfl, ?_, by decide +kernel⟩
  · intro l hl
    rcases List.mem_cons.1 hl with rfl | hl
    · exact Demo.line ⟨by decide, by decide⟩ (by decide) (by decide) (by decide)
    rcases List.mem_cons.1 hl with rfl | hl
    · exact Demo.line ⟨by decide, by decide⟩ (by decide) (by decide) (by decide)
    · rw [List.mem_singleton.1 hl]
      exact Demo.line ⟨by decide, by decide⟩ (by decide) (by decide) (by decide)
  · refine ReqBody.chunked (v := "Chunked".toList) (by decide) (by decide) (by decide) ?_
    have h0 := Chunks.last (zeros := "0".toList) (ext := []) (rest := "PUT".toList)
      (lines := [("X-Y".toList ++ ':' :: ([' '] ++ ("z".toList ++ [])), ("X-Y".toList, "z".toList))])
      (by decide) (by decide) (by decide) (.inl rfl) (by
        intro l hl
        rw [List.mem_singleton.1 hl]
        exact Demo.line ⟨by decide, by decide⟩ (by decide) (by decide) (by decide))
    have h1 := Chunks.chunk (size := "02".toList) (ext := []) (data := " /".toList) (by decide) (by decide) (by decide)
      (.inl rfl) (by decide) (by decide) h0
    have h2 := Chunks.chunk (size := "3".toList) (ext := ";a=b".toList) (data := "GET".toList) (by decide) (by decide)
      (by decide) (.inr ⟨"a=b".toList, by decide, by decide, by decide⟩) (by decide) (by decide) h1
    exact h2

theorem Demo.chunky_acceptable : Acceptable Demo.chunkyMessage ∧ HeadBare Demo.chunkyMessage := by
  refine ⟨⟨⟨"h:80".toList, by decide, by decide⟩, .inl (by decide), ?_⟩, fun h => absurd h (by decide)⟩
  have e : fieldValues Demo.chunkyMessage.fields "trailer".toList = [] := by decide
  rw [e]
  intro v hv
  cases hv

def Demo.chunkyRead : Head × Str :=
  (readHead Demo.chunkyStream).getD (⟨[], [], (0, 0), [], .ignored⟩, [])

theorem Demo.chunky_arrives : Arrives Demo.chunkyStream Demo.chunky.rq (some "PUT".toList) := by
  refine ⟨Demo.chunkyRead.1, Demo.chunkyRead.2, ?_⟩
  have e1 : Demo.chunky.rq.method = "post".toList := rfl
  have e2 : Demo.chunky.rq.requestURI = "/a/b?c=1".toList := rfl
  have e3 : Demo.chunky.rq.uri = "/a/b?c=1".toList := rfl
  have e4 : Demo.chunkyRead.1.method = "post".toList := by decide +kernel
  have e5 : Demo.chunkyRead.1.target = "/a/b?c=1".toList := by decide +kernel
  have hu : ∃ u, requestUrl "post".toList "/a/b?c=1".toList = some u ∧ "/a/b?c=1".toList = u.requestURI :=
    ⟨(requestUrl "post".toList "/a/b?c=1".toList).getD { path := [] }, by decide +kernel, by decide +kernel⟩
  refine ⟨by decide +kernel, e1.trans e4.symm, e2.trans e5.symm, by rw [e3, e4, e5]; exact hu, ?_, by decide +kernel,
    by decide +kernel, ?_, by decide +kernel⟩
  · have : Demo.chunkyRead.1.header = Demo.chunky.rq.header := by decide +kernel
    rw [this]
  · exact ⟨fun _ => ⟨"PUT".toList, by decide +kernel⟩, fun _ => rfl⟩

/-- The hypotheses are satisfiable, and what is written is what one expects. -/
example : ReadsIncoming Demo.chunkyStream Demo.chunkyMessage "PUT".toList ∧ Acceptable Demo.chunkyMessage ∧
    HeadBare Demo.chunkyMessage ∧ Arrives Demo.chunkyStream Demo.chunky.rq (some "PUT".toList) ∧
    (Demo.chunkyMessage.body.length : Int) ≤ Demo.chunky.maxBody ∧ NoSpaces Demo.chunky.c ∧
    ∃ (s : St) (p : Nat × UpReq), Demo.chunky.Reaches s ∧ p ∈ s.calls ∧
      Enumerates (sentNames Demo.chunky.rq) (credited p.2).header ∧
      writeRequest (sentNames Demo.chunky.rq) (credited p.2) = some ("POST /z/b?c=1 HTTP/1.1\r\nHost: up:80\r\n" ++
        "User-Agent: Go-http-client/1.1\r\nContent-Length: 5\r\nX-Request-Id: XR-abc-u\r\n" ++
        "X-Y: Content-Length: 5\r\nAccept-Encoding: gzip\r\n\r\nGET /").toList := by
  have hw : Demo.chunky.rq.header.WF := ⟨by decide, by decide⟩
  obtain ⟨s, h1, h2⟩ := Demo.of_check (x := Demo.chunky) (as := Demo.success Demo.ok)
    (p := fun s => s.calls.map (fun p => ((Url.parse p.2.uri).bind Url.user, writeRequest (sentNames Demo.chunky.rq) p.2)) ==
      [(none, some ("POST /z/b?c=1 HTTP/1.1\r\nHost: up:80\r\n" ++
        "User-Agent: Go-http-client/1.1\r\nContent-Length: 5\r\nX-Request-Id: XR-abc-u\r\n" ++
        "X-Y: Content-Length: 5\r\nAccept-Encoding: gzip\r\n\r\nGET /").toList)])
    (by decide +kernel)
  have hr := Demo.reaches h1
  simp only [beq_iff_eq] at h2
  cases hc : s.calls with
  | nil => rw [hc] at h2; cases h2
  | cons p ps =>
    rw [hc] at h2
    simp only [List.map_cons, List.cons.injEq, Prod.mk.injEq] at h2
    have hp : p ∈ s.calls := by rw [hc]; exact List.mem_cons_self
    refine ⟨Demo.chunky_reads, Demo.chunky_acceptable.1, Demo.chunky_acceptable.2, Demo.chunky_arrives, by decide +kernel,
      ⟨?_, ?_⟩, s, p, hr, hp, by rw [credited_none h2.1.1]; exact sentNames_enumerates hr hw hp,
      by rw [credited_none h2.1.1]; exact h2.1.2⟩
    · intro r hr
      obtain rfl : r = { Demo.route with transform := "/z".toList } := by
        simpa [Demo.chunky, Demo.targeted] using hr
      exact (by decide : ' ' ∉ "/z".toList)
    · intro name ms hms m hm
      simp only [Demo.chunky, Demo.targeted, Demo.config] at hms
      split at hms
      · obtain rfl := Option.some.inj hms
        obtain rfl : m = ⟨"r".toList, [], Demo.url⟩ := by simpa using hm
        exact ⟨by decide, by decide⟩
      · cases hms

/-! ## Where it fails -/

/-- C165 fails for every HEAD with a chunked body: the handler gets a request without one, and what the message has of it is
left on the connection, where it is taken for the next request, which it cannot be: the client gets a second answer, 400, to
its one message, and the connection ends. -/
theorem C165_violated_always (stream rest : Str) (m : HttpRequest) (hr : ReadsIncoming stream m rest) (ha : Acceptable m)
    (hm : m.method = "HEAD".toList) (hte : fieldValues m.fields "transfer-encoding".toList ≠ []) (rq : Request)
    (rest' : Option Str) (hd : Arrives stream rq rest') :
    rq.body.bytes = [] ∧ ∃ s, rest' = some s ∧ Chunks s m.body rest ∧ ∀ rq' r', ¬ Arrives s rq' r' := by
  obtain ⟨h, after, hd⟩ := hd
  obtain ⟨h', after', g1, -, -, g4, g5⟩ := readHead_head hr ha hm hte
  rw [hd.head] at g1
  injection g1 with g1
  injection g1 with g1 g1'
  subst g1 g1'
  have hb := hd.body
  rw [g4, readBody] at hb
  refine ⟨?_, after, by rw [hd.rest, g4, readBody], g5, ?_⟩
  · have := congrArg List.length hb
    rw [bodyText_length] at this
    exact List.length_eq_zero_iff.1 this
  · rintro rq' r' ⟨h2, after2, hd2⟩
    have := hd2.head
    rw [chunks_unreadable g5] at this
    cases this

theorem chunks_ne_nil {s b r : Str} (h : Chunks s b r) : s ≠ [] := by
  cases h with
  | @last zeros _ _ _ hz => cases zeros with
    | nil => exact absurd rfl hz
    | cons => simp
  | @chunk size _ _ _ _ _ hs => cases size with
    | nil => exact absurd rfl hs
    | cons => simp

/-- A HEAD with a body of five bytes. -/
def Demo.headBody : HttpRequest where
  method := "HEAD".toList
  target := "/x".toList
  fields := [("Host".toList, "h".toList), ("Transfer-Encoding".toList, "chunked".toList)]
  body := "hello".toList

def Demo.headStream : Str :=
  "HEAD /x HTTP/1.1\r\nHost: h\r\nTransfer-Encoding: chunked\r\n\r\n5\r\nhello\r\n0\r\n\r\n".toList

/-- C165 fails: here. -/
theorem C165_violated : ∃ (stream rest : Str) (m : HttpRequest) (rq : Request) (s : Str),
    ReadsIncoming stream m rest ∧ Acceptable m ∧ m.body ≠ [] ∧ Arrives stream rq (some s) ∧ s ≠ rest ∧ rq.body.bytes = [] ∧
      ∀ rq' r', ¬ Arrives s rq' r' := by
  have hr : ReadsIncoming Demo.headStream Demo.headBody [] := by
    refine ⟨⟨by decide, by decide⟩, ⟨by decide, by decide⟩, ?_⟩
    refine ⟨[("Host".toList ++ ':' :: ([' '] ++ ("h".toList ++ [])), ("Host".toList, "h".toList)),
      ("Transfer-Encoding".toList ++ ':' :: ([' '] ++ ("chunked".toList ++ [])),
        ("Transfer-Encoding".toList, "chunked".toList))],
      "5\r\nhello\r\n0\r\n\r\n".toList, ?_, rfl, ?_, ?_⟩
    · intro l hl
      rcases List.mem_cons.1 hl with rfl | hl
      · exact Demo.line ⟨by decide, by decide⟩ (by decide) (by decide) (by decide)
      · rw [List.mem_singleton.1 hl]
        exact Demo.line ⟨by decide, by decide⟩ (by decide) (by decide) (by decide)
    · refine ReqBody.chunked (v := "chunked".toList) (by decide) (by decide) (by decide) ?_
      have h0 : Chunks ("0".toList ++ ([] ++ (crlf ++ (([] : List (Str × (Str × Str))).flatMap (fun l => l.1 ++ crlf) ++
          (crlf ++ []))))) [] [] :=
        Chunks.last (by decide) (by decide) (by decide) (.inl rfl) (by intro l hl; cases hl)
      have := Chunks.chunk (size := "5".toList) (ext := []) (data := "hello".toList) (by decide) (by decide) (by decide)
        (.inl rfl) (by decide) (by decide) h0
      exact this
    · decide +kernel
  have ha : Acceptable Demo.headBody := by
    refine ⟨⟨"h".toList, by decide, by decide⟩, .inl (by decide), ?_⟩
    have e : fieldValues Demo.headBody.fields "trailer".toList = [] := by decide
    rw [e]
    intro v hv
    cases hv
  obtain ⟨h, after, g1, -, -, g4, g5⟩ := readHead_head hr ha rfl (by decide)
  have hu : ∃ u, requestUrl h.method h.target = some u := by
    have e : (readHead Demo.headStream).all (fun p => (requestUrl p.1.method p.1.target).isSome) = true := by
      decide +kernel
    rw [g1] at e
    exact Option.isSome_iff_exists.1 e
  obtain ⟨u, hu⟩ := hu
  have arr : Arrives Demo.headStream ⟨h.method, h.target, u.requestURI, h.header, h.framing.length, { pieces := [] }⟩
      (some after) := by
    refine ⟨h, after, g1, rfl, rfl, ⟨u, hu, rfl⟩, List.Perm.refl _, rfl, ?_, ?_, ?_⟩
    · rw [g4]; rfl
    · rw [g4]; exact ⟨fun _ => ⟨after, rfl⟩, fun _ => rfl⟩
    · rw [g4]; rfl
  obtain ⟨v1, s, v2, v3, v4⟩ := C165_violated_always _ _ _ hr ha rfl (by decide) _ _ arr
  injection v2 with v2
  subst v2
  refine ⟨_, _, _, _, after, hr, ha, by decide, arr, ?_, v1, v4⟩
  exact chunks_ne_nil v3

end J8a

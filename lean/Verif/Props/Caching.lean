import Verif.Props.Responses
import Verif.Spec.Caching
/-!
# C129 to C132: parts, validators and caches

The gateway changes the coding of bodies. What follows is about responses whose headers depend on the bytes.
-/
namespace J8a
open Go

variable {K : Type}

/-- The client's Accept-Encoding mentions gzip. -/
def mentionsGzip (rq : Request) : Bool := contains (rq.header.get "Accept-Encoding".toList) "gzip".toList

theorem enc_ne {c : Codec} (hl : c.Lossless) {b : Bytes} (h : hasGzipMagic b = false) : c.enc b ≠ b := by
  intro e
  have := hl.magic b
  rw [e, h] at this
  cases this

/-- When the body is delivered as it came. -/
theorem sentBody_iff {e : RespEnv} (hl : e.codec.Lossless) (v : UpResp) : sentBody e v = v.body ↔
    (v.body = [] ∨ (e.sendGzip = true ↔ hasGzipMagic v.body = true) ∨
      (e.sendGzip = false ∧ hasGzipMagic v.body = true ∧ e.codec.dec v.body = v.body)) := by
  by_cases hb : v.body = []
  · rw [sentBody_empty hb, hb]; simp
  rw [sentBody_some hb]
  cases hg : e.sendGzip <;> cases hz : hasGzipMagic v.body <;> simp [hb]
  exact enc_ne hl hz

/-- What is sent for a response below 400, and its headers. -/
theorem orderly_proxied (x : Setup K) (s : St) (h : x.ReachesOrderly s) {r : Route} {u : URL} {l : Str}
    (hd : x.dec = .forward r u l) (hf : s.pc = .done) {y : Sent} (hy : y ∈ s.sent) (hs : y.status < 400)
    {v : UpResp} (hv : s.curA.vResp = some v) (hw : v.header.WF) :
    y.body = sentBody x.respEnv v ∧ ∀ k, toLower k ∉ droppedHeaders.map toLower →
      k ∉ ["X-Request-Id", "Strict-Transport-Security", "Content-Encoding"].map String.toList →
      y.header k = v.header.values k := by
  obtain ⟨v', hv', rfl, hp⟩ := C37_partial x s h hd hf y hy hs
  rw [hv] at hv'
  cases hv'
  exact ⟨rfl, (hp hw).upstream⟩

theorem natToDec_eq {a b : Nat} (h : natToDec a = natToDec b) : a = b := by
  rw [← digitsVal_natToDec a, h, digitsVal_natToDec]

theorem digits_stop {a b : Nat} {c : Char} {s t : Str} (hc : c.isDigit = false)
    (h : natToDec a ++ c :: s = natToDec b ++ c :: t) : a = b ∧ s = t := by
  have key : ∀ (p q : Str), (∀ d ∈ p, d.isDigit = true) → (∀ d ∈ q, d.isDigit = true) →
      p ++ c :: s = q ++ c :: t → p = q ∧ s = t := by
    intro p
    induction p with
    | nil =>
      intro q _ hq e
      cases q with
      | nil => simpa using e
      | cons d q =>
        simp only [List.nil_append, List.cons_append, List.cons.injEq] at e
        rw [hq c (by rw [e.1]; simp)] at hc
        cases hc
    | cons d p ih =>
      intro q hp hq e
      cases q with
      | nil =>
        simp only [List.nil_append, List.cons_append, List.cons.injEq] at e
        rw [hp c (by rw [← e.1]; simp)] at hc
        cases hc
      | cons d' q =>
        simp only [List.cons_append, List.cons.injEq] at e
        obtain ⟨h1, h2⟩ := ih q (fun d hd => hp d (List.mem_cons_of_mem _ hd))
          (fun d hd => hq d (List.mem_cons_of_mem _ hd)) e.2
        exact ⟨by rw [e.1, h1], h2⟩
  obtain ⟨h1, h2⟩ := key _ _ (fun _ => natToDec_isDigit) (fun _ => natToDec_isDigit) h
  exact ⟨natToDec_eq h1, h2⟩

/-- A representation has one part for a Content-Range. -/
theorem IsPart.unique {whole b b' : Bytes} {cr : List Str} (h : IsPart whole cr b) (h' : IsPart whole cr b') :
    b = b' := by
  obtain ⟨f, l, e, -, -, rfl⟩ := h
  obtain ⟨f', l', e', -, -, rfl⟩ := h'
  rw [e] at e'
  simp only [List.cons.injEq, and_true, contentRangeText] at e'
  have e2 := List.append_cancel_left e'
  obtain ⟨rfl, e3⟩ := digits_stop (by decide) e2
  obtain ⟨rfl, -⟩ := digits_stop (by decide) e3
  rfl

theorem IsPart.ne_nil {whole b : Bytes} {cr : List Str} (h : IsPart whole cr b) : b ≠ [] := by
  obtain ⟨f, l, -, h1, h2, rfl⟩ := h
  intro e
  have := congrArg List.length e
  simp only [List.length_take, List.length_drop, List.length_nil] at this
  omega

/-! ## C129: parts -/

/-- C129 without late writes, exactly: a part of a representation arrives as the part its Content-Range names if and
only if the client's Accept-Encoding mentions gzip exactly when the part begins like a gzip file. (Or decompressing
the part gives the part.) Otherwise the bytes are not those of the range. -/
theorem C129_exact (x : Setup K) (s : St) (h : x.ReachesOrderly s) {r : Route} {u : URL} {l : Str}
    (hd : x.dec = .forward r u l) (hf : s.pc = .done) (hl : x.sv.codec.Lossless) (y : Sent) (hy : y ∈ s.sent)
    (hs : y.status = 206) (v : UpResp) (hv : s.curA.vResp = some v) (hw : v.header.WF) (whole : Bytes)
    (hp : IsPart whole (v.header.values "Content-Range".toList) v.body) :
    IsPart whole (y.header "Content-Range".toList) y.body ↔
      ((mentionsGzip x.rq = true ↔ hasGzipMagic v.body = true) ∨
        (mentionsGzip x.rq = false ∧ hasGzipMagic v.body = true ∧ x.sv.codec.dec v.body = v.body)) := by
  obtain ⟨hb, hh⟩ := orderly_proxied x s h hd hf hy (by omega) hv hw
  rw [hh _ (by decide) (by decide), hb]
  have : IsPart whole (v.header.values "Content-Range".toList) (sentBody x.respEnv v) ↔
      sentBody x.respEnv v = v.body :=
    ⟨fun h' => h'.unique hp, fun e => by rw [e]; exact hp⟩
  rw [this, sentBody_iff (e := x.respEnv) hl]
  have hne := hp.ne_nil
  simp only [hne, false_or]
  exact Iff.rfl

/-- The second part of a file. -/
def Demo.secondPart : UpResp :=
  { status := 206, header := [("Content-Range".toList, ["bytes 3-4/6".toList])], body := [40, 50] }

/-- C129 fails: a client that accepts gzip and resumes a download gets a compressed part under the Content-Range
of the bytes. -/
theorem C129_violated : Demo.server.codec.Lossless ∧ Demo.secondPart.header.WF ∧
    IsPart [10, 20, 30, 40, 50, 60] (Demo.secondPart.header.values "Content-Range".toList) Demo.secondPart.body ∧
    ∃ s y, Demo.gzipSetup.ReachesOrderly s ∧ s.pc = .done ∧ s.curA.vResp = some Demo.secondPart ∧
      s.sent = [y] ∧ y.status = 206 ∧ y.header "Content-Range".toList = ["bytes 3-4/6".toList] ∧
      y.body = [0x1f, 0x8b, 40, 50] ∧
      ¬ IsPart [10, 20, 30, 40, 50, 60] (y.header "Content-Range".toList) y.body := by
  have hp : IsPart [10, 20, 30, 40, 50, 60] (Demo.secondPart.header.values "Content-Range".toList)
      Demo.secondPart.body := ⟨3, 4, by decide, by decide, by decide, by decide⟩
  refine ⟨⟨fun b => rfl, fun b => rfl, rfl⟩, ⟨by decide, by decide⟩, hp, ?_⟩
  obtain ⟨s, hs, hp'⟩ := Demo.of_check (x := Demo.gzipSetup) (as := Demo.successGzip Demo.secondPart)
    (p := fun s => (Demo.seen s).finished && s.curA.vResp == some Demo.secondPart &&
      s.sent.map (fun y => (y.status, y.header "Content-Range".toList, y.body)) ==
        [(206, ["bytes 3-4/6".toList], [0x1f, 0x8b, 40, 50])]) (by decide +kernel)
  simp only [Bool.and_eq_true, beq_iff_eq] at hp'
  obtain ⟨y, hy, h3⟩ := Demo.one_of_map hp'.2
  simp only [Prod.mk.injEq] at h3
  refine ⟨s, y, Demo.orderly_gzip hs, Demo.done_of_seen hp'.1.1, hp'.1.2, hy, h3.1, h3.2.1, h3.2.2, ?_⟩
  intro hq
  rw [h3.2.1, h3.2.2] at hq
  have := IsPart.unique hq (b' := [40, 50]) hp
  exact absurd this (by decide)

theorem Demo.orderly_success {x : Setup Nat} {r : UpResp} {s : St}
    (h : exec x (success r) = some s) : x.ReachesOrderly s := by
  refine C50_covered_no_timeout _ s _ h ?_
  intro a ha i hi
  subst hi
  revert ha
  simp [Demo.success, Demo.attempt, Demo.headers, Demo.body]

/-- The same part arrives as it is at a client that does not mention gzip. -/
example : ∃ s y, Demo.setup.ReachesOrderly s ∧ s.pc = .done ∧ s.curA.vResp = some Demo.secondPart ∧
    mentionsGzip Demo.setup.rq = false ∧ s.sent = [y] ∧ y.status = 206 ∧ y.body = [40, 50] := by
  obtain ⟨s, hs, hp'⟩ := Demo.of_check (x := Demo.setup) (as := Demo.success Demo.secondPart)
    (p := fun s => (Demo.seen s).finished && s.curA.vResp == some Demo.secondPart &&
      s.sent.map (fun y => (y.status, y.body)) == [(206, [40, 50])]) (by decide +kernel)
  simp only [Bool.and_eq_true, beq_iff_eq] at hp'
  obtain ⟨y, hy, h3⟩ := Demo.one_of_map hp'.2
  simp only [Prod.mk.injEq] at h3
  exact ⟨s, y, Demo.orderly_success hs, Demo.done_of_seen hp'.1.1, hp'.1.2, by decide, hy, h3.1, h3.2⟩

/-! ## C130, C131: two clients -/

/-- Two exchanges, of two gateways that may be the same, with the same response of the upstream. -/
structure SameAnswer (x x' : Setup K) (v : UpResp) (y y' : Sent) : Prop where
  codec : x.sv.codec = x'.sv.codec ∧ x.sv.codec.Lossless
  wf : v.header.WF
  low : v.status < 400
  one : ∃ s r u l, x.ReachesOrderly s ∧ x.dec = .forward r u l ∧ s.pc = .done ∧ y ∈ s.sent ∧ y.status = v.status ∧
    s.curA.vResp = some v
  two : ∃ s r u l, x'.ReachesOrderly s ∧ x'.dec = .forward r u l ∧ s.pc = .done ∧ y' ∈ s.sent ∧ y'.status = v.status ∧
    s.curA.vResp = some v

theorem SameAnswer.parts {x x' : Setup K} {v : UpResp} {y y' : Sent} (h : SameAnswer x x' v y y') :
    y.body = sentBody x.respEnv v ∧ y'.body = sentBody x'.respEnv v ∧
      ∀ k, toLower k ∉ droppedHeaders.map toLower →
      k ∉ ["X-Request-Id", "Strict-Transport-Security", "Content-Encoding"].map String.toList →
      y.header k = v.header.values k ∧ y'.header k = v.header.values k := by
  obtain ⟨s, r, u, l, h1, h2, h3, h4, h5, h6⟩ := h.one
  obtain ⟨s', r', u', l', h1', h2', h3', h4', h5', h6'⟩ := h.two
  have hl := h.low
  obtain ⟨a, b⟩ := orderly_proxied x s h1 h2 h3 h4 (by omega) h6 h.wf
  obtain ⟨a', b'⟩ := orderly_proxied x' s' h1' h2' h3' h4' (by omega) h6' h.wf
  exact ⟨a, a', fun k k1 k2 => ⟨b k k1 k2, b' k k1 k2⟩⟩

/-- Whether two clients get the same bytes. -/
theorem SameAnswer.body_iff {x x' : Setup K} {v : UpResp} {y y' : Sent} (h : SameAnswer x x' v y y') :
    y.body = y'.body ↔ (mentionsGzip x.rq = mentionsGzip x'.rq ∨ v.body = [] ∨
      (hasGzipMagic v.body = true ∧ x.sv.codec.dec v.body = v.body)) := by
  obtain ⟨h1, h2, -⟩ := h.parts
  rw [h1, h2]
  by_cases hb : v.body = []
  · simp [sentBody_empty hb, hb]
  rw [sentBody_some hb, sentBody_some hb]
  have e1 : x.respEnv.sendGzip = mentionsGzip x.rq := rfl
  have e2 : x'.respEnv.sendGzip = mentionsGzip x'.rq := rfl
  have e3 : x.respEnv.codec = x.sv.codec := rfl
  have e4 : x'.respEnv.codec = x.sv.codec := h.codec.1.symm
  rw [e1, e2, e3, e4]
  have hen := @enc_ne _ h.codec.2 v.body
  cases mentionsGzip x.rq <;> cases mentionsGzip x'.rq <;> cases hz : hasGzipMagic v.body <;> simp [hb]
  · exact fun e => hen hz e.symm
  · exact hen hz
  · exact eq_comm

/-- C130 without late writes, exactly: two clients that get a response with one strong entity tag get the same
bytes if and only if both mention gzip or neither does. (Or the body is empty, or decompressing it gives the same.)
The tag is the upstream's for both. -/
theorem C130_exact (x x' : Setup K) (v : UpResp) (y y' : Sent) (h : SameAnswer x x' v y y')
    (ht : StrongTag (v.header.values "Etag".toList)) :
    (StrongTag (y.header "Etag".toList) ∧ y.header "Etag".toList = y'.header "Etag".toList) ∧
    (y.body = y'.body ↔ (mentionsGzip x.rq = mentionsGzip x'.rq ∨ v.body = [] ∨
      (hasGzipMagic v.body = true ∧ x.sv.codec.dec v.body = v.body))) := by
  obtain ⟨-, -, h3⟩ := h.parts
  obtain ⟨a, b⟩ := h3 "Etag".toList (by decide) (by decide)
  exact ⟨by rw [a, b]; exact ⟨ht, rfl⟩, h.body_iff⟩

/-- A page with a strong tag, and nothing in Vary. -/
def Demo.tagged : UpResp :=
  { status := 200, header := [("Etag".toList, ["\"v1\"".toList]), ("Cache-Control".toList, ["public, no-transform".toList])],
    body := [104, 105] }

theorem Demo.same_answer : ∃ y y', SameAnswer Demo.setup Demo.gzipSetup Demo.tagged y y' ∧
    y.header "Etag".toList = ["\"v1\"".toList] ∧ y'.header "Etag".toList = ["\"v1\"".toList] ∧
    y.body = [104, 105] ∧ y'.body = [0x1f, 0x8b, 104, 105] ∧ y.header "Vary".toList = [] := by
  have run : ∀ (x : Setup Nat) (as : List Act) (b : Bytes), (∃ r u l, x.dec = .forward r u l) →
      (∀ s, exec x as = some s → x.ReachesOrderly s) →
      (∃ s, exec x as = some s ∧ ((Demo.seen s).finished && s.curA.vResp == some Demo.tagged &&
      s.sent.map (fun y => (y.status, y.header "Etag".toList, y.header "Vary".toList, y.body)) ==
        [(200, ["\"v1\"".toList], [], b)]) = true) →
      ∃ y, (∃ s r u l, x.ReachesOrderly s ∧ x.dec = .forward r u l ∧ s.pc = .done ∧ y ∈ s.sent ∧
        y.status = Demo.tagged.status ∧ s.curA.vResp = some Demo.tagged) ∧
        y.header "Etag".toList = ["\"v1\"".toList] ∧ y.header "Vary".toList = [] ∧ y.body = b := by
    rintro x as b ⟨r, u, l, hd⟩ ho ⟨s, hs, hp'⟩
    simp only [Bool.and_eq_true, beq_iff_eq] at hp'
    obtain ⟨y, hy, h3⟩ := Demo.one_of_map hp'.2
    simp only [Prod.mk.injEq] at h3
    exact ⟨y, ⟨s, r, u, l, ho s hs, hd, Demo.done_of_seen hp'.1.1, by rw [hy]; simp, h3.1, hp'.1.2⟩,
      h3.2.1, h3.2.2.1, h3.2.2.2⟩
  obtain ⟨y, h1, h2, h3, h4⟩ := run Demo.setup (Demo.success Demo.tagged) [104, 105]
    ⟨Demo.route, Demo.url, "default".toList, by decide +kernel⟩ (fun _ => Demo.orderly_success)
    (Demo.of_check (by decide +kernel))
  obtain ⟨y', h1', h2', h3', h4'⟩ := run Demo.gzipSetup (Demo.successGzip Demo.tagged) [0x1f, 0x8b, 104, 105]
    ⟨Demo.route, Demo.url, "default".toList, by decide +kernel⟩ (fun _ => Demo.orderly_gzip)
    (Demo.of_check (by decide +kernel))
  exact ⟨y, y', ⟨⟨rfl, ⟨fun b => rfl, fun b => rfl, rfl⟩⟩, ⟨by decide, by decide⟩, by decide, h1, h1'⟩, h2, h2', h4,
    h4', h3⟩

/-- C130 fails: two clients get different bytes under the same strong tag. -/
theorem C130_violated : ∃ y y', SameAnswer Demo.setup Demo.gzipSetup Demo.tagged y y' ∧
    StrongTag (y.header "Etag".toList) ∧ y.header "Etag".toList = y'.header "Etag".toList ∧ y.body ≠ y'.body := by
  obtain ⟨y, y', h, h1, h2, h3, h4, -⟩ := Demo.same_answer
  refine ⟨y, y', h, ?_, by rw [h1, h2], by rw [h3, h4]; decide⟩
  rw [h1]
  exact ⟨['v', '1', '"'], rfl⟩

/-- C131, part: if the upstream itself lists Accept-Encoding in Vary, a cache that may use a stored response for
another client gives it the bytes the gateway would have. -/
theorem C131_partial (x x' : Setup K) (v : UpResp) (y y' : Sent) (h : SameAnswer x x' v y y')
    (hv : Listed (v.header.values "Vary".toList) "accept-encoding".toList)
    (hr : Reusable (y.header "Vary".toList) x.rq.header x'.rq.header) : y.body = y'.body := by
  obtain ⟨-, -, h3⟩ := h.parts
  rw [(h3 "Vary".toList (by decide) (by decide)).1] at hr
  refine h.body_iff.2 (.inl ?_)
  have := hr.2 "Accept-Encoding".toList (by decide) hv
  unfold mentionsGzip Entries.get
  rw [show canon "Accept-Encoding".toList = "Accept-Encoding".toList from by decide, this]

/-- C131 fails whenever the upstream sends no Vary: a cache may use what one client got for every other client,
also if the gateway would have sent that one other bytes. -/
theorem C131_violated_always (x x' : Setup K) (v : UpResp) (y y' : Sent) (h : SameAnswer x x' v y y')
    (hv : v.header.values "Vary".toList = []) (hb : v.body ≠ []) (hz : hasGzipMagic v.body = false)
    (hm : mentionsGzip x.rq ≠ mentionsGzip x'.rq) :
    Reusable (y.header "Vary".toList) x.rq.header x'.rq.header ∧ y.body ≠ y'.body := by
  obtain ⟨-, -, h3⟩ := h.parts
  rw [(h3 "Vary".toList (by decide) (by decide)).1, hv]
  constructor
  · exact ⟨fun ⟨v, hv, _⟩ => absurd hv (by simp), fun k _ ⟨v, hv, _⟩ => absurd hv (by simp)⟩
  · intro e
    rcases h.body_iff.1 e with e | e | e
    · exact hm e
    · exact hb e
    · rw [hz] at e; exact absurd e.1 (by decide)

theorem C131_violated : ∃ y y', SameAnswer Demo.setup Demo.gzipSetup Demo.tagged y y' ∧
    Reusable (y.header "Vary".toList) Demo.setup.rq.header Demo.gzipSetup.rq.header ∧ y.body ≠ y'.body := by
  obtain ⟨y, y', h, -⟩ := Demo.same_answer
  exact ⟨y, y', h, C131_violated_always _ _ _ _ _ h (by decide) (by decide) (by decide) (by decide)⟩

/-- The hypotheses of `C131_partial` are satisfiable. -/
def Demo.varying : UpResp :=
  { status := 200, header := [("Vary".toList, ["Origin, accept-Encoding".toList])], body := [104, 105] }

example : Listed (Demo.varying.header.values "Vary".toList) "accept-encoding".toList ∧
    ∃ s y, Demo.gzipSetup.ReachesOrderly s ∧ s.pc = .done ∧ s.curA.vResp = some Demo.varying ∧ s.sent = [y] ∧
      Reusable (y.header "Vary".toList) Demo.gzipSetup.rq.header Demo.gzipSetup.rq.header := by
  refine ⟨⟨"Origin, accept-Encoding".toList, by decide, " accept-Encoding".toList, by decide, by decide⟩, ?_⟩
  obtain ⟨s, hs, hp'⟩ := Demo.of_check (x := Demo.gzipSetup) (as := Demo.successGzip Demo.varying)
    (p := fun s => (Demo.seen s).finished && s.curA.vResp == some Demo.varying &&
      s.sent.map (fun y => y.header "Vary".toList) == [["Origin, accept-Encoding".toList]]) (by decide +kernel)
  simp only [Bool.and_eq_true, beq_iff_eq] at hp'
  obtain ⟨y, hy, h3⟩ := Demo.one_of_map hp'.2
  refine ⟨s, y, Demo.orderly_gzip hs, Demo.done_of_seen hp'.1.1, hp'.1.2, hy, ?_, fun _ _ _ => rfl⟩
  rw [h3]
  rintro ⟨w, hw, el, hel, he⟩
  obtain rfl : w = "Origin, accept-Encoding".toList := by simpa using hw
  have : el = "Origin".toList ∨ el = " accept-Encoding".toList := by
    have e : split ',' "Origin, accept-Encoding".toList = ["Origin".toList, " accept-Encoding".toList] := by decide
    rw [e] at hel
    simpa using hel
  rcases this with rfl | rfl
  · exact absurd he (by decide)
  · exact absurd he (by decide)

/-! ## C132: no-transform -/

/-- C132 without late writes, exactly: the body of a response that must not be transformed is delivered as it came
if and only if it is empty or the client's Accept-Encoding mentions gzip exactly when the body begins like a gzip
file. (Or decompressing it gives the same.) The directive is delivered in any case. -/
theorem C132_exact (x : Setup K) (s : St) (h : x.ReachesOrderly s) {r : Route} {u : URL} {l : Str}
    (hd : x.dec = .forward r u l) (hf : s.pc = .done) (hl : x.sv.codec.Lossless) (y : Sent) (hy : y ∈ s.sent)
    (hs : y.status < 400) (v : UpResp) (hv : s.curA.vResp = some v) (hw : v.header.WF)
    (hn : NoTransform (v.header.values "Cache-Control".toList)) :
    NoTransform (y.header "Cache-Control".toList) ∧
    (y.body = v.body ↔ (v.body = [] ∨ (mentionsGzip x.rq = true ↔ hasGzipMagic v.body = true) ∨
        (mentionsGzip x.rq = false ∧ hasGzipMagic v.body = true ∧ x.sv.codec.dec v.body = v.body))) := by
  obtain ⟨hb, hh⟩ := orderly_proxied x s h hd hf hy hs hv hw
  rw [hh _ (by decide) (by decide), hb, sentBody_iff (e := x.respEnv) hl]
  exact ⟨hn, Iff.rfl⟩

/-- C132 fails: a page with no-transform is compressed. -/
theorem C132_violated : NoTransform (Demo.tagged.header.values "Cache-Control".toList) ∧
    ∃ y y', SameAnswer Demo.setup Demo.gzipSetup Demo.tagged y y' ∧ y.body = Demo.tagged.body ∧
      y'.body ≠ Demo.tagged.body := by
  refine ⟨⟨"public, no-transform".toList, by decide, " no-transform".toList, by decide, by decide⟩, ?_⟩
  obtain ⟨y, y', h, -, -, h3, h4, -⟩ := Demo.same_answer
  exact ⟨y, y', h, h3, by rw [h4]; decide⟩

end J8a

import Verif.Props.Attempts
import Verif.Lemmas.MachineParts
import Verif.Lemmas.MachineLength
import Verif.Lemmas.Json
import Verif.Lemmas.Str
import Verif.Spec.Response
import Verif.Spec.Request
/-!
# C36–C44: responses
-/
namespace J8a
open Go

variable {K : Type}

/-! ## Own and proxied responses -/

/-- Every response is the gateway's own, or its parts come from received responses. -/
theorem response_parts {x : Setup K} {s : St} (h : x.Reaches s) {y : Sent} (hy : y ∈ s.sent) :
    Parts x.respEnv (Recv s) (LastBody x.respEnv s) y ∨
      ∃ code msg, y = jsonResponse x.respEnv code msg := by
  rcases going_or_still h with ⟨r, u, l, hd, -⟩ | ⟨hn, -⟩
  · exact .inl (parts_of_reaches h hd y hy)
  · right
    obtain ⟨as, h⟩ := h
    have := run_invariant (P := fun s => Still s ∧
        ∀ y ∈ s.sent, ∃ code msg, y = jsonResponse x.respEnv code msg)
      (fun s a s' hi hs => ⟨hi.1.step hs, by
        rcases step_cases' hs with hf | ⟨c, rfl, hm⟩
        · rw [hf.sent]; exact hi.2
        · rcases hi.1.pc with ⟨code, msg, hp⟩ | hp | hp | hp <;> simp only [stepMain, hp] at hm <;>
            (repeat' split at hm) <;> cases hm <;> first
            | exact hi.2
            | (intro y hy
               rw [List.mem_append, List.mem_singleton] at hy
               rcases hy with hy | hy
               · exact hi.2 y hy
               · exact ⟨_, _, hy⟩)⟩)
      (s := initial x.dec) ⟨Still.initial hn, by
        intro y hy
        revert hy
        cases x.dec <;> simp [initial]⟩ h
    exact this.2 y hy

/-- A response without Content-Length is the gateway's own, and conversely. -/
theorem own_iff {x : Setup K} {s : St} (h : x.Reaches s) {y : Sent} (hy : y ∈ s.sent) :
    y.header "Content-Length".toList = [] ↔ ∃ code msg, y = jsonResponse x.respEnv code msg := by
  constructor
  · intro hn
    rcases length_of_reaches h hy with h1 | ⟨⟨v, h1⟩, -⟩
    · exact h1
    · rw [hn] at h1; cases h1
  · rintro ⟨code, msg, rfl⟩
    exact json_cl _ _ _

theorem proxied_parts {x : Setup K} {s : St} (h : x.Reaches s) {y : Sent} (hy : y ∈ s.sent)
    (hn : y.header "Content-Length".toList ≠ []) :
    FromOne x.respEnv (Recv s) y.header ∧ CodeOf (Recv s) y.status ∧ LastBody x.respEnv s y.body ∧
      HeadLen x.respEnv (Recv s) y.header := by
  rcases response_parts h hy with (⟨code, msg, rfl, -⟩ | ⟨h1, h2, h3, h4⟩) | ho
  · exact absurd (json_cl _ _ _) hn
  · exact ⟨h1, h2, h3, h4⟩
  · exact absurd ((own_iff h hy).2 ho) hn

/-- The headers of an own response. -/
theorem json_header (e : RespEnv) (code : Int) (msg k : Str) :
    (jsonResponse e code msg).header k =
      if k = "Content-Type".toList then ["application/json".toList]
      else writeStandardResponseHeaders e Hdr.empty k := by
  unfold jsonResponse
  dsimp only
  split
  · rename_i hk
    rw [set_same (by rw [canon_ct]; exact hk)]
  · rename_i hk
    rw [set_ne (by rw [canon_ct]; exact hk)]

theorem not_mem_pair {α : Type} {a b k : α} (h1 : k ≠ a) (h2 : k ≠ b) : k ∉ [a, b] := by
  simp [h1, h2]

/-! ## C42: identity headers -/

/-- C42, for every schedule: there is one Server header and it is the gateway's; in TLS mode the
first HSTS value is the gateway's; the other HSTS values are those of one received response, or none
in an own response (one without Content-Length). -/
theorem C42_identity_headers (x : Setup K) (s : St) (h : x.Reaches s) (y : Sent) (hy : y ∈ s.sent) :
    y.header "Server".toList = ["j8a ".toList ++ x.sv.version ++ " ".toList ++ x.sv.id] ∧
    ∃ up : List Str, (y.header "Content-Length".toList = [] ∧ up = [] ∨ ∃ k v, k < s.n ∧ (s.atmpt k).vResp = some v ∧
        up = v.header.under "Strict-Transport-Security".toList) ∧
      y.header "Strict-Transport-Security".toList =
        (if x.c.connection.downstream.isTLSMode then ["max-age=31536000".toList] else []) ++ up := by
  by_cases hn : y.header "Content-Length".toList = []
  · obtain ⟨code, msg, rfl⟩ := (own_iff h hy).1 hn
    refine ⟨?_, [], .inl ⟨hn, rfl⟩, ?_⟩
    · rw [json_header, if_neg (by decide), std_server]; rfl
    · rw [json_header, if_neg (by decide), std_sts, List.append_nil]; rfl
  · obtain ⟨v, ⟨k, hk, hv⟩, hf⟩ := (proxied_parts h hy hn).1
    refine ⟨?_, _, .inr ⟨k, v, hk, hv, rfl⟩, ?_⟩
    · rw [hf _ (by decide), shouldProxyHeader_server, std_server]
      simp only [Bool.false_eq_true, if_false, List.append_nil]
      rfl
    · rw [hf _ (by decide), std_sts,
        if_pos (show shouldProxyHeader "Strict-Transport-Security".toList = true by decide)]
      rfl

/-- A gateway in TLS mode whose upstream sends its own identity headers. -/
def Demo.tlsSetup : Setup Nat :=
  { Demo.setup with c := { Demo.config with connection := { Demo.config.connection with
      downstream := { Demo.config.connection.downstream with mode := "TLS".toList } } } }

example : (Demo.exec Demo.tlsSetup (Demo.success { Demo.ok with
      header := [("Server".toList, ["nginx".toList]),
        ("Strict-Transport-Security".toList, ["max-age=1".toList])] })).map (fun s => s.sent.map fun y =>
      (y.header "Server".toList, y.header "Strict-Transport-Security".toList)) =
    some [(["j8a v1 abc".toList], ["max-age=31536000".toList, "max-age=1".toList])] := by
  decide +kernel

/-! ## C36: client errors -/

/-- The headers of an own response carry nothing of an upstream, under every schedule. -/
theorem C36_own_headers_partial (x : Setup K) (s : St) (h : x.Reaches s) (y : Sent) (hy : y ∈ s.sent)
    (ho : y.header "Content-Length".toList = []) (k : Str) :
    y.header k =
      if k = "Server".toList then ["j8a ".toList ++ x.sv.version ++ " ".toList ++ x.sv.id]
      else if k = "X-Request-Id".toList then [x.xrid]
      else if k = "Content-Type".toList then ["application/json".toList]
      else if k = "Strict-Transport-Security".toList ∧ x.c.connection.downstream.isTLSMode = true
        then ["max-age=31536000".toList]
      else [] := by
  obtain ⟨code, msg, rfl⟩ := (own_iff h hy).1 ho
  rw [json_header]
  by_cases h1 : k = "Server".toList
  · rw [if_pos h1, if_neg (by rw [h1]; decide), h1, std_server]; rfl
  rw [if_neg h1]
  by_cases h2 : k = "X-Request-Id".toList
  · rw [if_pos h2, if_neg (by rw [h2]; decide), h2]
    exact std_xrid _
  rw [if_neg h2]
  by_cases h3 : k = "Content-Type".toList
  · rw [if_pos h3, if_pos h3]
  rw [if_neg h3, if_neg h3]
  by_cases h4 : k = "Strict-Transport-Security".toList
  · rw [h4, std_sts]
    rw [show x.respEnv.tls = x.c.connection.downstream.isTLSMode from rfl]
    cases x.c.connection.downstream.isTLSMode <;> simp
  · rw [if_neg (fun h => h4 h.1), std_other _ _ h1 h4 h2]

/-- C36 without late writes: a response with a 4xx status is the gateway's own, and the last attempt
received that status. -/
theorem C36_partial (x : Setup K) (s : St) (h : x.ReachesOrderly s) {r : Route} {u : URL} {l : Str}
    (hd : x.dec = .forward r u l) (hf : s.pc = .done) (y : Sent) (hy : y ∈ s.sent)
    (hs : 400 ≤ y.status ∧ y.status < 500) :
    y = jsonResponse x.respEnv y.status "none".toList ∧ y.header "Content-Length".toList = [] ∧
      ∃ v, s.curA.vResp = some v ∧ v.status = y.status := by
  obtain ⟨y', hy', ha⟩ := C50_answer_partial x s h hd hf
  rw [hy', List.mem_singleton] at hy
  subst hy
  cases ha with
  | proxied v h1 h2 =>
    rw [proxied_status] at hs
    omega
  | client v h1 h2 => exact ⟨rfl, json_cl _ _ _, v, h1.1.2.1, rfl⟩
  | dwn h => exact absurd hs.2 (show ¬ (504 : Int) < 500 by decide)
  | up h => exact absurd hs.2 (show ¬ (504 : Int) < 500 by decide)
  | bad h => exact absurd hs.2 (show ¬ (502 : Int) < 500 by decide)

/-- C36, the other direction: when the last attempt received a 4xx response, the client gets that
status in an own response, or a gateway error because of a deadline or a body that could not be
read. -/
theorem C36_status_partial (x : Setup K) (s : St) (h : x.ReachesOrderly s) {r : Route} {u : URL}
    {l : Str} (hd : x.dec = .forward r u l) (hf : s.pc = .done) (v : UpResp)
    (hv : s.curA.vResp = some v) (hs : 400 ≤ v.status ∧ v.status < 500) :
    ∃ y, s.sent = [y] ∧ y.header "Content-Length".toList = [] ∧
      (y.status = v.status ∨
        y.status = 504 ∧ (s.dwnFired = true ∨ s.curA.ctxDone = true) ∨
        y.status = 502 ∧ s.curA.vBodyErr = true) := by
  obtain ⟨y, hy, ha⟩ := C50_answer_partial x s h hd hf
  refine ⟨y, hy, ?_⟩
  cases ha with
  | proxied v' h1 h2 =>
    have := h1.1.2.1
    rw [hv] at this
    cases this
    omega
  | client v' h1 h2 =>
    have := h1.1.2.1
    rw [hv] at this
    cases this
    exact ⟨json_cl _ _ _, .inl rfl⟩
  | dwn h => exact ⟨json_cl _ _ _, .inr (.inl ⟨rfl, .inl h⟩)⟩
  | up h => exact ⟨json_cl _ _ _, .inr (.inl ⟨rfl, .inr h⟩)⟩
  | bad h =>
    refine ⟨json_cl _ _ _, .inr (.inr ⟨rfl, ?_⟩)⟩
    obtain ⟨-, h | ⟨v', h1, -, h2⟩⟩ := h
    · rw [hv] at h; cases h
    · rw [hv] at h1
      cases h1
      rcases h2 with h2 | h2
      · exact h2
      · omega

/-- An upstream response with a client error. -/
def Demo.notFound : UpResp :=
  { status := 404, header := [("X".toList, ["secret".toList])], body := [1, 2, 3] }

open Demo in
/-- Attempt 0 has the headers of a 404 response and times out before its body goroutine runs; that
goroutine writes its status code when the response of attempt 1 is being delivered. -/
def Demo.lateNotFound : List Act :=
  stuck 0 notFound ++ [go] ++ headers 1 ok ++ body 1 ++ List.replicate 7 go ++ [.bgStatus 0] ++
    List.replicate 8 go

/-- C36 fails: the client receives status 404 of the first attempt with headers and body of the
second. -/
theorem C36_violated : ∃ s, Demo.setup.Reaches s ∧ s.pc = .done ∧
    (s.atmpt 0).vResp = some Demo.notFound ∧ (s.atmpt 1).vResp = some Demo.ok ∧
    s.sent.map (fun y => (y.status, y.header "X".toList, y.body)) =
      [(404, ["ok".toList], Demo.ok.body)] := by
  obtain ⟨s, hs, hp⟩ := Demo.of_check (x := Demo.setup) (as := Demo.lateNotFound)
    (p := fun s => (Demo.seen s).finished && (s.atmpt 0).vResp == some Demo.notFound &&
      (s.atmpt 1).vResp == some Demo.ok &&
      (Demo.seen s).sent == [(404, ["ok".toList], Demo.ok.body)]) (by decide +kernel)
  simp only [Bool.and_eq_true, beq_iff_eq] at hp
  exact ⟨s, Demo.reaches hs, Demo.done_of_seen hp.1.1.1, hp.1.1.2, hp.1.2, hp.2⟩

open Demo in
/-- Attempt `i` gets the client error `r`. -/
def Demo.refused (i : Nat) (r : UpResp) : List Act :=
  [go] ++ headers i r ++ body i ++ List.replicate 10 go

/-- The hypotheses of `C36_partial` are satisfied. -/
example : ∃ s, Demo.setup.ReachesOrderly s ∧ s.pc = .done ∧
    s.sent.map (fun y => (y.status, y.header "X".toList, y.body)) =
      [(404, [], Demo.json 404 "none")] := by
  obtain ⟨s, hs, hp⟩ := Demo.of_check (x := Demo.setup) (as := Demo.refused 0 Demo.notFound)
    (p := fun s => (Demo.seen s).finished &&
      (Demo.seen s).sent == [(404, [], Demo.json 404 "none")]) (by decide +kernel)
  simp only [Bool.and_eq_true, beq_iff_eq] at hp
  refine ⟨s, C50_covered_no_timeout _ s _ hs ?_, Demo.done_of_seen hp.1, hp.2⟩
  intro a ha i hi
  subst hi
  revert ha
  simp [Demo.refused, Demo.headers, Demo.body]

/-! ## C37: proxied responses -/

/-- The response to be delivered for `v`, seen from outside: the same status; of the headers those
not excluded, each with the values of the upstream in order, after the gateway's own. -/
structure Proxied (x : Setup K) (v : UpResp) (y : Sent) : Prop where
  status : y.status = v.status
  upstream : ∀ k, toLower k ∉ droppedHeaders.map toLower →
    k ∉ ["X-Request-Id", "Strict-Transport-Security", "Content-Encoding"].map String.toList →
    y.header k = v.header.values k
  dropped : ∀ k, toLower k ∈ droppedHeaders.map toLower →
    k ∉ ["Server", "Content-Length"].map String.toList → y.header k = []
  xrid : y.header "X-Request-Id".toList = x.xrid :: v.header.values "X-Request-Id".toList
  sts : y.header "Strict-Transport-Security".toList =
    (if x.c.connection.downstream.isTLSMode then ["max-age=31536000".toList] else []) ++
      v.header.values "Strict-Transport-Security".toList

theorem not_proxied_iff (k : Str) :
    shouldProxyHeader k = true ↔ toLower k ∉ droppedHeaders.map toLower := by
  have : shouldProxyHeader k = droppedHeaders.all fun i => !equalFold k i := rfl
  rw [this]
  simp only [List.all_eq_true, Bool.not_eq_true', equalFold, beq_eq_false_iff_ne, List.mem_map,
    not_exists, not_and]
  exact ⟨fun h i hi he => h i hi he.symm, fun h i hi he => h i hi he.symm⟩

/-- C37 without late writes: a response with a status below 400 is that of the last attempt with its
status and headers. The header of `v` is as net/http parsed it. -/
theorem C37_partial (x : Setup K) (s : St) (h : x.ReachesOrderly s) {r : Route} {u : URL} {l : Str}
    (hd : x.dec = .forward r u l) (hf : s.pc = .done) (y : Sent) (hy : y ∈ s.sent)
    (hs : y.status < 400) :
    ∃ v, s.curA.vResp = some v ∧ y = proxiedResponse x.respEnv v ∧
      (v.header.WF → Proxied x v y) := by
  obtain ⟨y', hy', ha⟩ := C50_answer_partial x s h hd hf
  rw [hy', List.mem_singleton] at hy
  subst hy
  cases ha with
  | proxied v h1 h2 =>
    refine ⟨v, h1.1.2.1, rfl, fun hw => ?_⟩
    have hx : ∀ k, k ∉ ["Content-Length", "Content-Encoding"].map String.toList →
        (proxiedResponse x.respEnv v).header k = writeStandardResponseHeaders x.respEnv Hdr.empty k ++
          if shouldProxyHeader k then v.header.values k else [] := by
      intro k hk
      rw [← Entries.under_wf hw]
      exact proxied_header _ _ _ (fun h => hk (by rw [h]; decide)) (fun h => hk (by rw [h]; decide))
    refine ⟨rfl, fun k h1 h2 => ?_, fun k h1 h2 => ?_, ?_, ?_⟩
    · have hne : ∀ n, toLower n ∈ droppedHeaders.map toLower → k ≠ n := by
        intro n hn he
        rw [he] at h1
        exact h1 hn
      have hk : k ≠ "Content-Length".toList := hne _ (by decide)
      have hk' : k ≠ "Server".toList := hne _ (by decide)
      simp only [List.map_cons, List.map_nil, List.mem_cons, List.not_mem_nil, or_false,
        not_or] at h2
      show (proxiedResponse x.respEnv v).header k = _
      rw [hx k (not_mem_pair hk h2.2.2), std_other _ _ hk' h2.2.1 h2.1, if_pos ((not_proxied_iff k).2 h1),
        List.nil_append]
    · simp only [List.map_cons, List.map_nil, List.mem_cons, List.not_mem_nil, or_false,
        not_or] at h2
      have hne : ∀ n, toLower n ∉ droppedHeaders.map toLower → k ≠ n := by
        intro n hn he
        rw [he] at h1
        exact hn h1
      show (proxiedResponse x.respEnv v).header k = _
      rw [hx k (not_mem_pair h2.2 (hne _ (by decide))),
        std_other _ _ h2.1 (hne _ (by decide)) (hne _ (by decide)),
        if_neg (by rw [not_proxied_iff]; exact fun h => h h1), List.nil_append]
    · show (proxiedResponse x.respEnv v).header "X-Request-Id".toList = _
      rw [hx _ (by decide), show "X-Request-Id".toList = xRequestID from rfl, std_xrid,
        if_pos (by decide)]
      rfl
    · show (proxiedResponse x.respEnv v).header "Strict-Transport-Security".toList = _
      rw [hx _ (by decide), std_sts,
        if_pos (show shouldProxyHeader "Strict-Transport-Security".toList = true by decide)]
      rfl
  | client v h1 h2 => exact absurd hs (by show ¬ v.status < 400; omega)
  | dwn h => exact absurd hs (show ¬ (504 : Int) < 400 by decide)
  | up h => exact absurd hs (show ¬ (504 : Int) < 400 by decide)
  | bad h => exact absurd hs (show ¬ (502 : Int) < 400 by decide)

/-- The hypotheses of `C37_partial` are satisfied. -/
example : ∃ s y, Demo.setup.ReachesOrderly s ∧ s.pc = .done ∧ s.sent = [y] ∧ y.status = 200 ∧
    s.curA.vResp = some Demo.ok ∧ Demo.ok.header.WF ∧ y.header "X".toList = ["ok".toList] := by
  obtain ⟨s, hs, hp⟩ := Demo.of_check (x := Demo.setup) (as := Demo.success Demo.ok)
    (p := fun s => (Demo.seen s).finished && s.curA.vResp == some Demo.ok &&
      (Demo.seen s).sent == [(200, ["ok".toList], Demo.ok.body)]) (by decide +kernel)
  simp only [Bool.and_eq_true, beq_iff_eq] at hp
  obtain ⟨y, hy, h3⟩ := Demo.seen_one hp.2
  simp only [Prod.mk.injEq] at h3
  refine ⟨s, y, C50_covered_no_timeout _ s _ hs ?_, Demo.done_of_seen hp.1.1, hy, h3.1, hp.1.2,
    ⟨by decide, by decide⟩, h3.2.1⟩
  intro a ha i hi
  subst hi
  revert ha
  simp [Demo.success, Demo.attempt, Demo.headers, Demo.body]

/-- C37 under every schedule: the status of a proxied response is that of a received response, and
its headers are those of one received response (perhaps another), its body that of the last
attempt. -/
theorem C37_every_schedule_partial (x : Setup K) (s : St) (h : x.Reaches s) (y : Sent)
    (hy : y ∈ s.sent) (hn : y.header "Content-Length".toList ≠ []) (hv : 100 ≤ y.status) :
    (∃ i v, i < s.n ∧ (s.atmpt i).vResp = some v ∧ y.status = v.status) ∧
    (∃ i v, i < s.n ∧ (s.atmpt i).vResp = some v ∧ ∀ k, toLower k ∉ droppedHeaders.map toLower →
      k ∉ ["X-Request-Id", "Strict-Transport-Security", "Content-Encoding"].map String.toList →
      y.header k = v.header.under k) ∧
    ∃ v, s.curA.vResp = some v ∧ (y.body = v.body ∨ y.body = x.sv.codec.enc v.body ∨
      y.body = x.sv.codec.dec v.body) := by
  obtain ⟨⟨v, ⟨i, hi, hv1⟩, h1⟩, h2, ⟨g, w, h3, h4⟩, -⟩ := proxied_parts h hy hn
  refine ⟨?_, ⟨i, v, hi, hv1, fun k hk1 hk2 => ?_⟩, w, h3, ?_⟩
  · rcases h2 with h2 | ⟨v, ⟨i, hi, hv1⟩, h2⟩
    · omega
    · exact ⟨i, v, hi, hv1, h2⟩
  · have hne : ∀ n, toLower n ∈ droppedHeaders.map toLower → k ≠ n := by
      intro n hn he
      rw [he] at hk1
      exact hk1 hn
    simp only [List.map_cons, List.map_nil, List.mem_cons, List.not_mem_nil, or_false,
      not_or] at hk2
    have hk : k ≠ "Content-Length".toList := hne _ (by decide)
    rw [h1 k (not_mem_pair hk hk2.2.2), std_other _ _ (hne _ (by decide)) hk2.2.1 hk2.1,
      if_pos ((not_proxied_iff k).2 hk1), List.nil_append]
  · rw [h4]
    unfold encodeUpstreamResponseBody
    dsimp only
    repeat' split
    · exact .inr (.inl rfl)
    · exact .inr (.inr rfl)
    · exact .inl rfl
    · left
      have : w.body.length = 0 := by omega
      exact (List.length_eq_zero_iff.mp this).symm

/-- C37 fails: the headers delivered with the last attempt's status and body are those of the first
attempt. -/
theorem C37_violated : ∃ s v y, Demo.setup.Reaches s ∧ s.pc = .done ∧ s.curA.vResp = some v ∧
    v.header.WF ∧ s.sent = [y] ∧ y.status = v.status ∧ y.status < 400 ∧ y.body = v.body ∧
    y.header "X".toList ≠ v.header.values "X".toList := by
  obtain ⟨s, hs, hp⟩ := Demo.of_check (x := Demo.setup) (as := Demo.lateHeaders)
    (p := fun s => (Demo.seen s).finished && s.curA.vResp == some Demo.ok &&
      (Demo.seen s).sent == [(200, ["other".toList], Demo.ok.body)]) (by decide +kernel)
  simp only [Bool.and_eq_true, beq_iff_eq] at hp
  obtain ⟨⟨h1, h2⟩, h3⟩ := hp
  obtain ⟨y, hsent, h3⟩ := Demo.seen_one h3
  simp only [Prod.mk.injEq] at h3
  refine ⟨s, _, y, Demo.reaches hs, Demo.done_of_seen h1, h2, ?_, hsent, h3.1, ?_, h3.2.2, ?_⟩
  · exact ⟨by decide, by decide⟩
  · rw [h3.1]; decide
  · rw [h3.2.1]; decide

/-! ## C38, C39: Content-Encoding -/

theorem sentBody_empty {e : RespEnv} {v : UpResp} (h : v.body = []) : sentBody e v = [] := by
  unfold sentBody encodeUpstreamResponseBody
  rw [h]
  rfl

theorem sentBody_some {e : RespEnv} {v : UpResp} (h : v.body ≠ []) : sentBody e v =
    if e.sendGzip && !hasGzipMagic v.body then e.codec.enc v.body
    else if !e.sendGzip && hasGzipMagic v.body then e.codec.dec v.body else v.body := by
  have : 0 < v.body.length := List.length_pos_iff.mpr h
  unfold sentBody encodeUpstreamResponseBody
  simp only [this, if_true]

theorem magic_length {b : Bytes} (h : hasGzipMagic b = true) : 0 < b.length := by
  cases b with
  | nil => simp [hasGzipMagic] at h
  | cons c cs => simp

/-- The entity is not changed by proxying. -/
theorem proxied_entity (e : RespEnv) (v : UpResp) (hl : e.codec.Lossless) (hw : v.header.WF)
    (ht : v.Truthful)
    (hk : e.sendGzip = true → codingOf (v.header.values "Content-Encoding".toList) = .identity ∨
      codingOf (v.header.values "Content-Encoding".toList) = .gzip) :
    entity e.codec (codingOf ((proxiedResponse e v).header "Content-Encoding".toList))
        (proxiedResponse e v).body =
      entity e.codec (codingOf (v.header.values "Content-Encoding".toList)) v.body := by
  have hm := ht.magic
  have hs := ht.single
  rw [proxied_body, proxied_encoding, Entries.under_wf hw]
  unfold contentEncoding
  dsimp only
  generalize v.header.values "Content-Encoding".toList = ce at *
  by_cases hb : v.body = []
  · rw [sentBody_empty hb, hb]
    rfl
  have hm := hm hb
  have hbl : 0 < v.body.length := List.length_pos_iff.mpr hb
  rw [sentBody_some hb]
  cases hg : e.sendGzip <;> cases hz : hasGzipMagic v.body <;> rw [hz] at hm
  · simp only [Bool.false_and, Bool.not_false, Bool.and_self, Bool.false_eq_true, if_false, if_true,
      hbl, Bool.and_false, Bool.true_and]
    cases ce with
    | nil => rfl
    | cons c cs =>
      cases cs with
      | nil => rfl
      | cons d ds => exact absurd hs (by simp)
  · have hc : codingOf ce = .gzip := hm.1 rfl
    simp only [Bool.false_and, Bool.not_false, Bool.and_self, Bool.false_eq_true, if_false, if_true,
      Bool.not_true]
    rw [hc]
    by_cases hd : 0 < (e.codec.dec v.body).length
    · rw [if_pos hd]
      rfl
    · have hd' : e.codec.dec v.body = [] := List.length_eq_zero_iff.mp (by omega)
      rw [if_neg hd, hc, hd']
      simp only [entity, hl.empty, hd']
  · have hc : codingOf ce = .identity := by
      rcases hk hg with h | h
      · exact h
      · exact absurd (hm.2 h) (by simp)
    have := magic_length (hl.magic v.body)
    simp only [Bool.not_false, Bool.and_self, if_true, this]
    rw [hc]
    show entity e.codec .gzip _ = _
    simp only [entity, hl.roundtrip]
  · have hc : codingOf ce = .gzip := hm.1 rfl
    simp only [Bool.not_true, Bool.and_false, Bool.false_and, Bool.false_eq_true, if_false, if_true, hbl]
    rw [hc]
    rfl

/-- C38 without late writes, for a codec that works and an upstream that tells the truth about at
most one content coding, which is gzip or none if the client's Accept-Encoding names gzip. -/
theorem C38_partial (x : Setup K) (s : St) (h : x.ReachesOrderly s) {r : Route} {u : URL} {l : Str}
    (hd : x.dec = .forward r u l) (hf : s.pc = .done) (hl : x.sv.codec.Lossless) (y : Sent)
    (hy : y ∈ s.sent) (hs : y.status < 400) (v : UpResp) (hv : s.curA.vResp = some v)
    (hw : v.header.WF) (ht : v.Truthful)
    (hk : contains (x.rq.header.get "Accept-Encoding".toList) "gzip".toList = true →
      codingOf (v.header.values "Content-Encoding".toList) = .identity ∨
      codingOf (v.header.values "Content-Encoding".toList) = .gzip) :
    entity x.sv.codec (codingOf (y.header "Content-Encoding".toList)) y.body =
      entity x.sv.codec (codingOf (v.header.values "Content-Encoding".toList)) v.body := by
  obtain ⟨v', hv', hy', -⟩ := C37_partial x s h hd hf y hy hs
  rw [hv] at hv'
  cases hv'
  rw [hy']
  exact proxied_entity x.respEnv v hl hw ht hk

/-- A gateway like `Demo.setup` for a client that accepts gzip. -/
def Demo.gzipSetup : Setup Nat :=
  { Demo.setup with rq := { Demo.request with
      header := [("Accept-Encoding".toList, ["gzip, br".toList])] } }

open Demo in
/-- An undisturbed request of such a client, answered at once. -/
def Demo.successGzip (r : UpResp) : List Act :=
  [go] ++ headers 0 r ++ body 0 ++ List.replicate 13 go

theorem Demo.orderly_gzip {x : Setup Nat} {r : UpResp} {s : St}
    (h : exec x (successGzip r) = some s) : x.ReachesOrderly s := by
  refine C50_covered_no_timeout _ s _ h ?_
  intro a ha i hi
  subst hi
  revert ha
  simp [Demo.successGzip, Demo.headers, Demo.body]

/-- A response in another coding. -/
def Demo.brotli : UpResp :=
  { status := 200, header := [("Content-Encoding".toList, ["br".toList])], body := [7, 7] }

/-- A gzip body. -/
def Demo.zipped : UpResp :=
  { status := 200, header := [("Content-Encoding".toList, ["gzip".toList])],
    body := [0x1f, 0x8b, 5, 6] }

/-- C38 fails without that hypothesis: a brotli body is compressed again and delivered as gzip only.
The client gets brotli bytes as the entity. -/
theorem C38_violated : Demo.server.codec.Lossless ∧ Demo.brotli.Truthful ∧
    ∃ s y, Demo.gzipSetup.ReachesOrderly s ∧ s.pc = .done ∧ s.curA.vResp = some Demo.brotli ∧
      s.sent = [y] ∧ y.status = 200 ∧
      entity Demo.server.codec (codingOf (y.header "Content-Encoding".toList)) y.body =
        (.identity, [7, 7]) ∧
      entity Demo.server.codec (codingOf (Demo.brotli.header.values "Content-Encoding".toList))
        Demo.brotli.body = (.other ["br".toList], [7, 7]) := by
  refine ⟨⟨fun b => rfl, fun b => rfl, rfl⟩, ⟨by decide, by decide⟩, ?_⟩
  obtain ⟨s, hs, hp⟩ := Demo.of_check (x := Demo.gzipSetup) (as := Demo.successGzip Demo.brotli)
    (p := fun s => (Demo.seen s).finished && s.curA.vResp == some Demo.brotli &&
      s.sent.map (fun y => (y.status, y.header "Content-Encoding".toList, y.body)) ==
        [(200, ["gzip".toList], [0x1f, 0x8b, 7, 7])]) (by decide +kernel)
  simp only [Bool.and_eq_true, beq_iff_eq] at hp
  obtain ⟨⟨h1, h2⟩, h3⟩ := hp
  obtain ⟨y, hy, h3⟩ := Demo.one_of_map h3
  simp only [Prod.mk.injEq] at h3
  refine ⟨s, y, Demo.orderly_gzip hs, Demo.done_of_seen h1, h2, hy, h3.1, ?_, by decide⟩
  rw [h3.2.1, h3.2.2]
  decide

/-- The hypotheses of `C38_partial` are satisfied: a gzip body for a client without gzip. -/
example : ∃ s y, Demo.setup.ReachesOrderly s ∧ s.pc = .done ∧ s.sent = [y] ∧ y.status < 400 ∧
    s.curA.vResp = some Demo.zipped ∧ Demo.zipped.header.WF ∧ Demo.zipped.Truthful ∧
    y.header "Content-Encoding".toList = ["identity".toList] ∧ y.body = [5, 6] := by
  obtain ⟨s, hs, hp⟩ := Demo.of_check (x := Demo.setup) (as := Demo.successGzip Demo.zipped)
    (p := fun s => (Demo.seen s).finished && s.curA.vResp == some Demo.zipped &&
      s.sent.map (fun y => (y.status, y.header "Content-Encoding".toList, y.body)) ==
        [(200, ["identity".toList], [5, 6])]) (by decide +kernel)
  simp only [Bool.and_eq_true, beq_iff_eq] at hp
  obtain ⟨⟨h1, h2⟩, h3⟩ := hp
  obtain ⟨y, hy, h3⟩ := Demo.one_of_map h3
  simp only [Prod.mk.injEq] at h3
  exact ⟨s, y, Demo.orderly_gzip hs, Demo.done_of_seen h1, hy, by rw [h3.1]; decide, h2,
    ⟨by decide, by decide⟩, ⟨by decide, by decide⟩, h3.2.1, h3.2.2⟩

/-- C39 without gzip: an own response to a client that does not name gzip is not compressed, and no
coding is declared. -/
theorem C39_partial (x : Setup K) (s : St) (h : x.Reaches s) (y : Sent) (hy : y ∈ s.sent)
    (ho : y.header "Content-Length".toList = [])
    (hg : contains (x.rq.header.get "Accept-Encoding".toList) "gzip".toList = false) :
    y.header "Content-Encoding".toList = [] ∧
      ∃ msg, y.body = strBytes (statusJson x.sv.id x.sv.version x.seed y.status msg) := by
  obtain ⟨code, msg, rfl⟩ := (own_iff h hy).1 ho
  refine ⟨?_, msg, ?_⟩
  · rw [C36_own_headers_partial x s h _ hy ho, if_neg (by decide), if_neg (by decide),
      if_neg (by decide), if_neg (fun h => absurd h.1 (by decide))]
  · show (if sendGzip x.rq = true then _ else _) = _
    rw [show sendGzip x.rq = false from hg]
    rfl

/-- C39 fails for every own response to a client that names gzip: the body is compressed, and no
coding is declared. -/
theorem C39_violated (x : Setup K) (s : St) (h : x.Reaches s) (y : Sent) (hy : y ∈ s.sent)
    (ho : y.header "Content-Length".toList = [])
    (hg : contains (x.rq.header.get "Accept-Encoding".toList) "gzip".toList = true) :
    y.header "Content-Encoding".toList = [] ∧
      ∃ msg, y.body =
        x.sv.codec.enc (strBytes (statusJson x.sv.id x.sv.version x.seed y.status msg)) := by
  obtain ⟨code, msg, rfl⟩ := (own_iff h hy).1 ho
  refine ⟨?_, msg, ?_⟩
  · rw [C36_own_headers_partial x s h _ hy ho, if_neg (by decide), if_neg (by decide),
      if_neg (by decide), if_neg (fun h => absurd h.1 (by decide))]
  · show (if sendGzip x.rq = true then _ else _) = _
    rw [show sendGzip x.rq = true from hg]
    rfl

/-- Such a response: 404 for a client that accepts gzip. -/
theorem C39_violated_witness : ∃ s y, Demo.gzipSetup.Reaches s ∧ s.pc = .done ∧ s.sent = [y] ∧
    y.status = 404 ∧ y.header "Content-Encoding".toList = [] ∧ hasGzipMagic y.body = true := by
  obtain ⟨s, hs, hp⟩ := Demo.of_check (x := Demo.gzipSetup)
    (as := [Demo.go] ++ Demo.headers 0 Demo.notFound ++ Demo.body 0 ++ List.replicate 9 Demo.go)
    (p := fun s => (Demo.seen s).finished &&
      s.sent.map (fun y => (y.status, y.header "Content-Encoding".toList, hasGzipMagic y.body)) ==
        [(404, [], true)]) (by decide +kernel)
  simp only [Bool.and_eq_true, beq_iff_eq] at hp
  obtain ⟨y, hy, h3⟩ := Demo.one_of_map hp.2
  simp only [Prod.mk.injEq] at h3
  exact ⟨s, y, Demo.reaches hs, Demo.done_of_seen hp.1, hy, h3⟩

/-! ## C40, C41: Content-Length -/

/-- C40, for every schedule: a proxied response to a method other than HEAD (in any case) declares
the number of bytes net/http lets through. A 304 response has to be without body (net/http's client
reads none). -/
theorem C40_partial (x : Setup K) (s : St) (h : x.Reaches s) (y : Sent) (hy : y ∈ s.sent)
    (ho : y.header "Content-Length".toList ≠ []) (hm : toUpper x.rq.method ≠ "HEAD".toList)
    (h3 : y.status = 304 → y.body = []) :
    y.header "Content-Length".toList = [natToDec (deliveredBody x.rq.method y).length] := by
  have hm' : x.rq.method ≠ "HEAD".toList := fun h => hm (by rw [h]; decide)
  rcases length_of_reaches h hy with ⟨code, msg, rfl⟩ | ⟨-, ⟨hn, hz⟩ | ⟨hn, hb⟩⟩
  · exact absurd (json_cl _ _ _) ho
  · have hget : y.header.get "Content-Length".toList = "0".toList := by
      unfold Hdr.get
      rw [canon_cl, hz]; rfl
    have hd : deliveredBody x.rq.method y = [] := by
      unfold deliveredBody
      split
      · rfl
      · rw [hget, show atoi "0".toList = some 0 by decide]
        dsimp only
        split
        · rfl
        · rename_i hlt
          apply List.length_eq_zero_iff.mp
          omega
    rw [hz, hd]
    rfl
  · rw [hb (show toUpper x.rq.method ≠ _ from hm)]
    have hget : y.header.get "Content-Length".toList = natToDec y.body.length := by
      unfold Hdr.get
      rw [canon_cl, hb (show toUpper x.rq.method ≠ _ from hm)]; rfl
    have hd : deliveredBody x.rq.method y = y.body := by
      unfold deliveredBody
      split
      · rename_i hc
        rcases hc with hc | hc | hc | hc
        · exact absurd hc hm'
        · exact absurd (.inr (.inl hc)) hn
        · exact absurd (.inl hc) hn
        · exact (h3 hc).symm
      · rw [hget]
        split
        · rename_i n hn'
          split
          · rename_i hlt
            exfalso
            rw [atoi_natToDec] at hn'
            split at hn'
            · cases hn'
              omega
            · cases hn'
          · rfl
        · rfl
    rw [hd]

/-- C40 without late writes: the hypothesis about 304 is one about the upstream. -/
theorem C40_orderly_partial (x : Setup K) (s : St) (h : x.ReachesOrderly s) {r : Route} {u : URL}
    {l : Str} (hd : x.dec = .forward r u l) (hf : s.pc = .done) (y : Sent) (hy : y ∈ s.sent)
    (hs : y.status < 400) (hm : toUpper x.rq.method ≠ "HEAD".toList)
    (h3 : ∀ v, s.curA.vResp = some v → v.status = 304 → v.body = []) :
    y.header "Content-Length".toList = [natToDec (deliveredBody x.rq.method y).length] := by
  obtain ⟨v, hv, rfl, -⟩ := C37_partial x s h hd hf y hy hs
  refine C40_partial x s (h.imp fun _ h => h.1) _ hy ?_ hm fun h304 => ?_
  · rw [proxied_length]; simp
  · rw [proxied_body, sentBody_empty (h3 v hv h304)]

/-- A request with the method in lower case. -/
def Demo.headSetup : Setup Nat :=
  { Demo.setup with rq := { Demo.request with method := "head".toList } }

/-- The upstream's response to HEAD. -/
def Demo.sized : UpResp :=
  { status := 200, header := [("Content-Length".toList, ["1234".toList])] }

open Demo in
/-- An undisturbed request whose response has no body. -/
def Demo.successEmpty (r : UpResp) : List Act :=
  [go] ++ headers 0 r ++ body 0 ++ List.replicate 14 go

theorem Demo.orderly_empty {x : Setup Nat} {r : UpResp} {s : St}
    (h : exec x (successEmpty r) = some s) : x.ReachesOrderly s := by
  refine C50_covered_no_timeout _ s _ h ?_
  intro a ha i hi
  subst hi
  revert ha
  simp [Demo.successEmpty, Demo.headers, Demo.body]

/-- C40 fails for the method "head": the gateway takes it for HEAD, net/http does not, so a length is
declared that the body does not have. -/
theorem C40_violated : ∃ s y, Demo.headSetup.ReachesOrderly s ∧ s.pc = .done ∧ s.sent = [y] ∧
    Demo.headSetup.rq.method ≠ "HEAD".toList ∧ y.status = 200 ∧
    y.header "Content-Length".toList = ["1234".toList] ∧
    (deliveredBody Demo.headSetup.rq.method y).length = 0 := by
  obtain ⟨s, hs, hp⟩ := Demo.of_check (x := Demo.headSetup) (as := Demo.successEmpty Demo.sized)
    (p := fun s => (Demo.seen s).finished &&
      s.sent.map (fun y => (y.status, y.header "Content-Length".toList,
        (deliveredBody Demo.headSetup.rq.method y).length)) == [(200, ["1234".toList], 0)])
    (by decide +kernel)
  simp only [Bool.and_eq_true, beq_iff_eq] at hp
  obtain ⟨y, hy, h3⟩ := Demo.one_of_map hp.2
  simp only [Prod.mk.injEq] at h3
  exact ⟨s, y, Demo.orderly_empty hs, Demo.done_of_seen hp.1, hy, by decide, h3⟩

/-- The hypotheses of `C40_partial` are satisfied. -/
example : ∃ s y, Demo.setup.Reaches s ∧ y ∈ s.sent ∧ y.status ≠ 304 ∧
    toUpper Demo.setup.rq.method ≠ "HEAD".toList ∧
    y.header "Content-Length".toList = ["2".toList] := by
  obtain ⟨s, hs, hp⟩ := Demo.of_check (x := Demo.setup) (as := Demo.success Demo.ok)
    (p := fun s => s.sent.map (fun y => (y.status, y.header "Content-Length".toList)) ==
      [(200, ["2".toList])]) (by decide +kernel)
  simp only [beq_iff_eq] at hp
  obtain ⟨y, hy, h3⟩ := Demo.one_of_map hp
  simp only [Prod.mk.injEq] at h3
  exact ⟨s, y, Demo.reaches hs, by rw [hy]; simp, by rw [h3.1]; decide, by decide, h3.2⟩

/-- C41 for every schedule: the length declared for HEAD is 0 or a number that a received response
declared. -/
theorem C41_every_schedule_partial (x : Setup K) (s : St) (h : x.Reaches s) (y : Sent)
    (hy : y ∈ s.sent) (hm : toUpper x.rq.method = "HEAD".toList)
    (ho : y.header "Content-Length".toList ≠ []) :
    y.header "Content-Length".toList = ["0".toList] ∨
      ∃ i v n, i < s.n ∧ (s.atmpt i).vResp = some v ∧
        atoi (v.header.get "Content-Length".toList) = some n ∧
        y.header "Content-Length".toList = [v.header.get "Content-Length".toList] := by
  rcases (proxied_parts h hy ho).2.2.2 hm with h1 | ⟨v, ⟨i, hi, hv⟩, h1, h2⟩
  · exact .inl h1
  · obtain ⟨n, hn⟩ := Option.isSome_iff_exists.mp h2
    exact .inr ⟨i, v, n, hi, hv, hn, h1⟩

/-- C41 without late writes: it is the last attempt's, unless the status can have no length. -/
theorem C41_partial (x : Setup K) (s : St) (h : x.ReachesOrderly s) {r : Route} {u : URL} {l : Str}
    (hd : x.dec = .forward r u l) (hf : s.pc = .done) (y : Sent) (hy : y ∈ s.sent)
    (hs : y.status < 400) (hm : toUpper x.rq.method = "HEAD".toList)
    (hn : ¬ (y.status = 204 ∨ 100 ≤ y.status ∧ y.status < 200)) :
    ∃ v, s.curA.vResp = some v ∧ y.header "Content-Length".toList =
      [match atoi (v.header.get "Content-Length".toList) with
        | some _ => v.header.get "Content-Length".toList
        | none => "0".toList] := by
  obtain ⟨v, hv, rfl, -⟩ := C37_partial x s h hd hf y hy hs
  refine ⟨v, hv, ?_⟩
  have hm' : x.respEnv.method = "HEAD".toList := hm
  rw [proxied_length]
  unfold lengthValue
  rw [proxied_status] at hn
  rw [if_neg, if_pos hm']
  · have hnil : atoi [] = none := by decide
    generalize v.header.get "Content-Length".toList = t
    cases ha : atoi t with
    | none => rw [if_neg (by simp)]
    | some n =>
      have : t ≠ [] := by rintro rfl; rw [hnil] at ha; cases ha
      rw [if_pos ⟨List.length_pos_iff.mpr this, rfl⟩]
  · rw [lengthIsZero_of_noTE _ _ _ (baseHdr_te _ _), hm']
    rintro (h1 | h1 | h1)
    · exact hn (.inl h1)
    · exact hn (.inr h1)
    · revert h1; decide

/-- A HEAD request. -/
def Demo.bigHead : Setup Nat :=
  { Demo.setup with rq := { Demo.request with method := "HEAD".toList } }

open Demo in
/-- The first attempt's response is stored just before the length is declared. -/
def Demo.lateLength : List Act :=
  silent 0 ++ [go] ++ headers 1 sized ++ body 1 ++ List.replicate 9 go ++
    [.hgReturn 0 (some { sized with header := [("Content-Length".toList, ["77".toList])] }),
      .hgWrite 0] ++ List.replicate 5 go

/-- C41 fails with late writes: the headers are those of the last attempt, the length is another's. -/
theorem C41_violated : ∃ s v y, Demo.bigHead.Reaches s ∧ s.pc = .done ∧ s.curA.vResp = some v ∧
    s.sent = [y] ∧ y.status = 200 ∧ v.header.get "Content-Length".toList = "1234".toList ∧
    y.header "Content-Length".toList = ["77".toList] := by
  obtain ⟨s, hs, hp⟩ := Demo.of_check (x := Demo.bigHead) (as := Demo.lateLength)
    (p := fun s => (Demo.seen s).finished && s.curA.vResp == some Demo.sized &&
      s.sent.map (fun y => (y.status, y.header "Content-Length".toList)) ==
        [(200, ["77".toList])]) (by decide +kernel)
  simp only [Bool.and_eq_true, beq_iff_eq] at hp
  obtain ⟨y, hy, h3⟩ := Demo.one_of_map hp.2
  simp only [Prod.mk.injEq] at h3
  exact ⟨s, _, y, Demo.reaches hs, Demo.done_of_seen hp.1.1, hp.1.2, hy, h3.1, by decide, h3.2⟩

/-- The hypotheses of `C41_partial` are satisfied. -/
example : ∃ s y, Demo.bigHead.ReachesOrderly s ∧ s.pc = .done ∧ s.sent = [y] ∧ y.status = 200 ∧
    toUpper Demo.bigHead.rq.method = "HEAD".toList ∧
    y.header "Content-Length".toList = ["1234".toList] := by
  obtain ⟨s, hs, hp⟩ := Demo.of_check (x := Demo.bigHead) (as := Demo.successEmpty Demo.sized)
    (p := fun s => (Demo.seen s).finished &&
      s.sent.map (fun y => (y.status, y.header "Content-Length".toList)) ==
        [(200, ["1234".toList])]) (by decide +kernel)
  simp only [Bool.and_eq_true, beq_iff_eq] at hp
  obtain ⟨y, hy, h3⟩ := Demo.one_of_map hp.2
  simp only [Prod.mk.injEq] at h3
  exact ⟨s, y, Demo.orderly_empty hs, Demo.done_of_seen hp.1, hy, h3.1, by decide, h3.2⟩

/-! ## C43: own bodies -/

theorem fixName_object (f : JsonField) (rest : List (Str × JsonField)) :
    fixName (jsonObject (("J8a".toList, f) :: rest)) = jsonObject (("j8a".toList, f) :: rest) := by
  have h1 : jsonString "J8a".toList = ['"', 'J', '8', 'a', '"'] := by decide
  have h2 : jsonString "j8a".toList = ['"', 'j', '8', 'a', '"'] := by decide
  unfold fixName jsonObject
  cases rest with
  | nil => simp only [List.map_cons, List.map_nil, join, h1, h2]; rfl
  | cons g gs => simp only [List.map_cons, join, h1, h2]; rfl

theorem messageFor_ne_nil (code : Int) : messageFor code ≠ [] := by
  unfold messageFor
  split
  · rename_i m hm
    have hall : ∀ p ∈ httpResponses, p.2.toList ≠ [] := by decide
    have : ∃ p ∈ httpResponses, p.2 = m := by
      revert hm
      generalize httpResponses = l
      intro hm
      induction l with
      | nil => cases hm
      | cons p l ih =>
        obtain ⟨c, t⟩ := p
        rw [List.lookup_cons] at hm
        split at hm
        · cases hm
          exact ⟨_, List.mem_cons_self .., rfl⟩
        · obtain ⟨p, hp, he⟩ := ih hm
          exact ⟨p, List.mem_cons_of_mem _ hp, he⟩
    obtain ⟨p, hp, rfl⟩ := this
    exact hall p hp
  · decide

theorem responseMessage_ne_nil (code : Int) (msg : Str) : responseMessage code msg ≠ [] := by
  unfold responseMessage
  split
  · exact messageFor_ne_nil code
  · rename_i h
    rintro rfl
    exact h (.inl rfl)

/-- A text as a string value, if the bytes are text; something otherwise. -/
def TextOf (bytes : Str) (v : List Char) : Prop := ∀ cs, bytes = utf8 cs → v = cs

theorem reads_str {s : Str} {v : Json.Value} (h : Reads (.str s) v) :
    ∃ t, v = .str t ∧ TextOf s t ∧ (s ≠ [] → t ≠ []) := by
  cases v with
  | str t => exact ⟨t, rfl, h.1, h.2⟩
  | int n => exact h.elim
  | bool b => exact h.elim

theorem reads_int {n : Int} {v : Json.Value} (h : Reads (.int n) v) : v = .int n := by
  cases v with
  | str t => exact h.elim
  | int m => rw [show n = m from h]
  | bool b => exact h.elim

theorem statusJson_spec (id version : Str) (seed : Nat) (code : Int) (msg : Str) :
    ∃ text hello i v m, statusJson id version seed code msg = utf8 text ∧
      Json.parse text = some [("j8a".toList, .str hello), ("ServerID".toList, .str i),
        ("Version".toList, .str v), ("Code".toList, .int code), ("Message".toList, .str m)] ∧
      m ≠ [] ∧ TextOf id i ∧ TextOf version v ∧
      TextOf (if msg.length = 0 ∨ msg = "none".toList then messageFor code else msg) m := by
  unfold statusJson aboutFields
  rw [List.cons_append, fixName_object]
  obtain ⟨text, vals, h1, h2, h3⟩ := jsonObject_spec (("j8a".toList, .str (randomHuttese seed)) ::
    ([("ServerID".toList, .str id), ("Version".toList, .str version)] ++
      [("Code".toList, .int code), ("Message".toList, .str (responseMessage code msg))])) (by simp)
    (by
      intro f hf
      simp only [List.cons_append, List.nil_append, List.mem_cons, List.not_mem_nil, or_false] at hf
      rcases hf with rfl | rfl | rfl | rfl | rfl <;> dsimp only <;> decide)
  rcases h3 with _ | ⟨r1, _ | ⟨r2, _ | ⟨r3, _ | ⟨r4, _ | ⟨r5, r6⟩⟩⟩⟩⟩
  cases r6
  obtain ⟨hello, rfl, -, -⟩ := reads_str r1
  obtain ⟨i, rfl, hi, -⟩ := reads_str r2
  obtain ⟨v, rfl, hv, -⟩ := reads_str r3
  cases reads_int r4
  obtain ⟨m, rfl, hm, hm'⟩ := reads_str r5
  exact ⟨text, hello, i, v, m, h1, h2, hm' (responseMessage_ne_nil code msg), hi, hv, hm⟩

/-- C43: the (decompressed) body of every own response is the UTF-8 form of a JSON object that names
the response's status and has a message; the server id and version are recovered if they are
UTF-8. -/
theorem C43_own_bodies (x : Setup K) (s : St) (h : x.Reaches s) (y : Sent) (hy : y ∈ s.sent)
    (ho : y.header "Content-Length".toList = []) :
    ∃ text hello i v m,
      y.body = (if contains (x.rq.header.get "Accept-Encoding".toList) "gzip".toList
        then x.sv.codec.enc (strBytes (utf8 text)) else strBytes (utf8 text)) ∧
      Json.parse text = some [("j8a".toList, .str hello), ("ServerID".toList, .str i),
        ("Version".toList, .str v), ("Code".toList, .int y.status), ("Message".toList, .str m)] ∧
      m ≠ [] ∧ (∀ cs, x.sv.id = utf8 cs → i = cs) ∧ (∀ cs, x.sv.version = utf8 cs → v = cs) := by
  obtain ⟨code, msg, rfl⟩ := (own_iff h hy).1 ho
  obtain ⟨text, hello, i, v, m, h1, h2, h3, h4, h5, -⟩ :=
    statusJson_spec x.sv.id x.sv.version x.seed code msg
  refine ⟨text, hello, i, v, m, ?_, h2, h3, h4, h5⟩
  rw [← h1]
  rfl

/-- The texts of the messages: for each own response of the handler the JSON message is the text for
the status or the message given. -/
theorem C43_message (id version : Str) (seed : Nat) (code : Int) (msg : Str) :
    ∃ text hello i v m, statusJson id version seed code msg = utf8 text ∧
      Json.parse text = some [("j8a".toList, .str hello), ("ServerID".toList, .str i),
        ("Version".toList, .str v), ("Code".toList, .int code), ("Message".toList, .str m)] ∧
      ∀ cs, (if msg = [] ∨ msg = "none".toList then messageFor code else msg) = utf8 cs → m = cs := by
  obtain ⟨text, hello, i, v, m, h1, h2, -, -, -, h6⟩ := statusJson_spec id version seed code msg
  refine ⟨text, hello, i, v, m, h1, h2, ?_⟩
  intro cs hcs
  refine h6 cs ?_
  rw [← hcs]
  simp only [List.length_eq_zero_iff]

/-- A version with quotes, a control character, a non-ASCII character and a byte that is not UTF-8. -/
example : ∃ text hello i m,
    statusJson "id".toList (['"', '\n'] ++ utf8 ['é', '€'] ++ [Char.ofNat 0xff, '<']) 3 404 "none".toList
      = utf8 text ∧
    Json.parse text = some [("j8a".toList, .str hello), ("ServerID".toList, .str i),
      ("Version".toList, .str ['"', '\n', 'é', '€', Char.ofNat 0xfffd, '<']),
      ("Code".toList, .int 404), ("Message".toList, .str m)] ∧ m = "not found".toList :=
  ⟨('{' :: "\"j8a\":\"Chuba!\",\"ServerID\":\"id\",\"Version\":\"\\\"\\né€\\ufffd\\u003c\",\"Code\":404,\"Message\":\"not found\"}".toList),
    "Chuba!".toList, "id".toList, "not found".toList, by decide +kernel, by decide +kernel, rfl⟩

/-- An own response: the bodies of the 404 above. -/
example : ∃ s y, Demo.setup.Reaches s ∧ y ∈ s.sent ∧ y.header "Content-Length".toList = [] ∧
    y.status = 404 := by
  obtain ⟨s, hs, hp⟩ := Demo.of_check (x := Demo.setup) (as := Demo.refused 0 Demo.notFound)
    (p := fun s => s.sent.map (fun y => (y.header "Content-Length".toList, y.status)) ==
      [([], 404)]) (by decide +kernel)
  simp only [beq_iff_eq] at hp
  obtain ⟨y, hy, h3⟩ := Demo.one_of_map hp
  simp only [Prod.mk.injEq] at h3
  exact ⟨s, y, Demo.reaches hs, by rw [hy]; simp, h3⟩

/-! ## C44: gzip only for clients that accept it -/

theorem split_prefix {sep : Char} {p : Str} (h : sep ∉ p) (b : Str) :
    ∃ w ws, split sep (p ++ b) = (p ++ w) :: ws := by
  induction p with
  | nil =>
    cases hs : split sep b with
    | nil => exact absurd hs (split_ne_nil sep b)
    | cons w ws => exact ⟨w, ws, hs⟩
  | cons c p ih =>
    obtain ⟨w, ws, hw⟩ := ih (fun hm => h (List.mem_cons_of_mem _ hm))
    refine ⟨w, ws, ?_⟩
    have hc : c ≠ sep := fun he => h (by rw [he]; exact List.mem_cons_self ..)
    rw [List.cons_append, split, if_neg hc, hw]
    rfl

theorem contains_split {sub : Str} {sep : Char} (h : sep ∉ sub) (s : Str)
    (hc : contains s sub = true) : ∃ w ∈ split sep s, contains w sub = true := by
  obtain ⟨a, b, rfl⟩ := contains_iff.mp hc
  clear hc
  induction a with
  | nil =>
    obtain ⟨w, ws, hw⟩ := split_prefix h b
    rw [List.nil_append, hw]
    exact ⟨_, List.mem_cons_self .., contains_iff.mpr ⟨[], w, rfl⟩⟩
  | cons c a ih =>
    obtain ⟨w, hw, hcw⟩ := ih
    simp only [List.cons_append]
    rw [split]
    split
    · exact ⟨w, List.mem_cons_of_mem _ hw, hcw⟩
    · cases hs : split sep (a ++ sub ++ b) with
      | nil => exact absurd hs (split_ne_nil _ _)
      | cons w0 ws =>
        rw [hs] at hw
        rcases List.mem_cons.mp hw with rfl | hw
        · obtain ⟨a', b', rfl⟩ := contains_iff.mp hcw
          exact ⟨_, List.mem_cons_self .., contains_iff.mpr ⟨c :: a', b', rfl⟩⟩
        · exact ⟨w, List.mem_cons_of_mem _ hw, hcw⟩

/-- Where the gateway compresses, a client with usual elements accepts gzip. -/
theorem accepts_of_sendGzip {rq : Request}
    (hu : ∀ v ∈ rq.header.values "Accept-Encoding".toList, ∀ el ∈ split ',' v, UsualElement el)
    (hg : sendGzip rq = true) : acceptsGzip (rq.header.values "Accept-Encoding".toList) := by
  unfold sendGzip Entries.get at hg
  rw [show canon "Accept-Encoding".toList = "Accept-Encoding".toList by decide] at hg
  cases hv : rq.header.values "Accept-Encoding".toList with
  | nil => rw [hv] at hg; exact absurd hg (by decide)
  | cons v vs =>
    rw [hv] at hg hu
    simp only [List.headD_cons] at hg
    obtain ⟨el, hel, hc⟩ := contains_split (sep := ',') (by decide) v hg
    have hue := hu v (List.mem_cons_self ..) el hel
    refine ⟨v, List.mem_cons_self .., el, hel, hue.weight, ?_⟩
    obtain ⟨p, hp, hcp⟩ := contains_split (sep := ';') (by decide) el hc
    have hfil : ∀ p : Str, contains p "gzip".toList = true →
        contains (p.filter fun c => c != ' ' && c != '\t') "gzip".toList = true := by
      intro p hp
      obtain ⟨a, b, rfl⟩ := contains_iff.mp hp
      refine contains_iff.mpr ⟨a.filter fun c => c != ' ' && c != '\t',
        b.filter fun c => c != ' ' && c != '\t', ?_⟩
      rw [List.filter_append, List.filter_append]
      congr 1
    cases hsp : split ';' el with
    | nil => exact absurd hsp (split_ne_nil _ _)
    | cons n ps =>
      rw [hsp] at hp
      rcases List.mem_cons.mp hp with rfl | hp
      · have hname : contains (codingName el) "gzip".toList = true := by
          unfold codingName
          rw [hsp]
          obtain ⟨a, b, hab⟩ := contains_iff.mp (hfil _ hcp)
          refine contains_iff.mpr ⟨toLower a, toLower b, ?_⟩
          rw [List.headD_cons, hab]
          simp [toLower]
        have := hue.name
        revert this hname
        generalize codingName el = name
        intro h1 h2
        have hdec : ∀ n ∈ usualCodings, contains n "gzip".toList = true →
            n ∈ ["gzip", "x-gzip", "*"].map String.toList := by decide
        exact hdec name h2 h1
      · exfalso
        have hpar := hue.params (p.filter fun c => c != ' ' && c != '\t') (by
          unfold codingParams
          rw [hsp]
          exact List.mem_map.mpr ⟨p, hp, rfl⟩)
        obtain ⟨a, b, hab⟩ := contains_iff.mp (hfil _ hcp)
        have := hpar 'g' (by rw [hab]; simp)
        exact absurd this (by decide)

/-- The same gateway with another compressor. -/
def Setup.withEnc (x : Setup K) (enc : Bytes → Bytes) : Setup K :=
  { x with sv := { x.sv with codec := { x.sv.codec with enc := enc } } }

theorem stepMain_enc {e e' : Env} {enc : Bytes → Bytes} (he : e' = { e with codec := { e.codec with enc := enc } })
    (hg : e.sendGzip = false) (s : St) (c : Choice) : stepMain e' s c = stepMain e s c := by
  subst he
  cases hpc : s.pc <;> simp only [stepMain, hpc] <;> try rfl
  · simp only [encodeUpstreamResponseBody, hg]; rfl
  · simp only [jsonResponse, hg]; rfl

theorem run_enc {e e' : Env} {enc : Bytes → Bytes} (he : e' = { e with codec := { e.codec with enc := enc } })
    (hg : e.sendGzip = false) (s : St) (as : List Act) : run e' s as = run e s as := by
  induction as generalizing s with
  | nil => rfl
  | cons a as ih =>
    have : J8a.step e' s a = J8a.step e s a := by
      cases a <;> first | rfl | exact stepMain_enc he hg s _
    simp only [run, this, ih]

/-- C44 for clients whose Accept-Encoding consists of usual codings with positive weights: if such a
client does not accept gzip, the compressor has no influence on any execution. -/
theorem C44_partial (x : Setup K)
    (hu : ∀ v ∈ x.rq.header.values "Accept-Encoding".toList, ∀ el ∈ split ',' v, UsualElement el)
    (hn : ¬ acceptsGzip (x.rq.header.values "Accept-Encoding".toList)) (enc : Bytes → Bytes)
    (as : List Act) : run (x.withEnc enc).env (initial (x.withEnc enc).dec) as =
      run x.env (initial x.dec) as := by
  have hg : sendGzip x.rq = false := by
    cases hg : sendGzip x.rq
    · rfl
    · exact absurd (accepts_of_sendGzip hu hg) hn
  exact run_enc (e := x.env) (e' := (x.withEnc enc).env) (enc := enc) rfl hg _ as

/-- The hypotheses of `C44_partial` are satisfied by a client that accepts brotli and deflate. -/
example : (∀ v ∈ ["br;q=1.0, deflate".toList], ∀ el ∈ split ',' v, UsualElement el) ∧
    ¬ acceptsGzip ["br;q=1.0, deflate".toList] := by
  have hel : ∀ v ∈ ["br;q=1.0, deflate".toList], ∀ el ∈ split ',' v,
      el = "br;q=1.0".toList ∨ el = " deflate".toList := by decide
  constructor
  · intro v hv el hel'
    rcases hel v hv el hel' with rfl | rfl
    · refine ⟨by decide, by decide, ?_⟩
      rintro ⟨p, hp, z, hz, h⟩
      rw [show codingParams "br;q=1.0".toList = ["q=1.0".toList] by decide, List.mem_singleton] at hp
      subst hp
      rcases h with h | h
      · exact absurd h (by decide)
      · have := congrArg (·[2]?) h
        simp at this
    · refine ⟨by decide, by decide, ?_⟩
      rintro ⟨p, hp, z, hz, h⟩
      rw [show codingParams " deflate".toList = [] by decide] at hp
      cases hp
  · rintro ⟨v, hv, el, hel', -, hn⟩
    rcases hel v hv el hel' with rfl | rfl <;> exact absurd hn (by decide)

/-- A client that refuses gzip. -/
def Demo.refusing : Setup Nat :=
  { Demo.setup with rq := { Demo.request with
      header := [("Accept-Encoding".toList, ["br, gzip;q=0".toList])] } }

/-- C44 fails for weight zero: a client that refuses gzip gets a body compressed by the gateway. -/
theorem C44_violated : ¬ acceptsGzip (Demo.refusing.rq.header.values "Accept-Encoding".toList) ∧
    ∃ s y, Demo.refusing.ReachesOrderly s ∧ s.pc = .done ∧ s.sent = [y] ∧
      s.curA.vResp = some Demo.ok ∧ y.body = Demo.server.codec.enc Demo.ok.body ∧
      y.header "Content-Encoding".toList = ["gzip".toList] := by
  constructor
  · rintro ⟨v, hv, el, hel, hf, hn⟩
    have : ∀ v ∈ Demo.refusing.rq.header.values "Accept-Encoding".toList, ∀ el ∈ split ',' v,
        el = "br".toList ∨ el = " gzip;q=0".toList := by decide
    rcases this v hv el hel with rfl | rfl
    · exact absurd hn (by decide)
    · exact hf ⟨"q=0".toList, by decide, [], by simp, .inl rfl⟩
  · obtain ⟨s, hs, hp⟩ := Demo.of_check (x := Demo.refusing) (as := Demo.successGzip Demo.ok)
      (p := fun s => (Demo.seen s).finished && s.curA.vResp == some Demo.ok &&
        s.sent.map (fun y => (y.body, y.header "Content-Encoding".toList)) ==
          [(Demo.server.codec.enc Demo.ok.body, ["gzip".toList])]) (by decide +kernel)
    simp only [Bool.and_eq_true, beq_iff_eq] at hp
    obtain ⟨y, hy, h3⟩ := Demo.one_of_map hp.2
    simp only [Prod.mk.injEq] at h3
    exact ⟨s, y, Demo.orderly_gzip hs, Demo.done_of_seen hp.1.1, hy, hp.1.2, h3⟩

end J8a

import Verif.Lemmas.Logged
import Verif.Props.Responses
/-!
# C79 to C82: what a request leaves behind, and its log line
-/
namespace J8a
open Go

variable {K : Type}

/-! ## C79: upstream bodies -/

/-- C79: when the handler has ended, also by a panic, each upstream call that was started and is still
running has been cancelled; of each call that has returned a response, the body is closed or the context
cancelled (which makes net/http's client close the connection). -/
theorem C79_released (x : Setup K) (as : List Act) (s : St) (closes : List (Nat × UpResp))
    (h : watch x.env deferred (initial x.dec) [] as = some (s, closes)) (hf : s.pc.finished)
    (k : Nat) (hk : k < s.n) :
    (((s.atmpt k).hg = .calling ∨ ∃ q, (s.atmpt k).hg = .started q) → (s.atmpt k).ctxDone = true) ∧
    ∀ r, (s.atmpt k).vResp = some r → (k, r) ∈ closes ∨ (s.atmpt k).ctxDone = true := by
  rcases going_or_still ⟨as, watch_run h⟩ with ⟨r, u, l, hd, -⟩ | ⟨-, hs⟩
  · rw [hd] at h
    have hall := (watch_invariant
      (P := fun s D => Inv x.env s ∧ CloseInv s ∧ OwnInv s ∧ CloseAll s D)
      (fun s a s' D ⟨h1, h2, h3, h4⟩ hs => by
        refine ⟨h1.step hs, h2.step hs, (h3.step h2 hs).1, ?_⟩
        cases a with
        | main c => exact h4.main h1 h2 h3 hs
        | _ =>
          simp only [step] at hs
          exact h4.other hs)
      ⟨.initial _ r u l, .initial _, (PartsInv.initial x.respEnv r u l).own, fun k hk => .inr ⟨by
        simp only [initial] at hk
        simp only [initial, St.cur]
        omega, .inl rfl⟩⟩ h).2.2.2
    have hr : Released s closes k := by
      rcases hall k hk with hr | ⟨-, hr | hr | hr⟩
      · exact hr
      · rw [hr] at hf; exact hf.elim
      · rw [hr] at hf; exact hf.elim
      · rw [hr.1] at hf; exact hf.elim
    rcases hr with hr | ⟨h1, h2⟩ | ⟨h1, h2, -⟩
    · exact ⟨fun _ => hr, fun _ _ => .inr hr⟩
    · refine ⟨?_, fun r hr => .inl (h2 r hr)⟩
      rintro (hh | ⟨q, hh⟩) <;> rw [hh] at h1 <;> exact h1.elim
    · refine ⟨?_, fun r hr => by rw [h2] at hr; cases hr⟩
      rintro (hh | ⟨q, hh⟩) <;> rw [hh] at h1 <;> cases h1
  · exact absurd hk (by rw [hs.n]; exact Nat.not_lt_zero k)

/-- C79: no body is closed twice by the handler, and only bodies of received responses are. -/
theorem C79_closed_once (x : Setup K) (as : List Act) (s : St) (closes : List (Nat × UpResp))
    (h : watch x.env deferred (initial x.dec) [] as = some (s, closes)) :
    (closes.map Prod.fst).Nodup ∧
    ∀ p ∈ closes, p.1 < s.n ∧ (s.atmpt p.1).vResp = some p.2 := by
  have base : CloseOnce (initial x.dec) [] := ⟨by simp, by simp⟩
  by_cases hd : ∃ r u l, x.dec = .forward r u l
  · obtain ⟨r, u, l, hd⟩ := hd
    rw [hd] at h base
    have := (watch_invariant
      (P := fun s D => Inv x.env s ∧ CloseInv s ∧ OwnInv s ∧ CloseOnce s D)
      (fun s a s' D ⟨h1, h2, h3, h4⟩ hs => by
        refine ⟨h1.step hs, h2.step hs, (h3.step h2 hs).1, ?_⟩
        cases a with
        | main c => exact h4.main h1 h2 h3 hs
        | _ =>
          simp only [step] at hs
          exact h4.other hs h3)
      ⟨.initial _ r u l, .initial _, (PartsInv.initial x.respEnv r u l).own, base⟩ h).2.2.2
    exact ⟨this.nodup, fun p hp => ⟨(this.recv p hp).1, (this.recv p hp).2.1⟩⟩
  · have hn : ∀ r u l, x.dec ≠ .forward r u l := fun r u l h => hd ⟨r, u, l, h⟩
    have := watch_invariant (P := fun s D => Still s ∧ D = [])
      (fun s a s' D ⟨h1, h2⟩ hs => by
        refine ⟨h1.step hs, ?_⟩
        unfold deferred
        split
        · rename_i hp
          have := h1.pc
          simp [hp] at this
        · exact h2) ⟨Still.initial hn, rfl⟩ h
    rw [this.2]
    simp

/-- The first attempt times out while its body is on its way, the second is served: both bodies are
closed by the handler. -/
example : (watch Demo.setup.env deferred (initial Demo.setup.dec) []
      (Demo.stuck 0 Demo.broken ++ Demo.attempt 1 Demo.ok)).map
        (fun p => (p.2.map fun q => (q.1, q.2.status), p.1.n)) =
    some ([(0, 503), (1, 200)], 2) := by
  decide +kernel

/-- The response of the first attempt arrives after the handler has left it: not closed, but its context
is cancelled. -/
example : (watch Demo.setup.env deferred (initial Demo.setup.dec) []
      (Demo.silent 0 ++ Demo.attempt 1 Demo.ok ++ [.hgReturn 0 (some Demo.broken)])).map
        (fun p => (p.2.map fun q => (q.1, q.2.status), (p.1.atmpt 0).vResp.isSome, (p.1.atmpt 0).ctxDone)) =
    some ([(1, 200)], true, true) := by
  decide +kernel

/-! ## C80: goroutines -/

/-- C80: the goroutines of an attempt wait for nothing but the network: whatever the handler and the
other attempts have done, also after the handler's end, a header goroutine can start its call, and when
the call has returned it comes to its end by its own steps; likewise a body goroutine before and after
it has read the body. -/
theorem C80_goroutines (x : Setup K) (s : St) (k : Nat) (hk : k < s.n) :
    (∀ q, (s.atmpt k).hg = .started q → ∃ s', step x.env s (.hgCall k) = some s') ∧
    ((s.atmpt k).hg = .returned → ∃ s', run x.env s [.hgWrite k, .hgClose k] = some s' ∧
      (s'.atmpt k).hg = .finished) ∧
    (∀ r, (s.atmpt k).bg = .started r → ∃ s', step x.env s (.bgStatus k) = some s' ∧
      (s'.atmpt k).bg = .reading r) ∧
    (∀ r, (s.atmpt k).bg = .read r → ∃ s', run x.env s [.bgGzip k, .bgClose k] = some s' ∧
      (s'.atmpt k).bg = .finished r) := by
  refine ⟨fun q hq => ?_, fun hq => ?_, fun r hq => ?_, fun r hq => ?_⟩
  · simp only [step, stepOther, hq, hk, if_true]
    exact ⟨_, rfl⟩
  · obtain ⟨t, h1, h2, h3⟩ : ∃ t, step x.env s (.hgWrite k) = some t ∧ (t.atmpt k).hg = .wrote ∧ k < t.n := by
      simp only [step, stepOther, hq, hk, if_true]
      exact ⟨_, rfl, by simp only [upd_atmpt, if_true], hk⟩
    simp only [run, h1]
    simp only [step, stepOther, h2, h3, if_true]
    by_cases hc : ¬ (t.atmpt k).abortedFlag = true ∧ ¬ t.dwnFlag = true
    · simp only [if_pos hc]
      exact ⟨_, rfl, by simp only [upd_atmpt, if_true]⟩
    · simp only [if_neg hc]
      exact ⟨_, rfl, by simp only [upd_atmpt, if_true]⟩
  · simp only [step, stepOther, hq, hk, if_true]
    exact ⟨_, rfl, by simp only [upd_atmpt, if_true]⟩
  · obtain ⟨t, h1, h2, h3⟩ : ∃ t, step x.env s (.bgGzip k) = some t ∧ (t.atmpt k).bg = .tested r ∧ k < t.n := by
      simp only [step, stepOther, hq, hk, if_true]
      exact ⟨_, rfl, by simp only [upd_atmpt, if_true], hk⟩
    simp only [run, h1]
    simp only [step, stepOther, h2, h3, if_true]
    by_cases hc : ¬ t.curA.abortedFlag = true ∧ ¬ t.dwnFlag = true
    · simp only [if_pos hc]
      exact ⟨_, rfl, by simp only [upd_atmpt, if_true]⟩
    · simp only [if_neg hc]
      exact ⟨_, rfl, by simp only [upd_atmpt, if_true]⟩

/-- After the handler's end the header goroutine of the abandoned first attempt finishes. -/
example : (run Demo.setup.env (initial Demo.setup.dec)
      (Demo.silent 0 ++ Demo.attempt 1 Demo.ok ++ [.hgReturn 0 none, .hgWrite 0, .hgClose 0])).map
        (fun s => match (s.atmpt 0).hg, (s.atmpt 1).bg with
          | .finished, .finished r => some r.status
          | _, _ => none) =
    some (some 200) := by
  decide +kernel

/-! ## C81: the log line -/

/-- C81 for requests whose handler comes to its end: exactly one line is written, when the response has
been sent; it has the status the client got, it is a warning exactly for statuses from 400 on, it
names the method and the request id, and for an own response its error message is the message of the
body. Before that, and if the handler panics, nothing is written. -/
theorem C81_logged_partial (x : Setup K) (as : List Act) (s : St) (lines : List LogLine)
    (h : x.Logs as s lines) :
    (s.pc = .done → ∃ y l, s.sent = [y] ∧ lines = [l] ∧ l.code = y.status ∧
      l.level = (if 400 ≤ y.status then .warn else .info) ∧
      l.method = x.env.method ∧ l.userAgent = parseUserAgent x.rq ∧ l.xrid = x.xrid ∧
      (y.status < 400 → l.errMsg = none) ∧
      (400 ≤ y.status → y.header "Content-Length".toList = [] →
        ∃ msg, y = jsonResponse x.respEnv y.status msg ∧
          l.errMsg = some (responseMessage y.status msg))) ∧
    (s.pc ≠ .done → lines = []) := by
  obtain ⟨w, hw, rfl⟩ := h
  have hi := watch_invariant (P := LogInv x.env) (fun s a s' w hl hs => hl.step hs)
    (logInv_initial x.env x.dec) hw
  unfold LogInv at hi
  refine ⟨fun hd => ?_, fun hd => ?_⟩
  · simp only [hd] at hi
    obtain ⟨⟨enc, hl⟩, y, hy, h1, h2⟩ := hi
    refine ⟨y, _, hy, hl, h1, ?_, rfl, rfl, rfl, ?_, ?_⟩
    · simp only [logLine, h1]
      by_cases h4 : 400 ≤ y.status
      · rw [if_pos (by omega), if_pos h4]
      · rw [if_neg (by omega), if_neg h4]
    · intro h4
      simp only [logLine, h1]
      rw [if_neg (by omega)]
    · intro h4 hn
      rcases h2 with ⟨msg, hm, hw⟩ | h2
      · refine ⟨msg, hm, ?_⟩
        simp only [logLine, h1]
        rw [if_pos (by omega), hw]
      · exact absurd hn h2
  · cases hp : s.pc <;> simp only [hp] at hi <;> first
      | exact hi.1
      | exact hi
      | exact absurd hp hd

/-- C81 fails: the response is sent and then the handler panics while it writes the line, because the
goroutine of an abandoned attempt has just removed the response the line is about. -/
theorem C81_violated : ∃ as s y, Demo.setup.Logs as s [] ∧ s.pc = .panicked ∧ s.sent = [y] ∧
    y.status = 200 ∧ y.body = Demo.ok.body := by
  have h : ((watch Demo.setup.env (logged Demo.setup.env) (initial Demo.setup.dec)
      (LogSt.initial Demo.setup.dec) (Demo.silent 0 ++ [Demo.go] ++ Demo.headers 1 Demo.ok ++
        Demo.body 1 ++ List.replicate 14 Demo.go ++ [.hgReturn 0 none, .hgWrite 0, Demo.go])).map
        fun p => (decide (p.2.lines = []), (match p.1.pc with | .panicked => true | _ => false),
          p.1.sent.map fun y => (y.status, y.body))) =
      some (true, true, [(200, Demo.ok.body)]) := by
    decide +kernel
  obtain ⟨⟨s, w⟩, hw, hp⟩ := Option.map_eq_some_iff.mp h
  simp only [Prod.mk.injEq, decide_eq_true_eq] at hp
  obtain ⟨h1, h2, h3⟩ := hp
  obtain ⟨y, hy, hz⟩ := Demo.one_of_map h3
  simp only [Prod.mk.injEq] at hz
  refine ⟨_, s, y, ⟨w, hw, h1⟩, ?_, hy, hz.1, hz.2⟩
  split at h2
  · assumption
  · cases h2

/-- The line of a served request, and of one without route. -/
example : (watch Demo.setup.env (logged Demo.setup.env) (initial Demo.setup.dec)
      (LogSt.initial Demo.setup.dec) (Demo.success Demo.ok)).map (fun p => p.2.lines) =
    some [⟨.info, none, "GET".toList, "unknown".toList, 200, "identity".toList, "XR-abc-u".toList⟩] := by
  decide +kernel

/-- A request of another path. -/
def Demo.elsewhere : Setup Nat :=
  { Demo.setup with rq := { Demo.request with
      requestURI := "/b".toList
      uri := "/b".toList
      header := [("User-Agent".toList, ["curl".toList])] } }

example :
    let x := Demo.elsewhere
    (watch x.env (logged x.env) (initial x.dec) (LogSt.initial x.dec) [Demo.go, Demo.go]).map
      (fun p => p.2.lines) =
    some [⟨.warn, some "upstream resource not found".toList, "GET".toList, "curl".toList, 404,
      "identity".toList, "XR-abc-u".toList⟩] := by
  decide +kernel

/-! ## C82: the logged coding -/

/-- C82 for executions without late writes and responses of the upstream with a body: the logged coding
is the one announced to the client. -/
theorem C82_partial (x : Setup K) (as : List Act) (s : St) (lines : List LogLine)
    (h : x.Logs as s lines) (ho : Orderly x.env (initial x.dec) as) {r : Route} {u : URL} {l : Str}
    (hd : x.dec = .forward r u l) (hp : s.pc = .done) (y : Sent) (hy : y ∈ s.sent)
    (hcl : y.header "Content-Length".toList ≠ []) (hb : y.body ≠ []) :
    ∃ m, lines = [m] ∧ y.header "Content-Encoding".toList = [m.contentEnc] := by
  obtain ⟨-, m, -, hm, -⟩ := (C81_logged_partial x as s lines h).1 hp
  refine ⟨m, hm, ?_⟩
  obtain ⟨w, hw, rfl⟩ := h
  rw [hd] at hw ho
  have := (watch_orderly (P := fun s w => OrdInv x.env s ∧ LogInv x.env s w ∧ EncInv s w)
    (fun s a s' w ⟨h1, h2, h3⟩ hl hs => ⟨h1.step hl hs, h2.step hs, h3.step hs hl h1 h2⟩)
    ⟨.initial _ r u l, logInv_initial _ _, ⟨by simp [initial], by simp [initial]⟩⟩ ho hw).2.2
  exact this.done hp y hy hcl hb m (by rw [hm]; exact List.mem_singleton.mpr rfl)

/-- A client error of an upstream that uses another coding. -/
def Demo.codedError : UpResp :=
  { status := 404, header := [("Content-Encoding".toList, ["br".toList])], body := [1, 2] }

theorem Demo.orderly_refused {x : Setup Nat} {r : UpResp} {s : St}
    (h : exec x (refused 0 r) = some s) : Orderly x.env (initial x.dec) (refused 0 r) := by
  have ht : ∀ a ∈ refused 0 r, ∀ i, a ≠ .atmptTimer i := by
    intro a ha i hi
    subst hi
    revert ha
    simp [Demo.refused, Demo.headers, Demo.body]
  by_cases hd : ∃ r u l, x.dec = .forward r u l
  · obtain ⟨r, u, l, hd⟩ := hd
    unfold exec at h
    rw [hd] at h ⊢
    exact orderly_of_no_timeout (.initial _ r u l) (.initial _) (.initial r u l) ht h
  · exact (Still.initial fun r u l h => hd ⟨r, u, l, h⟩).orderly h

/-- C82 fails for a client error: the body is the gateway's, without coding, and the line names the
coding of the upstream's. -/
theorem C82_violated : ∃ as s y m, Demo.setup.Logs as s [m] ∧
    Orderly Demo.setup.env (initial Demo.setup.dec) as ∧ s.pc = .done ∧ s.sent = [y] ∧
    y.header "Content-Encoding".toList = [] ∧ y.body = Demo.json 404 "none" ∧
    m.contentEnc = "br".toList := by
  have h : ((watch Demo.setup.env (logged Demo.setup.env) (initial Demo.setup.dec)
      (LogSt.initial Demo.setup.dec) (Demo.refused 0 Demo.codedError)).map
        fun p => (p.2.lines.map (fun m => m.contentEnc) == ["br".toList] && (Demo.seen p.1).finished &&
          p.1.sent.map (fun y => (y.header "Content-Encoding".toList, y.body)) ==
            [([], Demo.json 404 "none")])) =
      some true := by
    decide +kernel
  obtain ⟨⟨s, w⟩, hw, hp⟩ := Option.map_eq_some_iff.mp h
  simp only [Bool.and_eq_true, beq_iff_eq] at hp
  obtain ⟨⟨h1, h2⟩, h3⟩ := hp
  obtain ⟨y, hy, hz⟩ := Demo.one_of_map h3
  obtain ⟨m, hm, hc⟩ := List.map_eq_singleton_iff.mp h1
  simp only [Prod.mk.injEq] at hz
  exact ⟨_, s, y, m, ⟨w, hw, hm⟩, Demo.orderly_refused (watch_run hw), Demo.done_of_seen h2, hy, hz.1,
    hz.2, hc⟩

/-- C82 also fails for a response without body to a client that names gzip: the line says gzip, the response has no
coding. -/
theorem C82_violated_empty : ∃ as s y m, Demo.gzipSetup.Logs as s [m] ∧ s.pc = .done ∧ s.sent = [y] ∧
    y.status = 200 ∧ y.header "Content-Encoding".toList = [] ∧ y.body = [] ∧ m.contentEnc = "gzip".toList := by
  have h : ((watch Demo.gzipSetup.env (logged Demo.gzipSetup.env) (initial Demo.gzipSetup.dec)
      (LogSt.initial Demo.gzipSetup.dec) (Demo.successGzip { status := 200, header := [], body := [] })).map
        fun p => (p.2.lines.map (fun m => m.contentEnc) == ["gzip".toList] && (Demo.seen p.1).finished &&
          p.1.sent.map (fun y => (y.status, y.header "Content-Encoding".toList, y.body)) == [(200, [], [])])) =
      some true := by
    decide +kernel
  obtain ⟨⟨s, w⟩, hw, hp⟩ := Option.map_eq_some_iff.mp h
  simp only [Bool.and_eq_true, beq_iff_eq] at hp
  obtain ⟨⟨h1, h2⟩, h3⟩ := hp
  obtain ⟨y, hy, hz⟩ := Demo.one_of_map h3
  obtain ⟨m, hm, hc⟩ := List.map_eq_singleton_iff.mp h1
  simp only [Prod.mk.injEq] at hz
  exact ⟨_, s, y, m, ⟨w, hw, hm⟩, Demo.done_of_seen h2, hy, hz.1, hz.2.1, hz.2.2, hc⟩

/-- The line of a response in a coding the gateway leaves alone. -/
example : (watch Demo.setup.env (logged Demo.setup.env) (initial Demo.setup.dec)
      (LogSt.initial Demo.setup.dec) (Demo.success { Demo.codedError with status := 200 })).map
        (fun p => (p.2.lines.map (fun m => m.contentEnc),
          p.1.sent.map fun y => y.header "Content-Encoding".toList)) =
    some (["br".toList], [["br".toList]]) := by
  decide +kernel

end J8a

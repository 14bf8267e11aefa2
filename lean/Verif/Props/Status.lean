import Verif.Props.Crash
import Verif.Props.Attempts
/-!
# C106, C107 — what statuses of upstreams do to a request

`http.ReadResponse` takes any three digits for a status, from 000 to 999; `WriteHeader` panics below 100.
The transport skips the informational responses of an upstream except 101.
-/
namespace J8a
open Go

variable {K : Type}

/-- The four ways in which a step of the machine crashes the handler. -/
theorem panic_step {e : Env} {s s' : St} {a : Act} (h : step e s a = some s') (h0 : s.pc ≠ .panicked)
    (h1 : s'.pc = .panicked) :
    (s.pc = .scaffold ∧ e.uriOk (scaffoldUpstreamRequest e.xrid e.pb e.rq e.route s.curA.url).uri = false) ∨
    NilDeref e s ∨ (∃ h c b, s.pc = .okSend h c b ∧ validStatus c = false) ∨
    ∃ c m, s.pc = .sendJson c m ∧ validStatus c = false := by
  cases a <;> step_cases h <;> simp_all [NilDeref]
  exact ⟨_, _, ⟨rfl, rfl⟩, ‹_›⟩

/-- Responses come from `Do`. -/
theorem vResp_step {e : Env} {s s' : St} {a : Act} (h : step e s a = some s') (k : Nat) (r : UpResp)
    (hr : (s'.atmpt k).vResp = some r) : (s.atmpt k).vResp = some r ∨ a = .hgReturn k (some r) := by
  cases a <;> step_cases h <;> simp only [upd_atmpt, abortAll_atmpt, noteUp_atmpt, noteDwn_atmpt] at hr <;>
    (try split at hr) <;> (try simp only at hr) <;> (try split at hr) <;> simp_all

theorem vResp_run {e : Env} (as : List Act) : ∀ {s s' : St}, run e s as = some s' → ∀ (k : Nat) (r : UpResp),
    (s'.atmpt k).vResp = some r → (s.atmpt k).vResp = some r ∨ .hgReturn k (some r) ∈ as := by
  induction as with
  | nil => intro s s' h k r hr; rw [J8a.run] at h; cases h; exact .inl hr
  | cons a as ih =>
    intro s s' h k r hr
    obtain ⟨t, ht, h⟩ := run_cons h
    rcases ih h k r hr with hr | hr
    · rcases vResp_step ht k r hr with h | h
      · exact .inl h
      · exact .inr (by simp [h])
    · exact .inr (by simp [hr])

theorem vResp_initial (d : Decision) (k : Nat) : ((initial d).atmpt k).vResp = none := by
  cases d <;> simp only [initial] <;> (try split) <;> simp [noAtmpt]

theorem no_crash_run {e : Env} {u : URL}
    (huri : e.uriOk (scaffoldUpstreamRequest e.xrid e.pb e.rq e.route u).uri = true) (as : List Act) :
    ∀ s s' : St, OrdInv e s → CallInv e u s → (∀ k r, (s.atmpt k).vResp = some r → 100 ≤ r.status) →
      s.pc ≠ .panicked → Orderly e s as → run e s as = some s' →
      (∀ i r, Act.hgReturn i (some r) ∈ as → 100 ≤ r.status) → s'.pc ≠ .panicked := by
  induction as with
  | nil =>
    intro s s' _ _ _ h4 _ h6 _
    rw [J8a.run] at h6; cases h6; exact h4
  | cons a as ih =>
    intro s s' h1 h2 h3 h4 h5 h6 h7
    obtain ⟨t, ht, h6⟩ := run_cons h6
    refine ih t s' (h1.step h5.1 ht) (h2.step ht) ?_ ?_ (h5.2 t ht) h6 fun i r hm => h7 i r (by simp [hm])
    · intro k r hr
      rcases vResp_step ht k r hr with h | h
      · exact h3 k r h
      · exact h7 k r (by simp [h])
    · intro hp
      rcases panic_step ht h4 hp with ⟨-, h⟩ | h | ⟨hd, c, b, hpc, hv⟩ | ⟨c, m, hpc, hv⟩
      · rw [show s.curA.url = u from h2.url _ (cur_lt h2.pos), huri] at h
        cases h
      · exact h1.nilDeref h
      · have := h1.pc
        unfold PcOk at this
        rw [hpc] at this
        obtain ⟨r, hc, hlt, heq⟩ := this
        have hcode : c = r.status := by
          have := congrArg Sent.status heq
          exact this
        have := h3 _ r hc.1.2.1
        simp only [validStatus, Bool.and_eq_false_iff, decide_eq_false_iff_not] at hv
        omega
      · have := h1.pc
        unfold PcOk at this
        rw [hpc] at this
        simp only at this
        generalize hy : jsonResponse e.toRespEnv c m = y at this
        have hcode : c = y.status := by rw [← hy]; rfl
        simp only [validStatus, Bool.and_eq_false_iff, decide_eq_false_iff_not] at hv
        cases this with
        | proxied r hc hlt =>
          have := h3 _ r hc.1.2.1
          have hcode : c = r.status := hcode
          omega
        | client r hc hge =>
          have := hc.2.2.2.2
          have hcode : c = r.status := hcode
          omega
        | dwn _ => have hcode : c = 504 := hcode; omega
        | up _ => have hcode : c = 504 := hcode; omega
        | bad _ => have hcode : c = 502 := hcode; omega

/-- C106, the part that holds: in executions without late writes, whatever upstreams answer, a forwarded
request does not crash its handler, if all their statuses are 100 or above and the URL for the upstream
parses. Missing from the full statement: smaller statuses (`C106_violated_always`), late writes
(C51) and targets that do not parse (C92). -/
theorem C106_no_crash_partial (x : Setup K) (as : List Act) (s : St)
    (h : run x.env (initial x.dec) as = some s) (ho : Orderly x.env (initial x.dec) as)
    (r : Route) (u : URL) (l : Str) (hd : x.dec = .forward r u l)
    (huri : x.sv.uriOk (resolveUpstreamURI u r x.rq.uri) = true)
    (hst : ∀ i v, Act.hgReturn i (some v) ∈ as → 100 ≤ v.status) : s.pc ≠ .panicked := by
  rw [hd] at h ho
  have hroute : x.env.route = r := by unfold Setup.env; simp only [hd]
  refine no_crash_run (u := u) ?_ as _ s (.initial _ r u l) (by constructor <;> simp [initial, St.cur]) ?_
    (by simp [initial]) ho h hst
  · simp only [scaffoldUpstreamRequest, hroute]
    exact huri
  · intro k v hv
    rw [vResp_initial] at hv; cases hv

/-- C106 fails for every status below 100: when it is about to be sent, the handler crashes, and nothing
was sent. -/
theorem C106_violated_always (x : Setup K) (s : St) (h : x.Reaches s) (hdr : Hdr) (code : Int) (b : Bytes)
    (hp : s.pc = .okSend hdr code b) (hc : code < 100) (c : Choice) :
    stepMain x.env s c = some { s with pc := .panicked } ∧ s.sent = [] := by
  have hv : validStatus code = false := by
    simp only [validStatus, Bool.and_eq_false_iff, decide_eq_false_iff_not]; omega
  refine ⟨by simp [stepMain, hp, hv], ?_⟩
  rcases sent_run h with ⟨h, -⟩ | h
  · rw [hp] at h; cases h
  · rw [hp] at h; exact List.eq_nil_of_length_eq_zero h

/-- The schedule of a response with a low status. -/
def Demo.low (r : UpResp) : List Act :=
  [Demo.go] ++ Demo.headers 0 r ++ Demo.body 0 ++ List.replicate 13 Demo.go

/-- C106 fails: an upstream answers with the status 099. -/
theorem C106_violated : ∃ s, Demo.setup.ReachesOrderly s ∧ s.curA.vResp = some { Demo.ok with status := 99 } ∧
    s.pc = .panicked ∧ s.sent = [] := by
  obtain ⟨s, hs, hp⟩ := Demo.of_check (x := Demo.setup) (as := Demo.low { Demo.ok with status := 99 })
    (p := fun s => s.crashed && s.curA.vResp == some { Demo.ok with status := 99 } && s.sent.isEmpty)
    (by decide +kernel)
  simp only [Bool.and_eq_true, beq_iff_eq, List.isEmpty_iff] at hp
  refine ⟨s, C50_covered_no_timeout _ s _ hs ?_, hp.1.2, crashed_pc hp.1.1, hp.2⟩
  intro a ha i hi
  subst hi
  revert ha
  simp [Demo.low, Demo.headers, Demo.body]

/-- The hypotheses of `C106_no_crash_partial` are satisfied: a retry, then a response with status 200. -/
example : ∃ as s r u l, run Demo.setup.env (initial Demo.setup.dec) as = some s ∧
    Orderly Demo.setup.env (initial Demo.setup.dec) as ∧ Demo.setup.dec = .forward r u l ∧
    Demo.setup.sv.uriOk (resolveUpstreamURI u r Demo.setup.rq.uri) = true ∧
    (∀ i v, Act.hgReturn i (some v) ∈ as → 200 ≤ v.status) ∧ s.pc = .done ∧ s.n = 2 := by
  obtain ⟨s, hs, hp⟩ := Demo.of_check (x := Demo.setup)
    (as := Demo.failed 0 ++ Demo.attempt 1 Demo.ok)
    (p := fun s => (Demo.seen s).finished && s.n == 2) (by decide +kernel)
  simp only [Bool.and_eq_true, beq_iff_eq] at hp
  refine ⟨_, s, _, _, _, hs, ?_, rfl, by decide +kernel, ?_, Demo.done_of_seen hp.1, hp.2⟩
  · refine orderly_of_no_timeout (.initial _ _ _ _) (.initial _) (.initial _ _ _) ?_ hs
    intro a ha i hi
    subst hi
    revert ha
    simp [Demo.failed, Demo.attempt, Demo.headers, Demo.body]
  · intro i v hm
    simp [Demo.failed, Demo.attempt, Demo.headers, Demo.body] at hm
    rw [hm.2]; decide

/-- C107, the part that holds: in executions without late writes and with final statuses only from upstreams,
the client gets a final status. Missing: other statuses (`C107_violated`) and late writes (C36). -/
theorem C107_final_partial (x : Setup K) (as : List Act) (s : St)
    (h : run x.env (initial x.dec) as = some s) (ho : Orderly x.env (initial x.dec) as)
    (r : Route) (u : URL) (l : Str) (hd : x.dec = .forward r u l) (hf : s.pc = .done)
    (hst : ∀ i v, Act.hgReturn i (some v) ∈ as → 200 ≤ v.status) :
    ∃ y, s.sent = [y] ∧ 200 ≤ y.status := by
  obtain ⟨y, hy, ha⟩ := C50_answer_partial x s ⟨as, h, ho⟩ hd hf
  refine ⟨y, hy, ?_⟩
  have get : ∀ v, s.curA.vResp = some v → 200 ≤ v.status := by
    intro v hv
    rcases vResp_run as h _ v hv with h | h
    · rw [vResp_initial] at h; cases h
    · exact hst _ v h
  cases ha with
  | proxied v h1 h2 => exact get v h1.1.2.1
  | client v h1 h2 => exact get v h1.1.2.1
  | dwn h => show (200 : Int) ≤ 504; decide
  | up h => show (200 : Int) ≤ 504; decide
  | bad h => show (200 : Int) ≤ 502; decide

/-- An upstream that switches protocols unasked. -/
def Demo.switching : UpResp := { status := 101, header := [("X".toList, ["ok".toList])] }

/-- C107 fails: the client gets the status 101 of an upstream. -/
theorem C107_violated : ∃ s, Demo.setup.ReachesOrderly s ∧ s.curA.vResp = some Demo.switching ∧
    s.pc = .done ∧ s.sent.map (fun y => (y.status, y.header "Content-Length".toList, y.body)) =
      [(101, ["0".toList], [])] := by
  obtain ⟨s, hs, hp⟩ := Demo.of_check (x := Demo.setup) (as := Demo.low Demo.switching ++ [Demo.go])
    (p := fun s => (Demo.seen s).finished && s.curA.vResp == some Demo.switching &&
      s.sent.map (fun y => (y.status, y.header "Content-Length".toList, y.body)) ==
        [(101, ["0".toList], [])])
    (by decide +kernel)
  simp only [Bool.and_eq_true, beq_iff_eq] at hp
  refine ⟨s, C50_covered_no_timeout _ s _ hs ?_, hp.1.2, Demo.done_of_seen hp.1.1, hp.2⟩
  intro a ha i hi
  subst hi
  revert ha
  simp [Demo.low, Demo.headers, Demo.body]

end J8a

import Verif.Lemmas.MachineCalm
import Verif.Spec.Demo
/-!
# C45–C54, C35 — the attempt machine under every schedule

`x.Reaches s` means: some schedule of timers, goroutines and upstream results leads from the start of
the request described by `x` to `s`.
-/
namespace J8a
open Go

variable {K : Type}

/-! ## C45 -/

/-- Attempts and upstream requests are bounded by the configured maximum, and by one for methods
that may not be repeated. -/
theorem C45_attempts_bounded (x : Setup K) (s : St) (h : x.Reaches s) :
    (s.n : Int) ≤ max 1 x.c.connection.upstream.maxAttempts ∧
    (toUpper x.rq.method ∉ ["GET", "HEAD", "OPTIONS", "TRACE", "PUT", "DELETE"].map String.toList →
      s.n ≤ 1) ∧
    s.calls.length ≤ s.n := by
  rcases going_or_still h with ⟨r, u, l, hd, hg⟩ | ⟨hd, hs⟩
  · refine ⟨?_, ?_, hg.call.length_le⟩
    · rcases hg.inv.count.bound with hb | ⟨-, hb⟩
      · omega
      · have : x.env.maxAttempts = x.c.connection.upstream.maxAttempts := rfl
        omega
    · intro hm
      rcases hg.inv.count.bound with hb | ⟨hb, -⟩
      · exact hb
      · exact absurd hb hm
  · rw [hs.n, hs.calls]
    exact ⟨by omega, fun _ => by omega, by simp⟩

/-- A forwarded request has at least one attempt. -/
theorem C45_attempts_pos (x : Setup K) (s : St) (h : x.Reaches s) {r : Route} {u : URL} {l : Str}
    (hd : x.dec = .forward r u l) : 1 ≤ s.n := by
  rcases going_or_still h with ⟨r, u, l, -, hg⟩ | ⟨hd', -⟩
  · exact hg.inv.pos
  · exact absurd hd (hd' r u l)

/-- No attempt makes two upstream requests. -/
theorem C45_one_call_per_attempt (x : Setup K) (s : St) (h : x.Reaches s) :
    (s.calls.map Prod.fst).Nodup := by
  rcases going_or_still h with ⟨r, u, l, -, hg⟩ | ⟨-, hs⟩
  · exact hg.call.nodup
  · rw [hs.calls]; simp

/-- The second attempt is made when the first upstream request fails. -/
example : (Demo.exec Demo.setup (Demo.failed 0 ++ Demo.attempt 1 Demo.ok)).map Demo.seen =
    some ⟨true, 2, 2, [(200, ["ok".toList], [104, 105])]⟩ := by decide +kernel

/-! ## C46 -/

/-- At most one response, exactly one at the end. -/
theorem C46_one_response (x : Setup K) (s : St) (h : x.Reaches s) :
    s.sent.length ≤ 1 ∧ (s.pc = .done → s.sent.length = 1) := by
  rcases sent_run h with ⟨h1, h2⟩ | h1
  · exact ⟨h2, fun h => by rw [h1] at h; cases h⟩
  · rw [h1]
    refine ⟨by unfold PC.sentCount; split <;> omega, fun h => by rw [h]; rfl⟩

/-- A response once sent stays the only one. -/
theorem C46_response_final (x : Setup K) (s s' : St) (as : List Act) (h : x.Reaches s)
    (hr : run x.env s as = some s') (hs : s.sent ≠ []) : s'.sent = s.sent := by
  obtain ⟨ys, hy⟩ := (later_run hr).sent
  have := (C46_one_response x s' (h.run hr)).1
  rw [← hy] at this ⊢
  cases hq : s.sent with
  | nil => exact absurd hq hs
  | cons y t =>
    rw [hq] at this
    simp only [List.cons_append, List.length_cons, List.length_append] at this
    have : ys = [] := List.length_eq_zero_iff.mp (by omega)
    rw [this, List.append_nil]

/-! ## C47 -/

/-- After the round trip timer has fired at most the attempt already cleared to start is started. -/
theorem C47_after_deadline (x : Setup K) (s s' : St) (as : List Act)
    (hr : run x.env s as = some s') (hd : s.dwnFired = true) :
    s'.n ≤ s.n + 1 ∧ (s.pc ≠ .next → s'.n = s.n) := by
  rcases dwnFired_run hr hd with ⟨h1, -⟩ | ⟨h1, h2, -⟩
  · exact ⟨by omega, fun _ => h1⟩
  · exact ⟨by omega, fun h => absurd h1 h⟩

/-- After the handler has observed the deadline no attempt is started, and the client gets 504. -/
theorem C47_after_observation (x : Setup K) (s s' : St) (as : List Act) (h : x.Reaches s)
    (hr : run x.env s as = some s') (hd : s.dwnFlag = true) :
    s'.n = s.n ∧ (∀ y ∈ s'.sent, y.status = 504) ∧
    (s'.pc = .done → ∃ y, s'.sent = [y] ∧ y.status = 504) := by
  have h' := h.run hr
  have hd' := (later_run hr).dwnFlag hd
  have key : ∀ t : St, x.Reaches t → t.dwnFlag = true → Inv x.env t := by
    intro t ht hf
    rcases going_or_still ht with ⟨r, u, l, -, hg⟩ | ⟨-, hs⟩
    · exact hg.inv
    · rw [hs.dwnFlag] at hf; cases hf
  have hi := key s h hd
  have hi' := key s' h' hd'
  refine ⟨?_, ?_, ?_⟩
  · refine (C47_after_deadline x s s' as hr (hi.flag.dwn hd)).2 fun hn => ?_
    rcases hi.dwn hd with hx | hx <;> rw [hn] at hx <;> exact hx.1
  · intro y hy
    rcases hi'.dwn hd' with hx | hx
    · rw [hx.2.1] at hy; cases hy
    · rw [hx.2] at hy
      rw [List.mem_singleton.mp hy]
      rfl
  · intro hdone
    rcases hi'.dwn hd' with hx | hx
    · rw [hdone] at hx; exact hx.1.elim
    · exact ⟨_, hx.2, rfl⟩

/-! ## C48 -/

/-- Where the handler decides that no upstream response can be used, the answer is determined by the
two deadlines. -/
theorem C48_decision (x : Setup K) (s t : St) (c : Choice) (h : x.Reaches s)
    (hs : stepMain x.env s c = some t) :
    (s.pc = .final1 → t.pc = if s.dwnFired then
        .sendJson 504 "gateway timeout triggered by downstream event".toList else .final2) ∧
    (s.pc = .final2 → t.pc = if s.curA.ctxDone then
        .sendJson 504 "gateway timeout triggered by upstream attempt".toList else
        .sendJson 502 "bad gateway triggered. unable to process upstream response".toList) := by
  rcases going_or_still h with ⟨r, u, l, -, hg⟩ | ⟨-, hst⟩
  · constructor
    · intro hpc
      simp only [stepMain, hpc] at hs
      cases hf : s.dwnFired
      · have : s.dwnFlag = false := by
          cases hd : s.dwnFlag
          · rfl
          · rw [hg.inv.flag.dwn hd] at hf; cases hf
        simp only [noteDwn_dwnFlag, hf, this, Bool.or_self] at hs
        cases hs
        rfl
      · simp only [noteDwn_dwnFlag, hf, Bool.or_true, if_true] at hs
        cases hs
        rfl
    · intro hpc
      simp only [stepMain, hpc] at hs
      rw [curA_noteUp] at hs
      cases hf : s.curA.ctxDone
      · have : s.curA.abortedFlag = false := by
          cases hd : s.curA.abortedFlag
          · rfl
          · have := hg.inv.flag.up s.cur hd
            unfold St.curA at hf
            rw [hf] at this; cases this
        simp only [hf, this, Bool.or_self] at hs
        cases hs
        rfl
      · simp only [hf, Bool.or_true, if_true] at hs
        cases hs
        rfl
  · constructor <;> intro hpc <;>
      rcases hst.pc with ⟨c, m, h⟩ | h | h | h <;> rw [hpc] at h <;> cases h

/-- What is known after the decision, for an execution that leaves `final1` in `s`. -/
structure Decided (x : Setup K) (s t : St) : Prop where
  reaches : x.Reaches t
  n : t.n = s.n
  fired : s.dwnFired = true → t.dwnFired = true
  ctx : s.curA.ctxDone = true → t.curA.ctxDone = true
  pc : t.pc = .final1 ∨ (t.pc = .final2 ∧ s.dwnFired = false) ∨
    ∃ code msg, (code = 504 ∧ (t.dwnFired = true ∨ t.curA.ctxDone = true) ∨
        code = 502 ∧ s.dwnFired = false ∧ s.curA.ctxDone = false) ∧
      (t.pc = .sendJson code msg ∨
        (t.pc = .log1 ∨ t.pc = .log2 ∨ t.pc = .done ∨ t.pc = .panicked) ∧
          t.sent = [jsonResponse x.respEnv code msg])

theorem Decided.step {x : Setup K} {s t t' : St} {a : Act} (hi : Decided x s t)
    (h : step x.env t a = some t') : Decided x s t' := by
  obtain ⟨h1, h2, h3, h4, h5⟩ := hi
  have hr : x.Reaches t' := h1.run (as := [a]) (by rw [run, h]; rfl)
  have hl := later_step h
  have hn : t.pc ≠ .next := by
    rcases h5 with h | h | ⟨c, m, -, h | ⟨h, -⟩⟩
    · rw [h]; simp
    · rw [h.1]; simp
    · rw [h]; simp
    · rcases h with h | h | h | h <;> rw [h] <;> simp
  have hn' : t'.n = t.n := by
    rcases step_n h with h | ⟨h, -⟩
    · exact h
    · exact absurd h hn
  have hcur : t'.cur = t.cur := by unfold St.cur; rw [hn']
  have hctx : t.curA.ctxDone = true → t'.curA.ctxDone = true := by
    unfold St.curA
    rw [hcur]
    intro hc
    by_cases hp : 0 < t.n
    · exact hl.ctxDone _ (cur_lt hp) hc
    · exfalso
      rcases going_or_still h1 with ⟨r, u, l, -, hg⟩ | ⟨-, hs⟩
      · exact hp hg.inv.pos
      · rw [hs.atmpt] at hc; cases hc
  refine ⟨hr, hn'.trans h2, fun h => hl.dwnFired (h3 h), fun h => hctx (h4 h), ?_⟩
  rcases step_cases' h with hf | ⟨c, -, hm⟩
  · rw [hf.pc, hf.sent]
    refine h5.imp id (Or.imp id ?_)
    rintro ⟨code, msg, k1, k2⟩
    exact ⟨code, msg, k1.imp (fun ⟨k, k'⟩ => ⟨k, k'.imp hl.dwnFired hctx⟩) id, k2⟩
  · rcases h5 with h5 | ⟨h5, h6⟩ | ⟨code, msg, k1, k2⟩
    · have hd := (C48_decision x t t' c h1 hm).1 h5
      cases hb : t.dwnFired
      · rw [hb] at hd
        refine .inr (.inl ⟨hd, ?_⟩)
        cases hb' : s.dwnFired
        · rfl
        · rw [h3 hb'] at hb; cases hb
      · rw [hb] at hd
        exact .inr (.inr ⟨_, _, .inl ⟨rfl, .inl (hl.dwnFired hb)⟩, .inl hd⟩)
    · have hd := (C48_decision x t t' c h1 hm).2 h5
      cases hb : t.curA.ctxDone
      · rw [hb] at hd
        refine .inr (.inr ⟨_, _, .inr ⟨rfl, h6, ?_⟩, .inl hd⟩)
        cases hb' : s.curA.ctxDone
        · rfl
        · rw [h4 hb'] at hb; cases hb
      · rw [hb] at hd
        exact .inr (.inr ⟨_, _, .inl ⟨rfl, .inr (hctx hb)⟩, .inl hd⟩)
    · refine .inr (.inr ⟨code, msg,
        k1.imp (fun ⟨k, k'⟩ => ⟨k, k'.imp hl.dwnFired hctx⟩) id, .inr ?_⟩)
      rcases k2 with k2 | ⟨k2, k3⟩
      · have h0 : t.sent = [] := by
          rcases sent_run h1 with ⟨h, -⟩ | h
          · rw [k2] at h; cases h
          · rw [k2] at h; exact List.length_eq_zero_iff.mp h
        have hv : validStatus code = true := by
          rcases k1 with ⟨rfl, -⟩ | ⟨rfl, -⟩ <;> rfl
        simp only [stepMain, k2, hv, if_true] at hm
        cases hm
        exact ⟨.inl rfl, by rw [h0]; rfl⟩
      · rcases k2 with k2 | k2 | k2 | k2 <;> simp only [stepMain, k2] at hm <;>
          (repeat' split at hm) <;> cases hm <;> simp [k3]

/-- From the decision on: one answer, 504 if a deadline had passed, 502 if none has. -/
theorem C48_outcome (x : Setup K) (s t : St) (as : List Act) (h : x.Reaches s)
    (hpc : s.pc = .final1) (hr : run x.env s as = some t) (hd : t.pc = .done) :
    ∃ y, t.sent = [y] ∧ (y.status = 504 ∨ y.status = 502) ∧
      (s.dwnFired = true ∨ s.curA.ctxDone = true → y.status = 504) ∧
      (t.dwnFired = false ∧ t.curA.ctxDone = false → y.status = 502) := by
  have hi : Decided x s t := run_invariant (fun _ _ _ hi hs => hi.step hs)
    (⟨h, rfl, id, id, .inl hpc⟩ : Decided x s s) hr
  rcases hi.pc with hp | ⟨hp, -⟩ | ⟨code, msg, h1, h2⟩
  · rw [hd] at hp; cases hp
  · rw [hd] at hp; cases hp
  · rcases h2 with h2 | ⟨-, h2⟩
    · rw [hd] at h2; cases h2
    · refine ⟨_, h2, ?_⟩
      show (code = 504 ∨ code = 502) ∧ (_ → code = 504) ∧ (_ → code = 502)
      rcases h1 with ⟨rfl, h1⟩ | ⟨rfl, h1, h1'⟩
      · refine ⟨.inl rfl, fun _ => rfl, fun ⟨k1, k2⟩ => ?_⟩
        rw [k1, k2] at h1
        simp at h1
      · refine ⟨.inr rfl, fun k => ?_, fun _ => rfl⟩
        rw [h1, h1'] at k
        simp at k

/-- Both attempts time out: 504; both fail: 502. -/
example : (Demo.exec Demo.setup (Demo.silent 0 ++
      [Demo.go, .hgCall 1, .atmptTimer 1, .main .atmptAborted] ++
      List.replicate 8 Demo.go)).map Demo.seen = some ⟨true, 2, 2, [(504, [], Demo.json 504
      "gateway timeout triggered by upstream attempt")]⟩ ∧
    (Demo.exec Demo.setup (Demo.failed 0 ++
      [Demo.go, .hgCall 1, .hgReturn 1 none, .hgWrite 1, .hgClose 1] ++
      List.replicate 9 Demo.go)).map Demo.seen = some ⟨true, 2, 2, [(502, [], Demo.json 502
      "bad gateway triggered. unable to process upstream response")]⟩ := by
  decide +kernel

/-! ## C49 -/

/-- The handler makes a bounded number of steps, whatever the schedule. -/
theorem C49_bounded (x : Setup K) (s : St) (as : List Act)
    (h : run x.env (initial x.dec) as = some s) :
    (as.countP fun a => match a with | .main _ => true | _ => false) ≤
      30 * (max 1 x.c.connection.upstream.maxAttempts).toNat := by
  show mainSteps as ≤ _
  have hl : attemptLimit x.env = (max 1 x.c.connection.upstream.maxAttempts).toNat := by
    have : x.env.maxAttempts = x.c.connection.upstream.maxAttempts := rfl
    unfold attemptLimit
    omega
  rw [← hl]
  have h1 : 1 ≤ attemptLimit x.env := by unfold attemptLimit; omega
  by_cases hd : ∃ r u l, x.dec = .forward r u l
  · obtain ⟨r, u, l, hd⟩ := hd
    rw [hd] at h
    have := mainSteps_le (Inv.initial _ r u l).count h
    have h2 : stepsLeft x.env (initial (.forward r u l)) = 30 * (attemptLimit x.env - 1) + 30 := rfl
    omega
  · have hs := Still.initial (d := x.dec) fun r u l h => hd ⟨r, u, l, h⟩
    have hc : CountInv x.env (initial x.dec) := by
      refine ⟨.inl (by rw [hs.n]; omega), ?_, ?_⟩ <;>
        rcases hs.pc with ⟨c, m, h⟩ | h | h | h <;> rw [h] <;> simp
    have := mainSteps_le hc h
    have hn := (hs.run h).n
    unfold stepsLeft at this
    rw [hs.n, hn] at this
    have hr : (initial x.dec).pc.rank ≤ 30 := by
      rcases hs.pc with ⟨c, m, h⟩ | h | h | h <;> rw [h] <;> simp [PC.rank]
    omega

/-- In every fair infinite execution the handler finishes. -/
theorem C49_terminates (x : Setup K) (σ : Nat → St) (h0 : σ 0 = initial x.dec)
    (h : InfRun x.env σ) (hf : Fair x.env σ) :
    ∃ i, (σ i).pc = .done ∨ (σ i).pc = .panicked := by
  have key : ∃ i, (σ i).pc.finished := by
    by_cases hd : ∃ r u l, x.dec = .forward r u l
    · obtain ⟨r, u, l, hd⟩ := hd
      refine hf.finishes h ?_
      rw [h0, hd]
      exact .initial _ r u l
    · refine hf.finishes_still h ?_
      rw [h0]
      exact .initial fun r u l h => hd ⟨r, u, l, h⟩
  obtain ⟨i, hi⟩ := key
  refine ⟨i, ?_⟩
  cases hp : (σ i).pc <;> rw [hp] at hi <;> first | exact hi.elim | simp

/-- Fair executions exist: the demo request, answered, after which the read timer fires. -/
example : ∃ σ, σ 0 = initial Demo.setup.dec ∧ InfRun Demo.setup.env σ ∧ Fair Demo.setup.env σ := by
  obtain ⟨t, ht, hp⟩ := Demo.of_check (x := Demo.setup)
    (as := Demo.success Demo.ok ++ [Act.atmptTimer 0])
    (p := fun s => (Demo.seen s).finished && s.n == 1 && (s.atmpt 0).ctxDone) (by decide +kernel)
  simp only [Bool.and_eq_true, beq_iff_eq] at hp
  refine ⟨stateAt Demo.setup.env (initial Demo.setup.dec) _, rfl, stateAt_infRun _ _ _,
    stateAt_fair ht (.inl (Demo.done_of_seen hp.1.1)) ?_⟩
  intro k hk
  have : k = 0 := by omega
  rw [this]
  exact hp.2

/-! ## C52 -/

/-- Observing the round trip deadline while waiting for an upstream cancels every attempt made so
far. -/
theorem C52_cancel_all (x : Setup K) (s t : St) (h : x.Reaches s)
    (hs : stepMain x.env s .dwnAborted = some t) (hw : s.pc = .selHeader ∨ s.pc = .selBody) :
    t.n = s.n ∧ t.dwnFlag = true ∧ ∀ k < s.n, (t.atmpt k).ctxDone = true := by
  rcases going_or_still h with ⟨r, u, l, -, hg⟩ | ⟨-, hst⟩
  · rcases hw with hw | hw <;> simp only [stepMain, hw] at hs <;> split at hs <;> cases hs <;>
      refine ⟨rfl, rfl, fun k hk => ?_⟩ <;> simp only [abortAll_atmpt] <;>
      rw [if_pos ⟨hk, hg.inv.cancel k hk (fun h => by rw [hw] at h; cases h)⟩]
  · exfalso
    rcases hst.pc with ⟨c, m, h⟩ | h | h | h <;> rw [h] at hw <;> simp at hw

/-- They stay cancelled. -/
theorem C52_stay_cancelled (x : Setup K) (s t u : St) (as : List Act) (h : x.Reaches s)
    (hs : stepMain x.env s .dwnAborted = some t) (hw : s.pc = .selHeader ∨ s.pc = .selBody)
    (hr : run x.env t as = some u) :
    u.n = s.n ∧ ∀ k < u.n, (u.atmpt k).ctxDone = true := by
  obtain ⟨h1, h2, h3⟩ := C52_cancel_all x s t h hs hw
  have ht : x.Reaches t := h.run (as := [.main .dwnAborted]) (by
    show (match stepMain x.env s .dwnAborted with | none => none | some s' => run x.env s' []) = _
    rw [hs]; rfl)
  have hn := (C47_after_observation x t u as ht hr h2).1
  refine ⟨hn.trans h1, fun k hk => ?_⟩
  exact (later_run hr).ctxDone k (by omega) (h3 k (by omega))

/-- The second attempt is waiting when the deadline fires: both are cancelled. -/
example : (Demo.exec Demo.setup (Demo.failed 0 ++ [Demo.go, .dwnTimer, .main .dwnAborted])).map
    (fun s => (s.n, (s.atmpt 0).ctxDone, (s.atmpt 1).ctxDone)) = some (2, true, true) := by
  decide +kernel

/-! ## C54 -/

/-- No completion channel is closed twice. -/
theorem C54_closed_once (x : Setup K) (s : St) (h : x.Reaches s) (k : Nat) :
    (s.atmpt k).hdrClosed ≤ 1 ∧ (s.atmpt k).bodyClosed ≤ 1 := by
  rcases going_or_still h with ⟨r, u, l, -, hg⟩ | ⟨-, hs⟩
  · have h1 := hg.close.hdr k
    have h2 := hg.close.body k
    omega
  · rw [hs.atmpt]
    exact ⟨Nat.zero_le _, Nat.zero_le _⟩

example : (Demo.exec Demo.setup (Demo.success Demo.ok)).map
    (fun s => ((s.atmpt 0).hdrClosed, (s.atmpt 0).bodyClosed)) = some (1, 1) := by decide +kernel

/-! ## C50, C51, C53, C35: what late writes break -/

open Demo in
/-- Attempt 0 times out with its upstream silent, attempt 1 gets its own response, and the headers of
attempt 0 arrive just before the answer is built. -/
def Demo.lateHeaders : List Act :=
  silent 0 ++ [go] ++ headers 1 ok ++ body 1 ++
    [.hgReturn 0 (some { ok with header := [("X".toList, ["other".toList])] }), .hgWrite 0] ++
    List.replicate 15 go

open Demo in
/-- Attempt 0 has the headers of a 503 response and times out before its body goroutine runs; that
goroutine writes its status code when the response of attempt 1 is about to be delivered. -/
def Demo.lateStatus : List Act :=
  stuck 0 broken ++ [go] ++ headers 1 ok ++ body 1 ++ [.bgStatus 0] ++ List.replicate 15 go

open Demo in
/-- Attempt 0 times out, its upstream call returns an error (it was cancelled), and the goroutine
stores the missing response after attempt 1 has got its own. -/
def Demo.lateNil : List Act :=
  silent 0 ++ [go] ++ headers 1 ok ++ body 1 ++ [.hgReturn 0 none, .hgWrite 0] ++
    List.replicate 4 go

/-- C50 fails: the client receives the headers of the abandoned first attempt with the body of the
second. -/
theorem C50_violated : ∃ s r0 r1, Demo.setup.Reaches s ∧ s.n = 2 ∧ s.pc = .done ∧
    (s.atmpt 0).vResp = some r0 ∧ (s.atmpt 1).vResp = some r1 ∧
    r0.header = [("X".toList, ["other".toList])] ∧ r1.header = [("X".toList, ["ok".toList])] ∧
    s.sent.map (fun y => (y.status, y.header "X".toList, y.body)) =
      [(200, ["other".toList], r1.body)] := by
  obtain ⟨s, hs, hp⟩ := Demo.of_check (x := Demo.setup) (as := Demo.lateHeaders)
    (p := fun s => s.n == 2 && (Demo.seen s).finished &&
      (s.atmpt 0).vResp == some { Demo.ok with header := [("X".toList, ["other".toList])] } &&
      (s.atmpt 1).vResp == some Demo.ok &&
      (Demo.seen s).sent == [(200, ["other".toList], Demo.ok.body)]) (by decide +kernel)
  simp only [Bool.and_eq_true, beq_iff_eq] at hp
  obtain ⟨⟨⟨⟨h1, h2⟩, h3⟩, h4⟩, h5⟩ := hp
  exact ⟨s, _, _, Demo.reaches hs, h1, Demo.done_of_seen h2, h3, h4, rfl, rfl, h5⟩

/-- C53 fails for the same reason: the handler had observed the read deadline of the first attempt,
and the response of that attempt arrived later; its headers are delivered all the same. -/
theorem C53_violated : ∃ s t as r0, Demo.setup.Reaches s ∧ (s.atmpt 0).abortedFlag = true ∧
    (s.atmpt 0).vResp = none ∧ run Demo.setup.env s as = some t ∧ t.pc = .done ∧
    (t.atmpt 0).vResp = some r0 ∧ r0.header = [("X".toList, ["other".toList])] ∧
    t.sent.map (fun y => y.header "X".toList) = [["other".toList]] ∧
    (t.atmpt 1).vResp ≠ some r0 := by
  obtain ⟨s, hs, hp⟩ := Demo.of_check (x := Demo.setup) (as := Demo.silent 0)
    (p := fun s => (s.atmpt 0).abortedFlag && (s.atmpt 0).vResp == none) (by decide +kernel)
  obtain ⟨t, ht, hq⟩ := Demo.of_check (x := Demo.setup) (as := Demo.lateHeaders)
    (p := fun s => (Demo.seen s).finished &&
      (s.atmpt 0).vResp == some { Demo.ok with header := [("X".toList, ["other".toList])] } &&
      s.sent.map (fun y => y.header "X".toList) == [["other".toList]] &&
      (s.atmpt 1).vResp == some Demo.ok) (by decide +kernel)
  simp only [Bool.and_eq_true, beq_iff_eq] at hp hq
  obtain ⟨⟨⟨h1, h2⟩, h3⟩, h4⟩ := hq
  have hrun : run Demo.setup.env s (Demo.lateHeaders.drop (Demo.silent 0).length) = some t := by
    rw [← run_append hs]
    exact ht
  refine ⟨s, t, _, _, Demo.reaches hs, hp.1, hp.2, hrun, Demo.done_of_seen h1, h2, rfl, h3, ?_⟩
  rw [h4]
  decide

/-- C35 fails: a status code of 503 received by the abandoned first attempt reaches the client. -/
theorem C35_violated : ∃ s, Demo.setup.Reaches s ∧ s.pc = .done ∧
    s.sent.map (fun y => (y.status, y.header "X".toList, y.body)) =
      [(503, ["ok".toList], Demo.ok.body)] := by
  obtain ⟨s, hs, hp⟩ := Demo.of_check (x := Demo.setup) (as := Demo.lateStatus)
    (p := fun s => (Demo.seen s).finished &&
      (Demo.seen s).sent == [(503, ["ok".toList], Demo.ok.body)]) (by decide +kernel)
  simp only [Bool.and_eq_true, beq_iff_eq] at hp
  exact ⟨s, Demo.reaches hs, Demo.done_of_seen hp.1, hp.2⟩

/-- C51 fails: the handler crashes on the response that the abandoned first attempt did not get. -/
theorem C51_violated : ∃ s t, Demo.setup.Reaches s ∧ NilDeref Demo.setup.env s ∧
    stepMain Demo.setup.env s .complete = some t ∧ t.pc = .panicked ∧ t.sent = [] := by
  obtain ⟨s, hs, hp⟩ := Demo.of_check (x := Demo.setup) (as := Demo.lateNil)
    (p := fun s => (match s.pc with | .chkResp false => true | _ => false) &&
      s.curA.resp == none && s.sent.isEmpty) (by decide +kernel)
  simp only [Bool.and_eq_true, beq_iff_eq, List.isEmpty_iff] at hp
  obtain ⟨⟨h1, h2⟩, h3⟩ := hp
  have hpc : s.pc = .chkResp false := by
    split at h1
    · assumption
    · cases h1
  refine ⟨s, { s with pc := .panicked }, Demo.reaches hs, ⟨h2, by rw [hpc]⟩, ?_, rfl, h3⟩
  simp only [stepMain, hpc, h2]
  rfl

/-! ### What holds without late writes -/

/-- The executions covered: those without a late write, in particular (see `C50_covered_…`) all with
one attempt and all in which no read timer fires. -/
def Setup.ReachesOrderly (x : Setup K) (s : St) : Prop :=
  ∃ as, run x.env (initial x.dec) as = some s ∧ Orderly x.env (initial x.dec) as

theorem C50_covered_single (x : Setup K) (s : St) (h : x.Reaches s)
    (h1 : toUpper x.rq.method ∉ ["GET", "HEAD", "OPTIONS", "TRACE", "PUT", "DELETE"].map
        String.toList ∨ x.c.connection.upstream.maxAttempts ≤ 1) : x.ReachesOrderly s := by
  obtain ⟨as, h⟩ := h
  refine ⟨as, h, ?_⟩
  by_cases hd : ∃ r u l, x.dec = .forward r u l
  · obtain ⟨r, u, l, hd⟩ := hd
    rw [hd] at h ⊢
    exact orderly_of_single (Inv.initial _ r u l).count (Inv.initial x.env r u l).pos h1 h
  · exact (Still.initial fun r u l h => hd ⟨r, u, l, h⟩).orderly h

theorem C50_covered_no_timeout (x : Setup K) (s : St) (as : List Act)
    (h : run x.env (initial x.dec) as = some s) (ht : ∀ a ∈ as, ∀ i, a ≠ .atmptTimer i) :
    x.ReachesOrderly s := by
  refine ⟨as, h, ?_⟩
  by_cases hd : ∃ r u l, x.dec = .forward r u l
  · obtain ⟨r, u, l, hd⟩ := hd
    rw [hd] at h ⊢
    exact orderly_of_no_timeout (.initial _ r u l) (.initial _) (.initial r u l) ht h
  · exact (Still.initial fun r u l h => hd ⟨r, u, l, h⟩).orderly h

theorem ordInv_of_reaches {x : Setup K} {s : St} (h : x.ReachesOrderly s) {r : Route} {u : URL}
    {l : Str} (hd : x.dec = .forward r u l) : OrdInv x.env s := by
  obtain ⟨as, h, ho⟩ := h
  rw [hd] at h ho
  exact (OrdInv.initial _ r u l).run ho h

/-- The client gets one of five answers, each for its reason: the complete response of the last
attempt, the JSON form of its 4xx status, 504 after the round trip deadline, 504 after the read
deadline of the last attempt, or 502 after its failure. -/
theorem C50_answer_partial (x : Setup K) (s : St) (h : x.ReachesOrderly s) {r : Route} {u : URL}
    {l : Str} (hd : x.dec = .forward r u l) (hf : s.pc = .done) :
    ∃ y, s.sent = [y] ∧ Answer x.env s.dwnFired s.curA y := by
  have := (ordInv_of_reaches h hd).pc
  unfold PcOk at this
  rw [hf] at this
  exact this

/-- C50: whatever is proxied is the response built from the one the last attempt received and read
completely. -/
theorem C50_partial (x : Setup K) (s : St) (h : x.ReachesOrderly s) {r : Route} {u : URL} {l : Str}
    (hd : x.dec = .forward r u l) (hf : s.pc = .done) :
    ∃ y, s.sent = [y] ∧
      ((∃ v, s.curA.vResp = some v ∧ s.curA.vBody = some v.body ∧ v.status < 400 ∧
          y = proxiedResponse x.respEnv v) ∨
        ∃ code msg, y = jsonResponse x.respEnv code msg) := by
  obtain ⟨y, hy, ha⟩ := C50_answer_partial x s h hd hf
  have hb := (ordInv_of_reaches h hd).body
  refine ⟨y, hy, ?_⟩
  cases ha with
  | proxied v h1 h2 =>
    refine .inl ⟨v, h1.1.2.1, ?_, h2, rfl⟩
    unfold BodyOk at hb
    rw [h1.2.1] at hb
    exact hb.2.1 h1.2.2.1
  | client v h1 h2 => exact .inr ⟨_, _, rfl⟩
  | dwn h => exact .inr ⟨_, _, rfl⟩
  | up h => exact .inr ⟨_, _, rfl⟩
  | bad h => exact .inr ⟨_, _, rfl⟩

/-- C35: no status of 500 and above but the gateway's own 502 and 504. -/
theorem C35_partial (x : Setup K) (s : St) (h : x.ReachesOrderly s) {r : Route} {u : URL} {l : Str}
    (hd : x.dec = .forward r u l) (hf : s.pc = .done) :
    ∃ y, s.sent = [y] ∧ (y.status < 500 ∨
      y = jsonResponse x.respEnv 504 "gateway timeout triggered by downstream event".toList ∨
      y = jsonResponse x.respEnv 504 "gateway timeout triggered by upstream attempt".toList ∨
      y = jsonResponse x.respEnv 502
        "bad gateway triggered. unable to process upstream response".toList) := by
  obtain ⟨y, hy, ha⟩ := C50_answer_partial x s h hd hf
  refine ⟨y, hy, ?_⟩
  cases ha with
  | proxied v h1 h2 => exact .inl h1.2.2.2.2
  | client v h1 h2 => exact .inl h1.2.2.2.2
  | dwn h => exact .inr (.inl rfl)
  | up h => exact .inr (.inr (.inl rfl))
  | bad h => exact .inr (.inr (.inr rfl))

/-- C51: no missing upstream response is dereferenced. -/
theorem C51_partial (x : Setup K) (s : St) (h : x.ReachesOrderly s) : ¬ NilDeref x.env s := by
  by_cases hd : ∃ r u l, x.dec = .forward r u l
  · obtain ⟨r, u, l, hd⟩ := hd
    exact (ordInv_of_reaches h hd).nilDeref
  · obtain ⟨as, h, -⟩ := h
    have := ((Still.initial (d := x.dec) fun r u l h => hd ⟨r, u, l, h⟩).run h).pc
    rintro ⟨-, hn⟩
    rcases this with ⟨c, m, h⟩ | h | h | h <;> rw [h] at hn <;> exact hn

/-- C53, for every execution: while the handler builds a proxied answer, it has not observed the read
deadline of the attempt it reports, nor the round trip deadline. -/
theorem C53_partial (x : Setup K) (s : St) (h : x.Reaches s)
    (hp : ∃ hdr code body, s.pc = .okSend hdr code body) :
    s.curA.abortedFlag = false ∧ s.dwnFlag = false := by
  obtain ⟨hdr, code, body, hp⟩ := hp
  rcases going_or_still h with ⟨r, u, l, -, hg⟩ | ⟨-, hs⟩
  · exact hg.inv.up (by rw [hp]; trivial)
  · rcases hs.pc with ⟨c, m, h⟩ | h | h | h <;> rw [hp] at h <;> cases h

/-- C53 without late writes: what is about to be sent was built from the response of an attempt whose
read deadline the handler has not observed. -/
theorem C53_orderly_partial (x : Setup K) (s : St) (h : x.ReachesOrderly s) (hdr : Hdr) (code : Int)
    (body : Bytes) (hp : s.pc = .okSend hdr code body) :
    s.curA.abortedFlag = false ∧ ∃ v, s.curA.vResp = some v ∧ v.status < 400 ∧
      ⟨code, hdr, body⟩ = proxiedResponse x.respEnv v := by
  have h' : x.Reaches s := h.imp fun as h => h.1
  refine ⟨(C53_partial x s h' ⟨_, _, _, hp⟩).1, ?_⟩
  rcases going_or_still h' with ⟨r, u, l, hd, -⟩ | ⟨-, hs⟩
  · have := (ordInv_of_reaches h hd).pc
    unfold PcOk at this
    rw [hp] at this
    obtain ⟨v, h1, h2, h3⟩ := this
    exact ⟨v, h1.1.2.1, h2, h3⟩
  · rcases hs.pc with ⟨c, m, h⟩ | h | h | h <;> rw [hp] at h <;> cases h

/-- An orderly execution with a retry, at its end. -/
example : ∃ s, Demo.setup.ReachesOrderly s ∧ s.pc = .done ∧ s.n = 2 ∧ s.curA.vResp = some Demo.ok := by
  obtain ⟨s, hs, hp⟩ := Demo.of_check (x := Demo.setup)
    (as := Demo.failed 0 ++ Demo.attempt 1 Demo.ok)
    (p := fun s => (Demo.seen s).finished && s.n == 2 && s.curA.vResp == some Demo.ok)
    (by decide +kernel)
  simp only [Bool.and_eq_true, beq_iff_eq] at hp
  refine ⟨s, C50_covered_no_timeout _ s _ hs ?_, Demo.done_of_seen hp.1.1, hp.1.2, hp.2⟩
  intro a ha i hi
  subst hi
  revert ha
  simp [Demo.failed, Demo.attempt, Demo.headers, Demo.body]

/-- An observed round trip deadline. -/
example : (Demo.exec Demo.setup ([Demo.go, .hgCall 0, .dwnTimer, .main .dwnAborted] ++
      List.replicate 7 Demo.go)).map Demo.seen = some ⟨true, 1, 1, [(504, [], Demo.json 504
      "gateway timeout triggered by downstream event")]⟩ := by
  decide +kernel

end J8a

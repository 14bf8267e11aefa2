import Verif.Model.Handler
/-!
# Reasoning about the attempt machine
-/
namespace J8a
open Go

variable {K : Type}

theorem run_cons {e : Env} {s s' : St} {a : Act} {as : List Act}
    (h : run e s (a :: as) = some s') : ∃ t, step e s a = some t ∧ run e t as = some s' := by
  rw [run] at h
  split at h
  · cases h
  · exact ⟨_, ‹_›, h⟩

theorem run_append {e : Env} {s t : St} {as bs : List Act} (h : run e s as = some t) :
    run e s (as ++ bs) = run e t bs := by
  induction as generalizing s with
  | nil => rw [run] at h; cases h; rfl
  | cons a as ih =>
    obtain ⟨u, hu, h⟩ := run_cons h
    rw [List.cons_append, run, hu]
    exact ih h

/-- What holds at the start and is preserved by every step holds in every state of every
execution. -/
theorem run_invariant {e : Env} {P : St → Prop} (hstep : ∀ s a s', P s → step e s a = some s' → P s')
    {s s' : St} {as : List Act} (h0 : P s) (h : run e s as = some s') : P s' := by
  induction as generalizing s with
  | nil => rw [run] at h; cases h; exact h0
  | cons a as ih =>
    obtain ⟨t, ht, h⟩ := run_cons h
    exact ih (hstep _ _ _ h0 ht) h

/-- Splits a step into all its cases, with the successor state substituted. -/
macro "step_cases " h:ident : tactic =>
  `(tactic| (simp only [step, stepMain, stepOther] at $h:ident; repeat' split at $h:ident) <;>
      cases $h:ident)

/-- Splits a step of the handler into all its cases. -/
macro "main_cases " s:term:max hm:ident hpc:ident : tactic =>
  `(tactic| cases $hpc:ident : ($s).pc <;> simp only [stepMain, $hpc:ident] at $hm:ident <;>
      (repeat' split at $hm:ident) <;> cases $hm:ident)

@[simp] theorem upd_n (s : St) (i f) : (s.upd i f).n = s.n := rfl
@[simp] theorem upd_pc (s : St) (i f) : (s.upd i f).pc = s.pc := rfl
@[simp] theorem upd_cur (s : St) (i f) : (s.upd i f).cur = s.cur := rfl
@[simp] theorem upd_sent (s : St) (i f) : (s.upd i f).sent = s.sent := rfl
@[simp] theorem upd_calls (s : St) (i f) : (s.upd i f).calls = s.calls := rfl
@[simp] theorem upd_dwnFired (s : St) (i f) : (s.upd i f).dwnFired = s.dwnFired := rfl
@[simp] theorem upd_dwnFlag (s : St) (i f) : (s.upd i f).dwnFlag = s.dwnFlag := rfl
theorem upd_atmpt (s : St) (i k f) :
    (s.upd i f).atmpt k = if k = i then f (s.atmpt k) else s.atmpt k := rfl

@[simp] theorem noteDwn_n (s : St) : s.noteDwn.n = s.n := rfl
@[simp] theorem noteDwn_pc (s : St) : s.noteDwn.pc = s.pc := rfl
@[simp] theorem noteDwn_cur (s : St) : s.noteDwn.cur = s.cur := rfl
@[simp] theorem noteDwn_sent (s : St) : s.noteDwn.sent = s.sent := rfl
@[simp] theorem noteDwn_calls (s : St) : s.noteDwn.calls = s.calls := rfl
@[simp] theorem noteDwn_atmpt (s : St) : s.noteDwn.atmpt = s.atmpt := rfl
@[simp] theorem noteDwn_dwnFired (s : St) : s.noteDwn.dwnFired = s.dwnFired := rfl
@[simp] theorem noteDwn_dwnFlag (s : St) : s.noteDwn.dwnFlag = (s.dwnFlag || s.dwnFired) := rfl

@[simp] theorem noteUp_n (s : St) : s.noteUp.n = s.n := rfl
@[simp] theorem noteUp_pc (s : St) : s.noteUp.pc = s.pc := rfl
@[simp] theorem noteUp_cur (s : St) : s.noteUp.cur = s.cur := rfl
@[simp] theorem noteUp_sent (s : St) : s.noteUp.sent = s.sent := rfl
@[simp] theorem noteUp_calls (s : St) : s.noteUp.calls = s.calls := rfl
@[simp] theorem noteUp_dwnFired (s : St) : s.noteUp.dwnFired = s.dwnFired := rfl
@[simp] theorem noteUp_dwnFlag (s : St) : s.noteUp.dwnFlag = s.dwnFlag := rfl
theorem noteUp_atmpt (s : St) (k) : s.noteUp.atmpt k =
    if k = s.cur then { s.atmpt k with abortedFlag := (s.atmpt k).abortedFlag || (s.atmpt k).ctxDone }
    else s.atmpt k := rfl

@[simp] theorem abortAll_n (s : St) : s.abortAll.n = s.n := rfl
@[simp] theorem abortAll_pc (s : St) : s.abortAll.pc = s.pc := rfl
@[simp] theorem abortAll_cur (s : St) : s.abortAll.cur = s.cur := rfl
@[simp] theorem abortAll_sent (s : St) : s.abortAll.sent = s.sent := rfl
@[simp] theorem abortAll_calls (s : St) : s.abortAll.calls = s.calls := rfl
@[simp] theorem abortAll_dwnFired (s : St) : s.abortAll.dwnFired = s.dwnFired := rfl
@[simp] theorem abortAll_dwnFlag (s : St) : s.abortAll.dwnFlag = s.dwnFlag := rfl
theorem abortAll_atmpt (s : St) (k) : s.abortAll.atmpt k =
    if k < s.n ∧ (s.atmpt k).hasCancel then { s.atmpt k with ctxDone := true } else s.atmpt k := rfl

/-- What the other goroutines and the timers leave alone. -/
structure Frame (s s' : St) : Prop where
  n : s'.n = s.n
  pc : s'.pc = s.pc
  sent : s'.sent = s.sent
  dwnFlag : s'.dwnFlag = s.dwnFlag
  dwnFired : s.dwnFired = true → s'.dwnFired = true
  abortedFlag : ∀ k, (s'.atmpt k).abortedFlag = (s.atmpt k).abortedFlag
  respBody : ∀ k, (s'.atmpt k).respBody = (s.atmpt k).respBody
  hasCancel : ∀ k, (s'.atmpt k).hasCancel = (s.atmpt k).hasCancel
  ctxDone : ∀ k, (s.atmpt k).ctxDone = true → (s'.atmpt k).ctxDone = true
  hdrClosed : ∀ k, (s.atmpt k).hdrClosed ≤ (s'.atmpt k).hdrClosed
  bodyClosed : ∀ k, (s.atmpt k).bodyClosed ≤ (s'.atmpt k).bodyClosed

theorem Frame.cur {s s' : St} (h : Frame s s') : s'.cur = s.cur := by
  unfold St.cur; rw [h.n]

theorem other_frame {s s' : St} {a : Act} (h : stepOther s a = some s') : Frame s s' := by
  unfold stepOther at h
  (repeat' split at h) <;> cases h <;> constructor <;> first
    | rfl
    | (intro h; exact h)
    | (intro _; rfl)
    | (intro k; simp only [upd_atmpt]; (repeat' split) <;> simp)

theorem step_cases' {e : Env} {s s' : St} {a : Act} (h : step e s a = some s') :
    Frame s s' ∨ ∃ c, a = .main c ∧ stepMain e s c = some s' := by
  cases a
  case main c => exact .inr ⟨c, rfl, h⟩
  all_goals (simp only [step] at h; exact .inl (other_frame h))

/-! ## Responses sent -/

/-- Has the handler sent its response, according to where it is? -/
def PC.sentCount : PC → Nat
  | .log1 | .log2 | .done => 1
  | _ => 0

theorem sent_step {e : Env} {s s' : St} {a : Act} (h : step e s a = some s')
    (hp : s.pc = .panicked ∧ s.sent.length ≤ 1 ∨ s.sent.length = s.pc.sentCount) :
    s'.pc = .panicked ∧ s'.sent.length ≤ 1 ∨ s'.sent.length = s'.pc.sentCount := by
  cases a <;> step_cases h <;> simp_all [PC.sentCount]

theorem sent_run {x : Setup K} {s : St} (h : x.Reaches s) :
    s.pc = .panicked ∧ s.sent.length ≤ 1 ∨ s.sent.length = s.pc.sentCount := by
  obtain ⟨as, h⟩ := h
  refine run_invariant (P := fun s => s.pc = .panicked ∧ s.sent.length ≤ 1 ∨
    s.sent.length = s.pc.sentCount) (fun s a s' hp hs => sent_step hs hp) ?_ h
  cases x.dec <;> simp [initial, PC.sentCount]

/-! ## Upstream calls -/

/-- Has the goroutine called `Do`? -/
def HG.called : HG → Bool
  | .idle => false
  | .started _ => false
  | _ => true

/-- Calls carry the request built from the attempt's URL, at most one per attempt. -/
structure CallInv (e : Env) (u : URL) (s : St) : Prop where
  pos : 0 < s.n
  url : ∀ k < s.n, (s.atmpt k).url = u
  started : ∀ k < s.n, ∀ q, (s.atmpt k).hg = .started q →
    q = scaffoldUpstreamRequest e.xrid e.pb e.rq e.route u
  calls : ∀ p ∈ s.calls, p.1 < s.n ∧ (s.atmpt p.1).hg.called ∧
    p.2 = scaffoldUpstreamRequest e.xrid e.pb e.rq e.route u
  nodup : (s.calls.map Prod.fst).Nodup
  fresh : s.pc = .scaffold → (s.atmpt s.cur).hg = .idle

theorem cur_lt {s : St} (h : 0 < s.n) : s.cur < s.n := by unfold St.cur; omega

/-- The number of attempts only grows in one place. -/
theorem step_n {e : Env} {s s' : St} {a : Act} (h : step e s a = some s') :
    s'.n = s.n ∨ s.pc = .next ∧ s'.n = s.n + 1 ∧ s'.pc = .scaffold ∧ s'.calls = s.calls ∧
      s'.atmpt = fun k => if k = s.n then { url := s.curA.url, label := s.curA.label }
        else s.atmpt k := by
  cases a <;> step_cases h <;> simp_all

theorem step_url {e : Env} {s s' : St} {a : Act} (h : step e s a = some s') (k : Nat)
    (hk : k < s.n) : (s'.atmpt k).url = (s.atmpt k).url := by
  cases a <;> step_cases h <;> simp only [upd_atmpt, abortAll_atmpt, noteUp_atmpt, noteDwn_atmpt] <;>
    (repeat' split) <;> first | rfl | omega

/-- How the header goroutine of an attempt moves. -/
inductive HGStep (e : Env) (s : St) (k : Nat) : Act → HG → HG → Prop where
  | start (c g) : s.pc = .scaffold → k = s.cur → HGStep e s k (.main c) g
      (.started (scaffoldUpstreamRequest e.xrid e.pb e.rq e.route s.curA.url))
  | call (q) : HGStep e s k (.hgCall k) (.started q) .calling
  | ret (r) : HGStep e s k (.hgReturn k r) .calling .returned
  | write : HGStep e s k (.hgWrite k) .returned .wrote
  | close : HGStep e s k (.hgClose k) .wrote .finished

theorem step_hg {e : Env} {s s' : St} {a : Act} (h : step e s a = some s') (k : Nat)
    (hk : k < s.n) :
    (s'.atmpt k).hg = (s.atmpt k).hg ∨ HGStep e s k a (s.atmpt k).hg (s'.atmpt k).hg := by
  cases a <;> step_cases h <;> simp only [upd_atmpt, abortAll_atmpt, noteUp_atmpt, noteDwn_atmpt] <;>
    (repeat' split) <;> first
      | exact Or.inl rfl
      | exact Or.inl trivial
      | omega
      | (subst_vars; right; simp only [*]; constructor <;> simp_all)
      | (subst_vars; right; constructor <;> simp_all)

theorem step_calls {e : Env} {s s' : St} {a : Act} (h : step e s a = some s') :
    s'.calls = s.calls ∨ ∃ k q, a = .hgCall k ∧ k < s.n ∧ (s.atmpt k).hg = .started q ∧
      s'.calls = s.calls ++ [(k, q)] ∧ s'.n = s.n ∧ (s'.atmpt k).hg = .calling := by
  cases a <;> step_cases h <;> first
    | exact Or.inl rfl
    | (right; exact ⟨_, _, rfl, ‹_›, ‹_›, rfl, rfl, by simp [upd_atmpt]⟩)

theorem HGStep.called {e : Env} {s : St} {k : Nat} {a : Act} {g g' : HG}
    (h : HGStep e s k a g g') (hc : g.called = true) : g'.called = true ∨ s.pc = .scaffold := by
  cases h <;> simp_all [HG.called]

theorem step_pc_scaffold {e : Env} {s s' : St} {a : Act} (h : step e s a = some s')
    (hp : s'.pc = .scaffold) : s.pc = .next ∨
      (s.pc = .scaffold ∧ s'.n = s.n ∧ ∀ c, a ≠ .main c) := by
  cases a <;> step_cases h <;> simp_all

theorem CallInv.step {e : Env} {u : URL} {s s' : St} {a : Act} (hi : CallInv e u s)
    (h : step e s a = some s') : CallInv e u s' := by
  have hc := cur_lt hi.pos
  rcases step_n h with hn | ⟨hpc, hn, hpc', hcalls, hat⟩
  · refine ⟨by rw [hn]; exact hi.pos, ?_, ?_, ?_, ?_, ?_⟩
    · intro k hk
      rw [hn] at hk
      rw [step_url h k hk, hi.url k hk]
    · intro k hk q hq
      rw [hn] at hk
      rcases step_hg h k hk with hg | hg
      · exact hi.started k hk q (by rw [← hg]; exact hq)
      · rw [hq] at hg
        generalize (s.atmpt k).hg = g at hg
        cases hg
        rw [show s.curA.url = u from hi.url _ hc]
    · intro p hp
      rw [hn]
      rcases step_calls h with hcl | ⟨k, q, rfl, hk, hq, hcl, -, hg'⟩
      · rw [hcl] at hp
        obtain ⟨h1, h2, h3⟩ := hi.calls p hp
        refine ⟨h1, ?_, h3⟩
        rcases step_hg h p.1 h1 with hg | hg
        · rw [hg]; exact h2
        · rcases hg.called h2 with hg' | hg'
          · exact hg'
          · have hf := hi.fresh hg'
            generalize hgs : (s.atmpt p.1).hg = g at hg h2
            generalize (s'.atmpt p.1).hg = g' at hg ⊢
            cases hg
            all_goals first
              | (rename_i hk; rw [← hk, hgs] at hf; rw [hf] at h2; simp [HG.called] at h2)
              | simp [HG.called]
      · rw [hcl, List.mem_append, List.mem_singleton] at hp
        rcases hp with hp | rfl
        · obtain ⟨h1, h2, h3⟩ := hi.calls p hp
          refine ⟨h1, ?_, h3⟩
          rcases step_hg h p.1 h1 with hg | hg
          · rw [hg]; exact h2
          · generalize (s.atmpt p.1).hg = g at hg
            generalize (s'.atmpt p.1).hg = g' at hg ⊢
            cases hg
            simp [HG.called]
        · exact ⟨hk, by rw [hg']; rfl, hi.started k hk q hq⟩
    · rcases step_calls h with hcl | ⟨k, q, rfl, hk, hq, hcl, -, hg'⟩
      · rw [hcl]; exact hi.nodup
      · rw [hcl, List.map_append, List.nodup_append]
        refine ⟨hi.nodup, by simp, ?_⟩
        intro x hx y hy
        simp only [List.map_cons, List.map_nil, List.mem_singleton] at hy
        obtain ⟨p, hp, rfl⟩ := List.mem_map.1 hx
        intro heq
        have := (hi.calls p hp).2.1
        rw [heq, hy, hq] at this
        simp [HG.called] at this
    · intro hp
      rcases step_pc_scaffold h hp with h' | ⟨h', -, hm⟩
      · exfalso
        cases a <;> step_cases h <;> simp_all
      · have hcur : s'.cur = s.cur := by unfold St.cur; rw [hn]
        rw [hcur]
        rcases step_hg h s.cur hc with hg | hg
        · rw [hg]; exact hi.fresh h'
        · have := hi.fresh h'
          rw [this] at hg
          generalize (s'.atmpt s.cur).hg = g' at hg ⊢
          cases hg
          exact absurd rfl (hm _)
  · have hold : ∀ k, k < s.n → s'.atmpt k = s.atmpt k := by
      intro k hk
      rw [hat]
      simp only
      rw [if_neg (by omega)]
    have hnew : s'.atmpt s.n = { url := s.curA.url, label := s.curA.label } := by
      rw [hat]; simp
    refine ⟨by omega, ?_, ?_, ?_, ?_, ?_⟩
    · intro k hk
      rcases Nat.lt_or_ge k s.n with hk' | hk'
      · rw [hold k hk', hi.url k hk']
      · rw [show k = s.n by omega, hnew]
        exact hi.url _ hc
    · intro k hk q hq
      rcases Nat.lt_or_ge k s.n with hk' | hk'
      · rw [hold k hk'] at hq
        exact hi.started k hk' q hq
      · rw [show k = s.n by omega, hnew] at hq
        cases hq
    · intro p hp
      rw [hcalls] at hp
      obtain ⟨h1, h2, h3⟩ := hi.calls p hp
      exact ⟨by omega, by rw [hold _ h1]; exact h2, h3⟩
    · rw [hcalls]; exact hi.nodup
    · intro _
      rw [show s'.cur = s.n by unfold St.cur; omega, hnew]

/-- Every call made in an execution. -/
theorem calls_of_reaches {x : Setup K} {s : St} (h : x.Reaches s) {p : Nat × UpReq}
    (hp : p ∈ s.calls) : ∃ r u l, x.dec = .forward r u l ∧
      p.2 = scaffoldUpstreamRequest x.xrid x.pb x.rq r u := by
  obtain ⟨as, h⟩ := h
  cases hd : x.dec with
  | forward r u l =>
    refine ⟨r, u, l, rfl, ?_⟩
    have hr : x.env.route = r := by unfold Setup.env; simp only [hd]
    have := run_invariant (P := CallInv x.env u) (fun s a s' hi hs => hi.step hs)
      (s := initial x.dec) (by rw [hd]; constructor <;> simp [initial, St.cur]) h
    rw [(this.calls p hp).2.2, hr]
    rfl
  | respond code msg =>
    exfalso
    have := run_invariant (P := fun s => s.n = 0 ∧ s.calls = [] ∧
      (s.pc = .sendJson code msg ∨ s.pc = .log1 ∨ s.pc = .done ∨ s.pc = .panicked)) (fun s a s' hi hs => by
        obtain ⟨h0, h1, h2⟩ := hi
        cases a <;> step_cases hs <;> simp_all) (s := initial x.dec) (by simp [hd, initial]) h
    rw [this.2.1] at hp
    cases hp
  | panic =>
    exfalso
    have := run_invariant (P := fun s => s.n = 0 ∧ s.calls = [] ∧ s.pc = .panicked)
      (fun s a s' hi hs => by
        obtain ⟨h0, h1, h2⟩ := hi
        cases a <;> step_cases hs <;> simp_all) (s := initial x.dec) (by simp [hd, initial]) h
    rw [this.2.1] at hp
    cases hp

/-- The responses sent by a handler that decides without asking an upstream. -/
theorem respond_sent {x : Setup K} {s : St} (h : x.Reaches s) {code : Int} {msg : Str}
    (hd : x.dec = .respond code msg) (hv : validStatus code = true) : s.calls = [] ∧
      (s.pc = .sendJson code msg ∧ s.sent = [] ∨
        (s.pc = .log1 ∨ s.pc = .done) ∧ s.sent = [jsonResponse x.respEnv code msg]) := by
  obtain ⟨as, h⟩ := h
  have := run_invariant (P := fun s => s.n = 0 ∧ s.calls = [] ∧
      (s.pc = .sendJson code msg ∧ s.sent = [] ∨
        (s.pc = .log1 ∨ s.pc = .done) ∧ s.sent = [jsonResponse x.respEnv code msg]))
      (fun s a s' hi hs => by
        obtain ⟨h0, h1, h2⟩ := hi
        cases a <;> step_cases hs <;> simp_all [Setup.env]) (s := initial x.dec)
      (by simp [hd, initial]) h
  exact this.2

end J8a

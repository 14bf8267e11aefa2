import Verif.Lemmas.Machine
/-!
# Counters, deadlines and flags of the attempt machine
-/
namespace J8a
open Go

variable {K : Type}

theorem pos_step {e : Env} {s s' : St} {a : Act} (h : step e s a = some s') (hp : 0 < s.n) :
    0 < s'.n := by
  rcases step_n h with hn | ⟨-, hn, -⟩ <;> omega

/-- May another attempt be made, as far as method and count are concerned? -/
def mayRetry (e : Env) (n : Nat) : Prop := e.method ∈ repeatableMethods ∧ (n : Int) < e.maxAttempts

/-- The bound on the number of attempts. -/
structure CountInv (e : Env) (s : St) : Prop where
  bound : s.n ≤ 1 ∨ e.method ∈ repeatableMethods ∧ (s.n : Int) ≤ e.maxAttempts
  next : s.pc = .next → mayRetry e s.n
  retry : s.pc = .retry2 true → mayRetry e s.n

theorem CountInv.step {e : Env} {s s' : St} {a : Act} (hi : CountInv e s)
    (h : step e s a = some s') : CountInv e s' := by
  obtain ⟨h1, h2, h3⟩ := hi
  refine ⟨?_, ?_, ?_⟩
  · rcases step_n h with hn | ⟨hpc, hn, -⟩
    · rw [hn]; exact h1
    · obtain ⟨hm, hl⟩ := h2 hpc
      exact .inr ⟨hm, by omega⟩
  · cases a <;> step_cases h <;> simp_all
  · cases a <;> step_cases h <;> simp_all [mayRetry]

/-- Flags are raised by the handler alone, and only after the event. -/
structure FlagInv (s : St) : Prop where
  dwn : s.dwnFlag = true → s.dwnFired = true
  up : ∀ k, (s.atmpt k).abortedFlag = true → (s.atmpt k).ctxDone = true

theorem FlagInv.step {e : Env} {s s' : St} {a : Act} (hi : FlagInv s)
    (h : step e s a = some s') : FlagInv s' := by
  obtain ⟨h1, h2⟩ := hi
  refine ⟨?_, ?_⟩
  · clear h2
    cases a <;> step_cases h <;> simp_all
    all_goals grind
  · intro k
    have h2k := h2 k
    clear h1 h2
    cases a <;> step_cases h <;>
      simp only [upd_atmpt, abortAll_atmpt, noteUp_atmpt, noteDwn_atmpt] <;>
      (repeat' split) <;> grind [St.curA]

/-- Every attempt but one about to be scaffolded has its cancel function. -/
def CancelInv (s : St) : Prop :=
  ∀ k < s.n, (s.pc = .scaffold → k ≠ s.cur) → (s.atmpt k).hasCancel = true

theorem CancelInv.step {e : Env} {s s' : St} {a : Act} (hi : CancelInv s)
    (h : step e s a = some s') : CancelInv s' := by
  intro k
  have hk := hi k
  cases a <;> step_cases h <;>
    simp only [upd_atmpt, abortAll_atmpt, noteUp_atmpt, noteDwn_atmpt] <;>
    (repeat' split) <;> grind [St.cur, upd_n, noteUp_n, noteDwn_n, abortAll_n, upd_pc]

/-- The message of proxyhandler.go:95. -/
def dwnMsg : Str := "gateway timeout triggered by downstream event".toList

/-- Where the handler can be after it has observed the round trip deadline, before it answers. -/
def PC.dwnSeen : PC → Prop
  | .retHeader | .procCheck _ _ | .retBody | .setBody _ _ | .chkDwn _ | .retry1 | .retry2 _
  | .final1 => True
  | .sendJson code msg => code = 504 ∧ msg = dwnMsg
  | _ => False

/-- Between the two waits. -/
def PC.headersDone : PC → Prop
  | .retHeader | .procCheck _ _ => True
  | _ => False

/-- At the end. -/
def PC.ended : PC → Prop
  | .log1 | .log2 | .done | .panicked => True
  | _ => False

/-- After the round trip deadline was observed. -/
def DwnInv (e : Env) (s : St) : Prop :=
  s.dwnFlag = true →
    (s.pc.dwnSeen ∧ s.sent = [] ∧ (s.pc.headersDone → s.curA.ctxDone = true)) ∨
    (s.pc.ended ∧ s.sent = [jsonResponse e.toRespEnv 504 dwnMsg])

theorem DwnInv.main {e : Env} {s s' : St} {c : Choice} (hm : stepMain e s c = some s')
    (hcc : (s.pc = .scaffold → s.cur ≠ s.cur) → (s.atmpt s.cur).hasCancel = true)
    (hcl : s.cur < s.n)
    (hsent : s.pc = .panicked ∧ s.sent.length ≤ 1 ∨ s.sent.length = s.pc.sentCount)
    (hi : DwnInv e s) : DwnInv e s' := by
  unfold DwnInv St.curA at hi ⊢
  main_cases s hm hpc <;> rw [hpc] at hi hcc hsent <;>
    simp only [PC.dwnSeen, PC.headersDone, PC.ended, PC.sentCount, reduceCtorEq, false_and, false_or,
      or_false, true_and, false_imp_iff, true_imp_iff, and_true, imp_false,
      List.length_eq_zero_iff] at hi hcc hsent
  all_goals
    simp only [upd_atmpt, abortAll_atmpt, noteUp_atmpt, noteDwn_atmpt,
      PC.dwnSeen, PC.headersDone, PC.ended, upd_dwnFlag, noteDwn_dwnFlag,
      noteUp_dwnFlag, upd_sent, noteUp_sent, noteDwn_sent, abortAll_sent, false_and,
      false_or, or_false, true_and, false_imp_iff, true_imp_iff, and_true]
  all_goals try exact fun hd => (hi hd).elim
  all_goals try exact fun hd => absurd hd hi
  all_goals try (intro hd; first | exact hi hd | exact hsent | exact (hi hd).1)
  all_goals try contradiction
  · exact ⟨hsent, by rw [if_pos ⟨hcl, hcc⟩]⟩
  · rename_i hf
    intro hd
    apply hf
    unfold St.curA
    rw [noteUp_cur, noteUp_atmpt, if_pos rfl]
    simp [(hi hd).2]
  · exact hsent
  · rename_i hf
    exact fun hd => hf hd
  · intro hd
    obtain ⟨⟨rfl, rfl⟩, h⟩ := hi hd
    rw [h]; rfl
  · rename_i hf
    intro hd
    obtain ⟨⟨rfl, rfl⟩, h⟩ := hi hd
    exact absurd rfl hf
  · rename_i hf _
    exact fun hd => hf hd
  · exact fun _ => ⟨rfl, hsent⟩
  · rename_i hf
    exact fun hd => hf hd

theorem DwnInv.step {e : Env} {s s' : St} {a : Act} (hp : 0 < s.n) (hc : CancelInv s)
    (hsent : s.pc = .panicked ∧ s.sent.length ≤ 1 ∨ s.sent.length = s.pc.sentCount)
    (hi : DwnInv e s) (h : step e s a = some s') : DwnInv e s' := by
  rcases step_cases' h with hf | ⟨c, -, hm⟩
  · unfold DwnInv St.curA at hi ⊢
    rw [hf.dwnFlag, hf.pc, hf.sent, hf.cur]
    intro hd
    rcases hi hd with h1 | h1
    · exact .inl ⟨h1.1, h1.2.1, fun h => hf.ctxDone _ (h1.2.2 h)⟩
    · exact .inr h1
  · exact hi.main hm (hc s.cur (cur_lt hp)) (cur_lt hp) hsent

/-! ## The attempt's own deadline -/

/-- The handler has decided to use the current attempt's response. -/
def PC.proxying : PC → Prop
  | .chkResp _ | .branch | .jsonStatus | .okHeaders | .okStatus _ | .okEncode _ _ | .okLength _ _ _
  | .okEnc1 _ _ _ | .okEnc2 _ _ _ | .okSend _ _ _ => True
  | _ => False

/-- An attempt whose deadline was observed is not used. -/
def UpInv (s : St) : Prop :=
  s.pc.proxying → s.curA.abortedFlag = false ∧ s.dwnFlag = false

theorem UpInv.step {e : Env} {s s' : St} {a : Act} (hi : UpInv s)
    (hd : ∀ err, s.pc = .chkUp err → s.dwnFlag = false)
    (h : step e s a = some s') : UpInv s' := by
  rcases step_cases' h with hf | ⟨c, -, hm⟩
  · unfold UpInv St.curA at hi ⊢
    rw [hf.dwnFlag, hf.pc, hf.cur, hf.abortedFlag]
    exact hi
  · unfold UpInv St.curA at hi ⊢
    main_cases s hm hpc <;> rw [hpc] at hi <;>
      simp only [PC.proxying, true_imp_iff, false_imp_iff] at hi ⊢ <;> try exact hi
    rename_i hf
    have : (s.noteUp.atmpt s.cur).abortedFlag = false := by simpa [St.curA] using hf
    exact ⟨this, hd _ hpc⟩

theorem chkUp_dwn_step {e : Env} {s s' : St} {a : Act}
    (hd : ∀ err, s.pc = .chkUp err → s.dwnFlag = false)
    (h : step e s a = some s') : ∀ err, s'.pc = .chkUp err → s'.dwnFlag = false := by
  intro err
  rcases step_cases' h with hf | ⟨c, -, hm⟩
  · rw [hf.pc, hf.dwnFlag]; exact hd err
  · main_cases s hm hpc <;> simp_all

/-- Everything about counters and flags. -/
structure Inv (e : Env) (s : St) : Prop where
  pos : 0 < s.n
  sent : s.pc = .panicked ∧ s.sent.length ≤ 1 ∨ s.sent.length = s.pc.sentCount
  count : CountInv e s
  flag : FlagInv s
  cancel : CancelInv s
  dwn : DwnInv e s
  chk : ∀ err, s.pc = .chkUp err → s.dwnFlag = false
  up : UpInv s

theorem Inv.step {e : Env} {s s' : St} {a : Act} (hi : Inv e s) (h : step e s a = some s') :
    Inv e s' :=
  ⟨pos_step h hi.pos, sent_step h hi.sent, hi.count.step h, hi.flag.step h, hi.cancel.step h,
    hi.dwn.step hi.pos hi.cancel hi.sent h, chkUp_dwn_step hi.chk h, hi.up.step hi.chk h⟩

theorem Inv.initial (e : Env) (r : Route) (u : URL) (l : Str) : Inv e (initial (.forward r u l)) := by
  constructor <;> simp [J8a.initial, PC.sentCount, DwnInv, UpInv, PC.proxying]
  · constructor <;> simp
  · constructor <;> simp
    intro k; split <;> simp [noAtmpt]
  · intro k hk hc
    simp [St.cur] at hk hc
    omega

theorem Inv.run {e : Env} {s s' : St} {as : List Act} (hi : Inv e s) (h : run e s as = some s') :
    Inv e s' := run_invariant (fun _ _ _ hi hs => hi.step hs) hi h

/-- What never goes back along an execution. -/
structure Later (s s' : St) : Prop where
  n : s.n ≤ s'.n
  dwnFlag : s.dwnFlag = true → s'.dwnFlag = true
  dwnFired : s.dwnFired = true → s'.dwnFired = true
  ctxDone : ∀ k < s.n, (s.atmpt k).ctxDone = true → (s'.atmpt k).ctxDone = true
  abortedFlag : ∀ k < s.n, (s.atmpt k).abortedFlag = true → (s'.atmpt k).abortedFlag = true
  sent : s.sent <+: s'.sent
  calls : s.calls <+: s'.calls

theorem Later.refl (s : St) : Later s s := by constructor <;> simp

theorem Later.trans {s t u : St} (h : Later s t) (h' : Later t u) : Later s u where
  n := Nat.le_trans h.n h'.n
  dwnFlag := h'.dwnFlag ∘ h.dwnFlag
  dwnFired := h'.dwnFired ∘ h.dwnFired
  ctxDone k hk := h'.ctxDone k (Nat.lt_of_lt_of_le hk h.n) ∘ h.ctxDone k hk
  abortedFlag k hk := h'.abortedFlag k (Nat.lt_of_lt_of_le hk h.n) ∘ h.abortedFlag k hk
  sent := h.sent.trans h'.sent
  calls := h.calls.trans h'.calls

theorem later_step {e : Env} {s s' : St} {a : Act} (h : step e s a = some s') : Later s s' := by
  refine ⟨?_, ?_, ?_, ?_, ?_, ?_, ?_⟩
  · rcases step_n h with hn | ⟨-, hn, -⟩ <;> omega
  · cases a <;> step_cases h <;> simp_all
  · cases a <;> step_cases h <;> simp_all
  · intro k hk
    cases a <;> step_cases h <;>
      simp only [upd_atmpt, abortAll_atmpt, noteUp_atmpt, noteDwn_atmpt] <;>
      (repeat' split) <;> first | exact id | (intro _; rfl) | omega
  · intro k hk
    cases a <;> step_cases h <;>
      simp only [upd_atmpt, abortAll_atmpt, noteUp_atmpt, noteDwn_atmpt] <;>
      (repeat' split) <;> first | exact id | (intro _; rfl) | omega | (intro h; simp [h])
  · cases a <;> step_cases h <;> simp
  · rcases step_calls h with hc | ⟨_, _, _, _, _, hc, _⟩ <;> rw [hc] <;> simp

theorem later_run {e : Env} {s s' : St} {as : List Act} (h : run e s as = some s') : Later s s' := by
  induction as generalizing s with
  | nil => rw [J8a.run] at h; cases h; exact .refl _
  | cons a as ih =>
    obtain ⟨t, ht, h⟩ := run_cons h
    exact (later_step ht).trans (ih h)

end J8a

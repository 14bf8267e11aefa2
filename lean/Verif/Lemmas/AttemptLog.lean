import Verif.Lemmas.Logged
import Verif.Spec.AttemptLog
/-!
# The lines about attempts and the states of the machine
-/
namespace J8a
open Go

variable {K : Type}

theorem marks_append (a b : List AtmptLine) : marks (a ++ b) = marks a ++ marks b :=
  List.filterMap_append

theorem failures_snoc (cs : List (Option Int)) (c : Option Int) :
    failures (cs ++ [c]) = failures cs ++ [.begun (cs.length + 1), .ended (cs.length + 1) false c] := by
  simp [failures, List.zipIdx_append, List.flatMap_append]

/-- What is written after the beginning of the current attempt. -/
def Tail (n : Nat) (t : List Mark) : PC → Prop
  | .scaffold | .selHeader | .retHeader | .procCheck _ _ | .selBody | .retBody | .setBody _ _ | .chkDwn _ | .chkUp _
  | .chkResp _ => t = []
  | .branch | .jsonStatus | .okHeaders | .okStatus _ | .okEncode _ _ | .okLength _ _ _ | .okEnc1 _ _ _ | .okEnc2 _ _ _
  | .okSend _ _ _ => ∃ c, t = [.ended n true (some c)]
  | .retry1 | .retry2 _ | .next | .final1 | .final2 => ∃ c, t = [.ended n false c]
  | .sendJson _ _ | .log1 | .log2 | .done =>
    (∃ c, t = [.ended n true (some c)]) ∨ ∃ c, t = [.ended n false c]
  | .panicked => t = [] ∨ (∃ c, t = [.ended n true (some c)]) ∨ ∃ c, t = [.ended n false c]

/-- Every attempt before the current one has begun and failed. -/
def MarkInv (s : St) (w : AtmptLog) : Prop :=
  0 < s.n ∧ ∃ cs t, cs.length + 1 = s.n ∧ marks w.lines = failures cs ++ .begun s.n :: t ∧ Tail s.n t s.pc

/-- Is the body of the attempt being worked on? -/
def PC.inBody : PC → Bool
  | .selBody | .retBody | .setBody _ _ | .chkDwn _ | .chkUp _ | .chkResp _ => true
  | _ => false

/-- The handler's response is that of the attempt, and so are the statuses in the log. -/
structure CodeInv (s : St) (w : AtmptLog) : Prop where
  resp : s.pc.inBody = true → ∃ r, w.resp = some r ∧ s.curA.vResp = some r
  codes : ∀ k b c, .ended k b (some c) ∈ marks w.lines → 0 < k ∧ k ≤ s.n ∧
    ∃ v, (s.atmpt (k - 1)).vResp = some v ∧ v.status = c

theorem other_marks {e : Env} {s s' : St} {a : Act} (w : AtmptLog) (h : stepOther s a = some s') :
    marks (attemptLogged e s a w).lines = marks w.lines ∧ (attemptLogged e s a w).resp = w.resp := by
  cases a with
  | main c => simp only [stepOther] at h; cases h
  | hgClose i | bgClose i =>
    simp only [attemptLogged]
    split
    · refine ⟨?_, rfl⟩
      rw [marks_append]
      exact List.append_nil _
    · exact ⟨rfl, rfl⟩
  | _ => exact ⟨rfl, rfl⟩

theorem MarkInv.other {e : Env} {s s' : St} {a : Act} {w : AtmptLog} (h : stepOther s a = some s')
    (hm : MarkInv s w) : MarkInv s' (attemptLogged e s a w) := by
  have hf := other_frame h
  unfold MarkInv at *
  rw [(other_marks w h).1, hf.n, hf.pc]
  exact hm

theorem CodeInv.other {e : Env} {s s' : St} {a : Act} {w : AtmptLog} (h : stepOther s a = some s')
    (ho : OwnInv s) (hc : CodeInv s w) : CodeInv s' (attemptLogged e s a w) := by
  have hf := other_frame h
  have hk := (ho.other h).2
  constructor
  · rw [hf.pc, (other_marks w h).2]
    intro hp
    obtain ⟨r, h1, h2⟩ := hc.resp hp
    refine ⟨r, h1, ?_⟩
    unfold St.curA at h2 ⊢
    rw [hf.cur]
    exact hk _ _ h2
  · rw [(other_marks w h).1, hf.n]
    intro k b c hm
    obtain ⟨h1, h2, v, h3, h4⟩ := hc.codes k b c hm
    exact ⟨h1, h2, v, hk _ _ h3, h4⟩

theorem marks_replicate (n k : Nat) : marks ((List.replicate k AtmptMsg.cancelled).map (⟨n, ·⟩)) = [] := by
  induction k with
  | zero => rfl
  | succ k ih => rw [List.replicate_succ, List.map_cons]; exact ih

set_option linter.unusedSimpArgs false in
/-- What a step of the handler adds to the marks. -/
theorem main_marks {e : Env} {s s' : St} {c : Choice} {w : AtmptLog} (h : stepMain e s c = some s')
    (hr : s.pc.inBody = true → ∃ r, w.resp = some r) :
    (s'.n = s.n ∧ marks (attemptLogged e s (.main c) w).lines = marks w.lines ∧
      ∀ t, Tail s.n t s.pc → Tail s.n t s'.pc) ∨
    (s'.n = s.n ∧ ∃ b code, marks (attemptLogged e s (.main c) w).lines = marks w.lines ++ [.ended s.n b code] ∧
      (∀ t, Tail s.n t s.pc → t = []) ∧ Tail s.n [.ended s.n b code] s'.pc ∧
      (s.pc.inBody = true ∨ ∃ r err, s.pc = .procCheck r err) ∧
      ∀ v, code = some v → ∃ r, (attemptLogged e s (.main c) w).resp = some r ∧ r.status = v) ∨
    (s.pc = .next ∧ s'.n = s.n + 1 ∧
      marks (attemptLogged e s (.main c) w).lines = marks w.lines ++ [.begun (s.n + 1)] ∧ s'.pc = .scaffold) := by
  have hb : ∀ a n, marks [⟨n, bodyMsg e a⟩] = [] := by
    intro a n
    unfold bodyMsg
    repeat' split
    all_goals rfl
  have hl : ∀ o v, loggedCode o = some v → ∃ r, o = some r ∧ r.status = v := by
    intro o v h
    cases o with
    | none => cases h
    | some r =>
      simp only [loggedCode] at h
      split at h
      · exact ⟨r, rfl, by simpa using h⟩
      · cases h
  main_cases s h hp <;> simp only [hp, PC.inBody] at hr
  all_goals first
    | (refine .inl ⟨rfl, ?_, fun t ht => ?_⟩
       · first
         | exact List.append_nil _ ▸ List.append_nil _ ▸ rfl
         | (simp_all [attemptLogged, attemptMsgs, marks_append, marks_replicate, marks, AtmptLine.mark]; done)
         | (simp only [attemptLogged, attemptMsgs, hp, marks_append, marks_replicate, List.map_append,
              List.map_cons, List.map_nil, hb, List.append_nil]; done)
         | (simp only [attemptLogged, attemptMsgs, hp, marks_append, marks_replicate, List.map_append,
              List.map_cons, List.map_nil, hb, List.append_nil]; exact List.append_nil _)
       · first | exact ht | exact Or.inl ht | exact Or.inr ht | exact Or.inr (Or.inl ht) | exact Or.inr (Or.inr ht))
    | skip
  case next.refl =>
    refine .inr (.inr ⟨rfl, rfl, ?_, rfl⟩)
    simp [attemptLogged, attemptMsgs, hp, marks, AtmptLine.mark]
  all_goals first
    | (refine .inr (.inl ⟨rfl, false, loggedCode (attemptLogged e s (.main c) w).resp, ?_, fun t ht => ht, ⟨_, rfl⟩,
         by first | exact .inl rfl | exact .inr ⟨_, _, rfl⟩, hl _⟩)
       simp_all [attemptLogged, attemptMsgs, marks_append, marks, AtmptLine.mark]
       done)
    | (obtain ⟨r, hr⟩ := hr trivial
       refine .inr (.inl ⟨rfl, true, some r.status, ?_, fun t ht => ht, ⟨_, rfl⟩, .inl rfl, fun v hv => ⟨r, ?_, ?_⟩⟩)
       · simp_all [attemptLogged, attemptMsgs, marks_append, marks, AtmptLine.mark]
       · simp_all [attemptLogged]
       · simpa using hv)
    | skip
  rename_i err h1 _ r hq h2
  refine .inr (.inl ⟨rfl, false, loggedCode (attemptLogged e s (.main c) w).resp, ?_, fun t ht => ht, ⟨_, rfl⟩,
    .inl rfl, hl _⟩)
  simp only [attemptLogged, attemptMsgs, hp, hq, if_neg h1, if_neg h2, marks_append]
  exact List.append_nil _

/-- The shape of the log goes on with every step of the handler. -/
theorem MarkInv.main {e : Env} {s s' : St} {c : Choice} {w : AtmptLog} (h : stepMain e s c = some s')
    (hc : CodeInv s w) (hm : MarkInv s w) : MarkInv s' (attemptLogged e s (.main c) w) := by
  obtain ⟨h0, cs, t, h1, h2, h3⟩ := hm
  rcases main_marks (w := w) h (fun hb => (hc.resp hb).imp fun _ h => h.1) with
    ⟨hn, hl, ht⟩ | ⟨hn, b, code, hl, ht, ht', -, -⟩ | ⟨hp, hn, hl, hp'⟩
  · exact ⟨by omega, cs, t, by omega, by rw [hl, h2, hn], by rw [hn]; exact ht t h3⟩
  · refine ⟨by omega, cs, _, by omega, ?_, by rw [hn]; exact ht'⟩
    rw [hl, h2, ht t h3, hn, List.append_assoc]
    rfl
  · rw [hp] at h3
    obtain ⟨c, rfl⟩ := h3
    refine ⟨by omega, cs ++ [c], [], by simp; omega, ?_, by rw [hp']; rfl⟩
    rw [hl, h2, hn, failures_snoc, h1, List.append_assoc]

/-- The response kept is that of the current attempt. -/
theorem CodeInv.main {e : Env} {s s' : St} {c : Choice} {w : AtmptLog} (h : stepMain e s c = some s')
    (ho : OwnInv s) (hcl : CloseInv s) (hm : MarkInv s w) (hc : CodeInv s w) :
    CodeInv s' (attemptLogged e s (.main c) w) := by
  have hk := (ho.main hcl h).2
  have hlt : s.cur < s.n := Nat.sub_lt hm.1 Nat.one_pos
  have hr : s.pc.inBody = true ∨ (∃ r err, s.pc = .procCheck r err) → ∀ r, (attemptLogged e s (.main c) w).resp = some r →
      s.curA.vResp = some r := by
    rintro (hb | ⟨r', err, hp⟩) r hr
    · obtain ⟨r', h1, h2⟩ := hc.resp hb
      have : (attemptLogged e s (.main c) w).resp = w.resp := by
        unfold attemptLogged
        cases hp : s.pc <;> first | rfl | (rw [hp] at hb; cases hb)
      rw [this, h1] at hr
      cases hr
      exact h2
    · simp only [attemptLogged, hp] at hr
      subst hr
      exact ho.seen _ _ hp
  constructor
  · intro hb
    have key : (∃ r, (attemptLogged e s (.main c) w).resp = some r) ∧ s'.n = s.n ∧
        (s.pc.inBody = true ∨ ∃ r err, s.pc = .procCheck r err) := by
      have hw : s.pc.inBody = true → ∃ r, w.resp = some r := fun hb => (hc.resp hb).imp fun _ h => h.1
      main_cases s h hp <;> simp only [hp, PC.inBody] at hw <;> first
        | exact absurd hb Bool.false_ne_true
        | (refine ⟨?_, rfl, .inr ⟨_, _, rfl⟩⟩; simp [attemptLogged, hp])
        | (refine ⟨?_, rfl, .inl rfl⟩; simpa [attemptLogged, hp] using hw)
    obtain ⟨⟨r, h1⟩, hn, h2⟩ := key
    refine ⟨r, h1, ?_⟩
    unfold St.curA St.cur
    rw [hn]
    exact hk _ hlt _ (hr h2 r h1)
  · intro k b code hmem
    have old : .ended k b (some code) ∈ marks w.lines → 0 < k ∧ k ≤ s.n ∧
        ∃ v, (s'.atmpt (k - 1)).vResp = some v ∧ v.status = code := by
      intro hmem
      obtain ⟨h1, h2, v, h3, h4⟩ := hc.codes k b code hmem
      exact ⟨h1, h2, v, hk _ (by omega) _ h3, h4⟩
    rcases main_marks (w := w) h (fun hb => (hc.resp hb).imp fun _ h => h.1) with
      ⟨hn, hl, -⟩ | ⟨hn, b', code', hl, -, -, hpc, hcode⟩ | ⟨-, hn, hl, -⟩
    · rw [hl] at hmem
      rw [hn]
      exact old hmem
    · rw [hl] at hmem
      rw [hn]
      rcases List.mem_append.mp hmem with hmem | hmem
      · exact old hmem
      · cases List.mem_singleton.mp hmem
        obtain ⟨r, h1, h2⟩ := hcode _ rfl
        exact ⟨hm.1, Nat.le_refl _, r, hk _ hlt _ (hr hpc r h1), h2⟩
    · rw [hl] at hmem
      rcases List.mem_append.mp hmem with hmem | hmem
      · obtain ⟨h1, h2, h3⟩ := old hmem
        exact ⟨h1, by omega, h3⟩
      · cases List.mem_singleton.mp hmem

/-- The end of the last attempt, as the log has it. -/
def lastMark (w : AtmptLog) : Option Mark := (marks w.lines).getLast?

/-- The client's status and the end of the last attempt; `strict` asks for the same status. -/
def EndTold (strict : Prop) (n : Nat) (code : Int) (last : Option Mark) : Prop :=
  (∃ c, last = some (.ended n true (some c)) ∧ (strict → c = code ∧ c < 500)) ∨
  ∃ c, last = some (.ended n false c) ∧ (code = 502 ∨ code = 504)

def Told (strict : Prop) (s : St) (w : AtmptLog) : Prop :=
  match s.pc with
  | .sendJson code _ => EndTold strict s.n code (lastMark w)
  | .log1 | .log2 | .done => ∀ y ∈ s.sent, EndTold strict s.n y.status (lastMark w)
  | _ => True

theorem Told.other {strict : Prop} {e : Env} {s s' : St} {a : Act} {w : AtmptLog} (h : stepOther s a = some s')
    (ht : Told strict s w) : Told strict s' (attemptLogged e s a w) := by
  have hf := other_frame h
  unfold Told lastMark at *
  rw [(other_marks w h).1, hf.n, hf.pc, hf.sent]
  exact ht

theorem Told.main {strict : Prop} {e : Env} {s s' : St} {c : Choice} {w : AtmptLog} (h : stepMain e s c = some s')
    (hi : Inv e s) (ho : strict → OrdInv e s) (hm : MarkInv s w) (hc : CodeInv s w) (ht : Told strict s w) :
    Told strict s' (attemptLogged e s (.main c) w) := by
  obtain ⟨h0, cs, t, h1, h2, h3⟩ := hm
  have last : ∀ m, t = [m] → lastMark w = some m := by
    rintro m rfl
    unfold lastMark
    rw [h2]
    simp
  have good : ∀ r c, s.curA.vResp = some r → r.status < 500 → lastMark w = some (.ended s.n true (some c)) →
      c = r.status ∧ c < 500 := by
    intro r c hr hlt hl
    obtain ⟨-, -, v, h4, h5⟩ := hc.codes s.n true c (List.mem_of_getLast? hl)
    have h4 : s.curA.vResp = some v := h4
    rw [hr] at h4
    cases h4
    exact ⟨h5.symm, by omega⟩
  have hsent : s.pc.sentCount = 0 → s.sent = [] := by
    intro hp
    rcases hi.sent with ⟨h1, -⟩ | h1
    · exfalso; revert h; simp [stepMain, h1]
    · exact List.length_eq_zero_iff.mp (by omega)
  rcases main_marks (w := w) h (fun hb => (hc.resp hb).imp fun _ h => h.1) with
    ⟨hn, hl, -⟩ | ⟨-, b, code, -, -, -, hpc, -⟩ | ⟨-, -, -, hp⟩
  · have hl : lastMark (attemptLogged e s (.main c) w) = lastMark w := by
      unfold lastMark
      rw [hl]
    have hord : strict → PcOk e s := fun hs => (ho hs).pc
    have hbody : strict → BodyOk s.curA := fun hs => (ho hs).body
    unfold Told at ht ⊢
    rw [hl]
    unfold PcOk at hord
    main_cases s h hp <;> simp only [hp, Tail] at h3 ht hord hsent <;> first
      | trivial
      | exact ht
      | skip
    case jsonStatus.refl =>
      obtain ⟨c, h3⟩ := h3
      refine .inl ⟨c, last _ h3, fun hs => ?_⟩
      obtain ⟨r, hr, -⟩ := hord hs
      have hb := hbody hs
      unfold BodyOk at hb
      rw [hr.2.1] at hb
      rw [show s.curA.statusCode = r.status from hb.1]
      exact good r c hr.1.2.1 hr.2.2.2.2 (last _ h3)
    case okSend.isTrue.refl =>
      obtain ⟨c, h3⟩ := h3
      intro y hy
      rw [hsent rfl, List.nil_append, List.mem_singleton] at hy
      subst hy
      refine .inl ⟨c, last _ h3, fun hs => ?_⟩
      obtain ⟨r, hr, -, heq⟩ := hord hs
      cases heq
      exact good r c hr.1.2.1 hr.2.2.2.2 (last _ h3)
    case sendJson.isTrue.refl =>
      intro y hy
      rw [hsent rfl, List.nil_append, List.mem_singleton] at hy
      subst hy
      exact ht
    all_goals
      obtain ⟨c, h3⟩ := h3
      refine .inr ⟨c, last _ h3, ?_⟩
      first | exact .inl rfl | exact .inr rfl
  · unfold Told
    main_cases s h hp <;> first
      | trivial
      | (simp [hp, PC.inBody] at hpc; done)
  · unfold Told
    rw [hp]
    trivial

/-- Everything known about the lines. -/
structure LinesInv (strict : Prop) (e : Env) (s : St) (w : AtmptLog) : Prop where
  inv : Inv e s
  close : CloseInv s
  own : OwnInv s
  ord : strict → OrdInv e s
  marks : MarkInv s w
  code : CodeInv s w
  told : Told strict s w

theorem LinesInv.step {strict : Prop} {e : Env} {s s' : St} {a : Act} {w : AtmptLog} (hl : strict → ¬ a.late s)
    (h : step e s a = some s') (hi : LinesInv strict e s w) : LinesInv strict e s' (attemptLogged e s a w) := by
  refine ⟨hi.inv.step h, hi.close.step h, (hi.own.step hi.close h).1, fun hs => (hi.ord hs).step (hl hs) h, ?_, ?_, ?_⟩
  all_goals
    cases a
    case main c =>
      simp only [J8a.step] at h
      first
        | exact hi.marks.main h hi.code
        | exact hi.code.main h hi.own hi.close hi.marks
        | exact hi.told.main h hi.inv hi.ord hi.marks hi.code
  all_goals
    simp only [J8a.step] at h
    first
      | exact hi.marks.other h
      | exact hi.code.other h hi.own
      | exact hi.told.other h

theorem LinesInv.initial (strict : Prop) (e : Env) (r : Route) (u : URL) (l : Str) :
    LinesInv strict e (initial (.forward r u l)) (AtmptLog.initial (.forward r u l)) := by
  have ho := OrdInv.initial e r u l
  refine ⟨ho.inv, ho.close, ?_, fun _ => ho, ?_, ?_, ?_⟩
  · exact (PartsInv.initial e.toRespEnv r u l).own
  · exact ⟨Nat.one_pos, [], [], rfl, rfl, rfl⟩
  · refine ⟨fun h => absurd h Bool.false_ne_true, fun k b c h => ?_⟩
    cases List.mem_singleton.mp h
  · trivial

theorem logsAttempts_inv {K : Type} {x : Setup K} {as : List Act} {s : St} {w : AtmptLog} {r : Route} {u : URL}
    {l : Str} (h : x.LogsAttempts as s w) (hd : x.dec = .forward r u l) : LinesInv False x.env s w := by
  unfold Setup.LogsAttempts at h
  rw [hd] at h
  exact watch_invariant (P := LinesInv False x.env) (fun _ _ _ _ hp hs => hp.step (fun hf => hf.elim) hs)
    (LinesInv.initial _ _ _ _ _) h

theorem logsAttempts_orderly {K : Type} {x : Setup K} {as : List Act} {s : St} {w : AtmptLog} {r : Route} {u : URL}
    {l : Str} (h : x.LogsAttempts as s w) (ho : Orderly x.env (J8a.initial x.dec) as)
    (hd : x.dec = .forward r u l) : LinesInv True x.env s w := by
  unfold Setup.LogsAttempts at h
  rw [hd] at h ho
  exact watch_orderly (P := LinesInv True x.env) (fun _ _ _ _ hp hl hs => hp.step (fun _ => hl) hs)
    (LinesInv.initial _ _ _ _ _) ho h

/-! ## No channel is closed twice -/

def AtmptMsg.recovered : AtmptMsg → Bool
  | .recoveredHeader | .recoveredBody => true
  | _ => false

theorem attemptMsgs_not_recovered (e : Env) (s : St) (c : Choice) (o : Option UpResp) :
    ∀ m ∈ attemptMsgs e s c o, m.recovered = false := by
  intro m hm
  unfold attemptMsgs bodyMsg at hm
  repeat' split at hm
  all_goals first
    | (cases hm; done)
    | (cases List.mem_singleton.mp hm; rfl)
    | (rcases List.mem_append.mp hm with hm | hm
       · rw [List.eq_of_mem_replicate hm]; rfl
       · cases List.mem_singleton.mp hm; rfl)

theorem no_recovery_step {e : Env} {s s' : St} {a : Act} {w : AtmptLog} (hc : CloseInv s) (h : step e s a = some s')
    (hw : ∀ l ∈ w.lines, l.msg.recovered = false) :
    ∀ l ∈ (attemptLogged e s a w).lines, l.msg.recovered = false := by
  cases a with
  | main c =>
    intro l hl
    simp only [attemptLogged] at hl
    rcases List.mem_append.mp hl with hl | hl
    · rcases List.mem_append.mp hl with hl | hl
      · exact hw l hl
      · obtain ⟨m, hm, rfl⟩ := List.mem_map.mp hl
        exact attemptMsgs_not_recovered e s c _ m hm
    · split at hl
      · cases List.mem_singleton.mp hl; rfl
      · cases hl
  | hgClose i =>
    simp only [attemptLogged]
    rw [if_neg]
    · exact hw
    · rintro ⟨-, -, hp⟩
      simp only [step, stepOther] at h
      have := hc.hdr i
      split at h
      · simp_all
      · cases h
  | bgClose i =>
    simp only [attemptLogged]
    rw [if_neg]
    · exact hw
    · rintro ⟨-, -, hp⟩
      simp only [step, stepOther] at h
      have := hc.body i
      split at h
      · simp_all [BG.isFinished]
      · cases h
  | _ => exact hw

end J8a

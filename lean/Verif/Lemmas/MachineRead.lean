import Verif.Lemmas.MachineParts
/-!
# Reads of upstream bodies that fail, under every schedule
-/
namespace J8a
open Go

variable {K : Type}

/-- The body of the attempt was read, without an error. -/
def ReadWell (a : Atmpt) : Prop := (∃ r, a.bg = .finished r) ∧ a.vBodyErr = false

/-- The answer after the last attempt has failed. -/
def GatewayError (e : RespEnv) (y : Sent) : Prop :=
  ∃ code msg, (code = 502 ∨ code = 504) ∧ y = jsonResponse e code msg

/-- What the handler knows about the read of the body. -/
def readAt (e : RespEnv) (s : St) : PC → Prop
  | .retBody => s.dwnFlag = true ∨ s.curA.abortedFlag = true ∨ ∃ r, s.curA.bg = .finished r
  | .setBody _ err => s.dwnFlag = true ∨ s.curA.abortedFlag = true ∨ err = true ∨ ReadWell s.curA
  | .chkDwn err => s.dwnFlag = true ∨ s.curA.abortedFlag = true ∨ err = true ∨ ReadWell s.curA
  | .chkUp err => s.curA.abortedFlag = true ∨ err = true ∨ ReadWell s.curA
  | .chkResp err => err = true ∨ ReadWell s.curA
  | .branch | .jsonStatus | .okHeaders | .okStatus _ | .okEncode _ _ | .okLength _ _ _
  | .okEnc1 _ _ _ | .okEnc2 _ _ _ | .okSend _ _ _ => ReadWell s.curA
  | .sendJson code _ => code = 502 ∨ code = 504 ∨ ReadWell s.curA
  | .log1 | .log2 | .done => ReadWell s.curA ∨ ∀ y ∈ s.sent, GatewayError e y
  | .panicked => s.sent = [] ∨ ReadWell s.curA ∨ ∀ y ∈ s.sent, GatewayError e y
  | _ => True

/-- A failed read stays failed, and a read that has ended stays as it is. -/
theorem read_other {s s' : St} {a : Act} (h : stepOther s a = some s') (k : Nat) :
    (∀ r, (s.atmpt k).bg = .finished r → (s'.atmpt k).bg = .finished r ∧
      (s'.atmpt k).vBodyErr = (s.atmpt k).vBodyErr) ∧
    ((s.atmpt k).vBodyErr = true → (s'.atmpt k).vBodyErr = true) := by
  unfold stepOther at h
  (repeat' split at h) <;> cases h <;> (try simp only [upd_atmpt]) <;> (repeat' split) <;> first
    | exact ⟨fun r h => ⟨h, rfl⟩, id⟩
    | (subst_vars; simp_all)

theorem readAt_other {e : RespEnv} {s s' : St} {a : Act} (h : stepOther s a = some s')
    (hr : readAt e s s.pc) : readAt e s' s'.pc := by
  have hf := other_frame h
  have hab : s'.curA.abortedFlag = s.curA.abortedFlag := by
    unfold St.curA; rw [hf.cur, hf.abortedFlag]
  have hbg : ∀ r, s.curA.bg = .finished r → s'.curA.bg = .finished r ∧
      s'.curA.vBodyErr = s.curA.vBodyErr := by
    intro r hr
    unfold St.curA
    rw [hf.cur]
    exact (read_other h _).1 r hr
  have hfin : (∃ r, s.curA.bg = .finished r) → ∃ r, s'.curA.bg = .finished r := by
    rintro ⟨r, hr⟩
    exact ⟨r, (hbg r hr).1⟩
  have hw : ReadWell s.curA → ReadWell s'.curA := by
    rintro ⟨⟨r, hr⟩, he⟩
    exact ⟨⟨r, (hbg r hr).1⟩, by rw [(hbg r hr).2]; exact he⟩
  rw [hf.pc]
  revert hr
  cases s.pc <;> simp only [readAt, hf.dwnFlag, hf.sent, hab] <;> first
    | exact id
    | exact hw
    | exact Or.imp id (Or.imp id hfin)
    | exact Or.imp id (Or.imp id (Or.imp id hw))
    | exact Or.imp id (Or.imp id hw)
    | exact Or.imp id hw
    | exact Or.imp hw id
    | exact Or.imp id (Or.imp hw id)

theorem readAt_main {e : Env} {s s' : St} {c : Choice} (hinv : Inv e s) (hcl : CloseInv s)
    (h : stepMain e s c = some s') (hr : readAt e.toRespEnv s s.pc) : readAt e.toRespEnv s' s'.pc := by
  have hfin : 0 < s.curA.bodyClosed → ∃ r, s.curA.bg = .finished r := by
    intro hp
    rcases hcl.body s.cur with ⟨h1, -⟩ | h1
    · unfold St.curA
      generalize (s.atmpt s.cur).bg = g at h1
      cases g <;> simp [BG.isFinished] at h1 ⊢
    · unfold St.curA at hp; omega
  have hsent : s.pc.sentCount = 0 → s.sent = [] := by
    intro h0
    rcases hinv.sent with ⟨h1, -⟩ | h1
    · exfalso; revert h; simp [stepMain, h1]
    · exact List.length_eq_zero_iff.mp (by omega)
  main_cases s h hpc <;> simp only [hpc, readAt] at hr ⊢ <;> (try trivial) <;>
    (try exact .inl (hsent (by rw [hpc]; rfl)))
  · exact .inr (.inl (by simp [St.curA, St.cur, upd_atmpt]))
  · exact .inl trivial
  · exact .inr (.inr (hfin ‹_›))
  · refine hr.imp id (Or.imp id fun hb => ?_)
    cases he : s.curA.vBodyErr
    · exact .inr ⟨hb, he⟩
    · exact .inl rfl
  · refine hr.imp id (Or.imp (fun hb => ?_) (Or.imp id fun hb => ?_))
    · simpa [St.curA, St.cur, upd_atmpt] using hb
    · simpa [ReadWell, St.curA, St.cur, upd_atmpt] using hb
  · rcases hr with hr | hr
    · rename_i hn
      exact absurd (show s.noteDwn.dwnFlag = true by simp [St.noteDwn, hr]) hn
    · exact hr
  · rcases hr with hr | hr | hr
    · rename_i hn
      exact absurd (show s.noteUp.curA.abortedFlag = true by
        simp only [St.curA, noteUp_atmpt, St.cur, noteUp_n, ↓reduceIte] at hr ⊢; simp [hr]) hn
    · exact .inl hr
    · exact .inr (by simpa [ReadWell, St.curA, noteUp_atmpt, St.cur, noteUp_n] using hr)
  · rcases hr with hr | hr
    · exact absurd hr ‹_›
    · exact hr
  · exact .inr (.inr hr)
  · exact .inl hr
  · rcases hr with hr | hr | hr
    · refine .inr fun y hy => ?_
      rw [hsent (by rw [hpc]; rfl)] at hy
      exact ⟨_, _, .inl hr, List.mem_singleton.mp hy⟩
    · refine .inr fun y hy => ?_
      rw [hsent (by rw [hpc]; rfl)] at hy
      exact ⟨_, _, .inr hr, List.mem_singleton.mp hy⟩
    · exact .inl hr
  · exact .inr hr
  · exact .inr (.inl trivial)
  · exact .inr (.inl trivial)
  · exact .inl trivial

/-- A failed read of an attempt, in terms of the execution. -/
theorem read_failed {e : Env} : ∀ {as : List Act} {s s' : St} {i k : Nat}, run e s as = some s' →
    .bgRead i (some k) ∈ as → (s'.atmpt i).vBodyErr = true := by
  have keep : ∀ {as : List Act} {s s' : St} {i : Nat}, run e s as = some s' → i < s.n →
      (s.atmpt i).vBodyErr = true → (s'.atmpt i).vBodyErr = true := by
    intro as s s' i h hi he
    have := run_invariant (P := fun t => i < t.n ∧ (t.atmpt i).vBodyErr = true) (fun s a s' ⟨hi, he⟩ hs => by
      refine ⟨Nat.lt_of_lt_of_le hi (later_step hs).n, ?_⟩
      cases a with
      | main c =>
        rcases main_move hs i with hf | ⟨-, -, -, -, -, h4⟩ | ⟨r, err, -, -, -, -, -, h4⟩ | ⟨u, l, -, hk, -⟩
        · rw [hf.vBodyErr]; exact he
        · rw [h4]; exact he
        · rw [h4]; exact he
        · omega
      | _ =>
        simp only [J8a.step] at hs
        exact (read_other hs i).2 he) ⟨hi, he⟩ h
    exact this.2
  intro as
  induction as with
  | nil => intro s s' i k _ hm; cases hm
  | cons a as ih =>
    intro s s' i k h hm
    rw [J8a.run] at h
    split at h
    · cases h
    · rename_i t ht
      rcases List.mem_cons.mp hm with hm | hm
      · subst hm
        simp only [J8a.step, stepOther] at ht
        split at ht
        · split at ht
          · cases ht
            refine keep h ?_ ?_
            · assumption
            · simp [upd_atmpt]
          · cases ht
        · cases ht
      · exact ih h hm

end J8a

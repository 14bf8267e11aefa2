import Verif.Model.Observe
import Verif.Lemmas.MachineParts
/-!
# Watched executions
-/
namespace J8a
open Go

variable {K : Type} {σ : Type}

theorem watch_run {e : Env} {obs : St → Act → σ → σ} : ∀ {as : List Act} {s s' : St} {w w' : σ},
    watch e obs s w as = some (s', w') → run e s as = some s' := by
  intro as
  induction as with
  | nil => intro s s' w w' h; cases h; rfl
  | cons a as ih =>
    intro s s' w w' h
    rw [watch] at h
    rw [run]
    split at h
    · cases h
    · rename_i t ht
      rw [ht]
      exact ih h

theorem run_watch {e : Env} (obs : St → Act → σ → σ) : ∀ {as : List Act} {s s' : St} (w : σ),
    run e s as = some s' → ∃ w', watch e obs s w as = some (s', w') := by
  intro as
  induction as with
  | nil => intro s s' w h; cases h; exact ⟨w, rfl⟩
  | cons a as ih =>
    intro s s' w h
    rw [run] at h
    rw [watch]
    split at h
    · cases h
    · rename_i t ht
      rw [ht]
      exact ih _ h

theorem watch_invariant {e : Env} {obs : St → Act → σ → σ} {P : St → σ → Prop}
    (hstep : ∀ s a s' w, P s w → step e s a = some s' → P s' (obs s a w)) :
    ∀ {as : List Act} {s s' : St} {w w' : σ}, P s w → watch e obs s w as = some (s', w') → P s' w' := by
  intro as
  induction as with
  | nil => intro s s' w w' hp h; cases h; exact hp
  | cons a as ih =>
    intro s s' w w' hp h
    rw [watch] at h
    split at h
    · cases h
    · exact ih (hstep _ _ _ _ hp ‹_›) h

/-! ## Bodies -/

/-- Has `Do` returned? -/
def HG.back : HG → Prop
  | .returned | .wrote | .finished => True
  | _ => False

/-- Nothing of the attempt stays open after the handler. -/
def Released (s : St) (closes : List (Nat × UpResp)) (k : Nat) : Prop :=
  (s.atmpt k).ctxDone = true ∨
  ((s.atmpt k).hg.back ∧ ∀ r, (s.atmpt k).vResp = some r → (k, r) ∈ closes) ∨
  ((s.atmpt k).hg = .idle ∧ (s.atmpt k).vResp = none ∧ s.pc = .panicked)

/-- Every attempt is released, or it is the current one and its headers are still waited for. -/
def CloseAll (s : St) (closes : List (Nat × UpResp)) : Prop :=
  ∀ k < s.n, Released s closes k ∨
    (k = s.cur ∧ (s.pc = .scaffold ∨ s.pc = .selHeader ∨ (s.pc = .retHeader ∧ s.curA.hg = .finished)))

theorem Released.other {s s' : St} {a : Act} {D : List (Nat × UpResp)} {k : Nat}
    (h : stepOther s a = some s') (hr : Released s D k) : Released s' D k := by
  have hf := other_frame h
  unfold Released at *
  rw [hf.pc]
  clear hf
  unfold stepOther at h
  (repeat' split at h) <;> cases h <;> (try simp only [upd_atmpt]) <;> (repeat' split) <;> first
    | exact hr
    | (subst_vars; simp_all [HG.back])

theorem CloseAll.other {s s' : St} {a : Act} {D : List (Nat × UpResp)} (h : stepOther s a = some s')
    (hc : CloseAll s D) : CloseAll s' D := by
  have hf := other_frame h
  intro k hk
  rw [hf.n] at hk
  rcases hc k hk with hr | ⟨hk, hr⟩
  · exact .inl (hr.other h)
  · refine .inr ⟨by rw [hf.cur]; exact hk, ?_⟩
    rw [hf.pc]
    refine hr.imp id (Or.imp id fun hr => ⟨hr.1, ?_⟩)
    have h2 := hr.2
    unfold St.curA at *
    rw [hf.cur]
    clear hc hr hf
    unfold stepOther at h
    (repeat' split at h) <;> cases h <;> (try simp only [upd_atmpt]) <;> (repeat' split) <;> first
      | exact h2
      | (subst_vars; simp_all)

theorem Released.main {e : Env} {s s' : St} {c : Choice} {D D' : List (Nat × UpResp)} {k : Nat}
    (hk : k < s.n) (h : stepMain e s c = some s') (hd : ∀ p ∈ D, p ∈ D')
    (hw : ¬ (s.pc = .scaffold ∧ k = s.cur)) (hr : Released s D k) : Released s' D' k := by
  rcases hr with hr | ⟨h1, h2⟩ | ⟨-, -, hr⟩
  · exact .inl ((later_step (a := .main c) h).ctxDone k hk hr)
  · rcases main_move h k with hf | ⟨hpc, hkc, -⟩ | ⟨r, err, -, -, h3, h4, -⟩ | ⟨u, l, -, hn, -⟩
    · refine .inr (.inl ⟨by rw [hf.hg]; exact h1, fun r hr => hd _ (h2 r ?_)⟩)
      rw [← hf.vResp]; exact hr
    · exact absurd ⟨hpc, hkc⟩ hw
    · exact .inr (.inl ⟨by rw [h3]; exact h1, fun r hr => hd _ (h2 r (by rw [← h4]; exact hr))⟩)
    · omega
  · simp [stepMain, hr] at h

theorem CloseAll.main {e : Env} {s s' : St} {c : Choice} {D : List (Nat × UpResp)}
    (hinv : Inv e s) (hcl : CloseInv s) (ho : OwnInv s) (h : stepMain e s c = some s')
    (hc : CloseAll s D) : CloseAll s' (deferred s (.main c) D) := by
  have hsub : ∀ p ∈ D, p ∈ deferred s (.main c) D := by
    intro p hp
    unfold deferred
    repeat' split
    all_goals first | exact hp | exact List.mem_append_left _ hp
  have hcur := cur_lt hinv.pos
  have old : ∀ k < s.n, k ≠ s.cur → Released s' (deferred s (.main c) D) k := by
    intro k hk hne
    rcases hc k hk with hr | ⟨hr, -⟩
    · exact hr.main hk h hsub (fun h => hne h.2)
    · exact absurd hr hne
  -- the current attempt
  have hnow := hc s.cur hcur
  by_cases hpc : s.pc = .scaffold
  · have hidle := hcl.idle hpc
    have hv : s.curA.vResp = none := by
      apply Classical.byContradiction
      intro hv
      rcases (ho.all s.cur).vresp hv with h' | h' | h' <;>
        rw [show (s.atmpt s.cur).hg = .idle from hidle] at h' <;> cases h'
    simp only [stepMain, hpc] at h
    unfold St.curA at hidle hv
    split at h <;> cases h
    · intro k hk
      by_cases hkc : k = s.cur
      · exact .inr ⟨hkc, .inr (.inl rfl)⟩
      · exact .inl (old k hk hkc)
    · intro k hk
      by_cases hkc : k = s.cur
      · subst hkc
        exact .inl (.inr (.inr ⟨by simp only [upd_atmpt, if_true]; exact hidle,
          by simp only [upd_atmpt, if_true]; exact hv, rfl⟩))
      · exact .inl (old k hk hkc)
  · by_cases hsel : s.pc = .selHeader
    · have hcan := hinv.cancel s.cur hcur (fun h => absurd h hpc)
      have hclosed := hcl.hdr s.cur
      simp only [stepMain, hsel] at h
      split at h <;> split at h <;> cases h <;> intro k hk <;> by_cases hkc : k = s.cur
      · subst hkc
        exact .inl (.inl (by simp only [upd_atmpt, if_true]; assumption))
      · exact .inl (old k hk hkc)
      · subst hkc
        exact .inl (.inl (by simp only [abortAll_atmpt]; rw [if_pos ⟨hcur, hcan⟩]))
      · exact .inl (old k hk hkc)
      · refine .inr ⟨hkc, .inr (.inr ⟨rfl, ?_⟩)⟩
        rcases hclosed with hx | hx
        · exact hx.1
        · rename_i hpos
          unfold St.curA at hpos
          omega
      · exact .inl (old k hk hkc)
    · by_cases hret : s.pc = .retHeader
      · simp only [stepMain, hret] at h
        cases h
        intro k hk
        by_cases hkc : k = s.cur
        · subst hkc
          left
          rcases hnow with hr | ⟨-, hr⟩
          · rcases hr with hr | hr | hr
            · exact .inl hr
            · exact .inr (.inl ⟨hr.1, fun r h => hsub _ (hr.2 r h)⟩)
            · rw [hret] at hr; cases hr.2.2
          · rcases hr with hr | hr | ⟨-, hr⟩
            · exact absurd hr hpc
            · exact absurd hr hsel
            · refine .inr (.inl ⟨?_, fun r hv => ?_⟩)
              · show HG.back s.curA.hg
                rw [hr]; trivial
              · have hv : s.curA.vResp = some r := hv
                unfold deferred
                simp only [hret, hv]
                exact List.mem_append_right _ (List.mem_singleton.mpr rfl)
        · exact .inl (old k hk hkc)
      · have hrel : Released s D s.cur := by
          rcases hnow with hr | ⟨-, hr | hr | hr⟩
          · exact hr
          · exact absurd hr hpc
          · exact absurd hr hsel
          · exact absurd hr.1 hret
        have all : ∀ k < s.n, Released s' (deferred s (.main c) D) k := by
          intro k hk
          by_cases hkc : k = s.cur
          · rw [hkc]
            exact hrel.main hcur h hsub (fun h => hpc h.1)
          · exact old k hk hkc
        intro k hk
        by_cases hkn : k < s.n
        · exact .inl (all k hkn)
        · right
          clear all old hnow hc hsub hrel
          main_cases s h hp <;> first
            | exact absurd hk hkn
            | (refine ⟨?_, .inl rfl⟩
               simp only [St.cur] at hk ⊢
               omega)

/-- A body is closed once, and only the body of a received response. -/
structure CloseOnce (s : St) (D : List (Nat × UpResp)) : Prop where
  nodup : (D.map Prod.fst).Nodup
  recv : ∀ p ∈ D, p.1 < s.n ∧ (s.atmpt p.1).vResp = some p.2 ∧
    (p.1 = s.cur → s.pc ≠ .scaffold ∧ s.pc ≠ .selHeader ∧ s.pc ≠ .retHeader)

theorem CloseOnce.other {s s' : St} {a : Act} {D : List (Nat × UpResp)} (h : stepOther s a = some s')
    (ho : OwnInv s) (hc : CloseOnce s D) : CloseOnce s' D := by
  have hf := other_frame h
  refine ⟨hc.nodup, fun p hp => ?_⟩
  obtain ⟨h1, h2, h3⟩ := hc.recv p hp
  rw [hf.n, hf.cur, hf.pc]
  exact ⟨h1, (ho.other h).2 _ _ h2, h3⟩

theorem CloseOnce.main {e : Env} {s s' : St} {c : Choice} {D : List (Nat × UpResp)}
    (hinv : Inv e s) (hcl : CloseInv s) (ho : OwnInv s) (h : stepMain e s c = some s')
    (hc : CloseOnce s D) : CloseOnce s' (deferred s (.main c) D) := by
  have hcur := cur_lt hinv.pos
  have hv : ∀ p ∈ D, (s'.atmpt p.1).vResp = some p.2 := fun p hp =>
    (ho.main hcl h).2 _ (hc.recv p hp).1 _ (hc.recv p hp).2.1
  by_cases hret : s.pc = .retHeader
  · simp only [stepMain, hret] at h
    cases h
    unfold deferred
    simp only [hret]
    have hold : ∀ p ∈ D, p.1 ≠ s.cur := fun p hp hk => ((hc.recv p hp).2.2 hk).2.2 hret
    have base : ∀ p ∈ D, p.1 < s.n ∧ (s.atmpt p.1).vResp = some p.2 := fun p hp =>
      ⟨(hc.recv p hp).1, (hc.recv p hp).2.1⟩
    split
    · rename_i r hr
      refine ⟨?_, fun p hp => ?_⟩
      · rw [List.map_append, List.nodup_append]
        refine ⟨hc.nodup, by simp, ?_⟩
        intro a ha b hb
        obtain ⟨p, hp, rfl⟩ := List.mem_map.mp ha
        simp only [List.map_cons, List.map_nil, List.mem_singleton] at hb
        rw [hb]
        exact hold p hp
      · rcases List.mem_append.mp hp with hp | hp
        · exact ⟨(base p hp).1, (base p hp).2, fun _ => ⟨by simp, by simp, by simp⟩⟩
        · rw [List.mem_singleton] at hp
          subst hp
          exact ⟨hcur, hr, fun _ => ⟨by simp, by simp, by simp⟩⟩
    · exact ⟨hc.nodup, fun p hp => ⟨(base p hp).1, (base p hp).2, fun _ => ⟨by simp, by simp, by simp⟩⟩⟩
  · have hd : deferred s (.main c) D = D := by
      unfold deferred
      cases hp : s.pc <;> first | rfl | exact absurd hp hret
    rw [hd]
    refine ⟨hc.nodup, fun p hp => ?_⟩
    obtain ⟨h1, -, h3⟩ := hc.recv p hp
    refine ⟨Nat.lt_of_lt_of_le h1 (later_step (a := .main c) h).n, hv p hp, ?_⟩
    clear hv hd
    intro hk
    main_cases s h hpc <;> simp_all [St.cur] <;> omega

end J8a

import Verif.Spec.Pool
/-! # The invariant of the pool machine -/
namespace J8a
variable {O : Type} (P : Pooled O)

/-- The object a call holds. -/
def Call.holds (c : Call) : Prop := c.pc ≠ .start ∧ c.pc ≠ .returned

/-- What a call's object and buffer look like. -/
def CallOk (s : PoolState O) (i : Nat) (c : Call) : Prop :=
  match c.pc with
  | .start => c.buf = [] ∧ c.result = none
  | .got => c.buf = [] ∧ c.result = none
  | .reset => c.buf = [] ∧ c.result = none ∧ s.dest c.obj = some i ∧
      ∃ o, s.obj c.obj = P.reset o c.input
  | .worked => c.result = none ∧ s.dest c.obj = some i ∧
      ∃ o, s.obj c.obj = (P.work (P.reset o c.input) c.input).1 ∧
        c.buf = (P.work (P.reset o c.input) c.input).2
  | .closed => c.result = none ∧ ∃ o, c.buf = P.output (P.reset o c.input) c.input
  | .taken => c.result = some c.buf ∧ ∃ o, c.buf = P.output (P.reset o c.input) c.input
  | .returned => c.result = some c.buf ∧ ∃ o, c.buf = P.output (P.reset o c.input) c.input

structure PoolInv (s : PoolState O) : Prop where
  nodup : s.pool.Nodup
  made : ∀ o ∈ s.pool, o < s.next
  heldMade : ∀ i c, s.call i = some c → c.holds → c.obj < s.next
  heldOut : ∀ i c, s.call i = some c → c.holds → c.obj ∉ s.pool
  apart : ∀ i j c d, s.call i = some c → s.call j = some d → c.holds → d.holds → c.obj = d.obj → i = j
  ok : ∀ i c, s.call i = some c → CallOk P s i c

theorem poolInv_init : PoolInv P (poolInit P) where
  nodup := by simp [poolInit]
  made := by simp [poolInit]
  heldMade := by simp [poolInit]
  heldOut := by simp [poolInit]
  apart := by simp [poolInit]
  ok := by simp [poolInit]

theorem upd_same {α : Type} (f : Nat → α) (i : Nat) (a : α) : upd f i a i = a := by simp [upd]
theorem upd_ne {α : Type} (f : Nat → α) {i j : Nat} (a : α) (h : j ≠ i) : upd f i a j = f j := by
  simp [upd, h]

/-- A call whose object is not touched stays fine. -/
theorem CallOk.frame {s t : PoolState O} {i : Nat} {c : Call} (h : CallOk P s i c)
    (ho : c.holds → t.obj c.obj = s.obj c.obj ∧ t.dest c.obj = s.dest c.obj) : CallOk P t i c := by
  unfold CallOk at *
  unfold Call.holds at ho
  cases hp : c.pc <;> rw [hp] at h ho <;> simp only at h ⊢
  · exact h
  · exact h
  · have := ho (by simp); rw [this.1, this.2]; exact h
  · have := ho (by simp); rw [this.1, this.2]; exact h
  · exact h
  · exact h
  · exact h

/-- One call changes, keeps or takes its object; the others' objects are untouched. -/
theorem PoolInv.update {s t : PoolState O} (h : PoolInv P s) {i : Nat} {c' : Call}
    (hcall : t.call = upd s.call i (some c'))
    (hnodup : t.pool.Nodup) (hmade : ∀ o ∈ t.pool, o < t.next) (hnext : s.next ≤ t.next)
    (hheld : c'.holds → c'.obj < t.next ∧ c'.obj ∉ t.pool ∧
      ∀ j d, j ≠ i → s.call j = some d → d.holds → d.obj ≠ c'.obj)
    (hothers : ∀ j d, j ≠ i → s.call j = some d → d.holds →
      d.obj ∉ t.pool ∧ t.obj d.obj = s.obj d.obj ∧ t.dest d.obj = s.dest d.obj)
    (hok : CallOk P t i c') : PoolInv P t where
  nodup := hnodup
  made := hmade
  heldMade := by
    intro j d hd hh
    rw [hcall] at hd
    by_cases hj : j = i
    · subst hj; rw [upd_same] at hd; cases hd; exact (hheld hh).1
    · rw [upd_ne _ _ hj] at hd
      exact Nat.lt_of_lt_of_le (h.heldMade j d hd hh) hnext
  heldOut := by
    intro j d hd hh
    rw [hcall] at hd
    by_cases hj : j = i
    · subst hj; rw [upd_same] at hd; cases hd; exact (hheld hh).2.1
    · rw [upd_ne _ _ hj] at hd
      exact (hothers j d hj hd hh).1
  apart := by
    intro j k d e hd he hdh heh hobj
    rw [hcall] at hd he
    by_cases hj : j = i <;> by_cases hk : k = i
    · rw [hj, hk]
    · subst hj; rw [upd_same] at hd; rw [upd_ne _ _ hk] at he; cases hd
      exact absurd hobj.symm ((hheld hdh).2.2 k e hk he heh)
    · subst hk; rw [upd_same] at he; rw [upd_ne _ _ hj] at hd; cases he
      exact absurd hobj ((hheld heh).2.2 j d hj hd hdh)
    · rw [upd_ne _ _ hj] at hd; rw [upd_ne _ _ hk] at he
      exact h.apart j k d e hd he hdh heh hobj
  ok := by
    intro j d hd
    rw [hcall] at hd
    by_cases hj : j = i
    · subst hj; rw [upd_same] at hd; cases hd; exact hok
    · rw [upd_ne _ _ hj] at hd
      exact (h.ok j d hd).frame P fun hh => (hothers j d hj hd hh).2

/-- The object written to is the call's own, so its output lands in the call's own buffer. -/
theorem emit_own {i : Nat} {c : Call} (calls : Nat → Option Call) (bs : Bytes) :
    emit (some i) bs (upd calls i (some c)) = upd calls i (some { c with buf := c.buf ++ bs }) := by
  funext j
  by_cases hj : j = i
  · subst hj; simp [emit, upd]
  · simp [emit, upd, hj]

theorem poolInv_step {s : PoolState O} (h : PoolInv P s) (a : PoolAction) :
    PoolInv P (poolStep P s a) := by
  cases a with
  | start i x =>
    simp only [poolStep]
    split
    · refine h.update P (i := i) (c' := { input := x }) rfl h.nodup h.made (Nat.le_refl _) ?_ ?_ ?_
      · intro hh; exact absurd rfl hh.1
      · intro j d hj hd hh; exact ⟨h.heldOut j d hd hh, rfl, rfl⟩
      · exact ⟨rfl, rfl⟩
    · exact h
  | getNew i =>
    simp only [poolStep]
    split
    · rename_i c hc
      split
      · rename_i hpc
        have hok := h.ok i c hc
        unfold CallOk at hok
        rw [hpc] at hok
        refine h.update P (i := i) (c' := { c with pc := .got, obj := s.next }) rfl h.nodup ?_ ?_ ?_ ?_ ?_
        · intro o ho; have := h.made o ho; simp only; omega
        · simp only; omega
        · intro _
          refine ⟨by simp, ?_, ?_⟩
          · intro hm; have := h.made _ hm; simp only at this; omega
          · intro j d hj hd hh; have := h.heldMade j d hd hh; simp only; omega
        · intro j d hj hd hh
          have := h.heldMade j d hd hh
          exact ⟨h.heldOut j d hd hh, upd_ne _ _ (by omega), upd_ne _ _ (by omega)⟩
        · exact hok
      · exact h
    · exact h
  | getPooled i o =>
    simp only [poolStep]
    split
    · rename_i c hc
      split
      · rename_i hpc
        have hok := h.ok i c hc
        unfold CallOk at hok
        rw [hpc.1] at hok
        refine h.update P (i := i) (c' := { c with pc := .got, obj := o }) rfl
          (h.nodup.erase o) ?_ (Nat.le_refl _) ?_ ?_ ?_
        · intro o' ho'; exact h.made o' (List.mem_of_mem_erase ho')
        · intro _
          refine ⟨h.made o hpc.2, ?_, ?_⟩
          · intro hm; exact (h.nodup.mem_erase_iff.mp hm).1 rfl
          · intro j d hj hd hh he
            exact h.heldOut j d hd hh (by rw [he]; exact hpc.2)
        · intro j d hj hd hh
          exact ⟨fun hm => h.heldOut j d hd hh (List.mem_of_mem_erase hm), rfl, rfl⟩
        · exact hok
      · exact h
    · exact h
  | drop o =>
    simp only [poolStep]
    exact {
      nodup := h.nodup.erase o
      made := fun o' ho' => h.made o' (List.mem_of_mem_erase ho')
      heldMade := h.heldMade
      heldOut := fun j d hd hh hm => h.heldOut j d hd hh (List.mem_of_mem_erase hm)
      apart := h.apart
      ok := h.ok }
  | go i =>
    simp only [poolStep]
    split
    · exact h
    · rename_i c hc
      have hok := h.ok i c hc
      have hothers : c.holds → ∀ j d, j ≠ i → s.call j = some d → d.holds → d.obj ≠ c.obj := by
        intro hh j d hj hd hdh he
        exact hj (h.apart j i d c hd hc hdh hh he)
      unfold CallOk at hok
      split <;> rename_i hpc <;> rw [hpc] at hok <;> simp only at hok
      · exact h
      · have hh : c.holds := ⟨by rw [hpc]; simp, by rw [hpc]; simp⟩
        refine h.update P (i := i) (c' := { c with pc := .reset }) rfl h.nodup h.made
          (Nat.le_refl _) ?_ ?_ ?_
        · intro _; exact ⟨h.heldMade i c hc hh, h.heldOut i c hc hh, hothers hh⟩
        · intro j d hj hd hdh
          have := hothers hh j d hj hd hdh
          exact ⟨h.heldOut j d hd hdh, upd_ne _ _ this, upd_ne _ _ this⟩
        · exact ⟨hok.1, hok.2, upd_same .., _, upd_same ..⟩
      · have hh : c.holds := ⟨by rw [hpc]; simp, by rw [hpc]; simp⟩
        obtain ⟨hb, hr, hd, o, ho⟩ := hok
        rw [hd, emit_own]
        refine h.update P (i := i) (c' := { c with pc := .worked, buf := c.buf ++ (P.work (s.obj c.obj) c.input).2 })
          rfl h.nodup h.made (Nat.le_refl _) ?_ ?_ ?_
        · intro _; exact ⟨h.heldMade i c hc hh, h.heldOut i c hc hh, hothers hh⟩
        · intro j d hj hd hdh
          have := hothers hh j d hj hd hdh
          exact ⟨h.heldOut j d hd hdh, upd_ne _ _ this, rfl⟩
        · refine ⟨hr, hd, o, ?_, ?_⟩
          · simp only [upd_same, ho]
          · simp only [hb, List.nil_append, ho]
      · have hh : c.holds := ⟨by rw [hpc]; simp, by rw [hpc]; simp⟩
        obtain ⟨hr, hd, o, ho, hb⟩ := hok
        rw [hd, emit_own]
        refine h.update P (i := i) (c' := { c with pc := .closed, buf := c.buf ++ (P.close (s.obj c.obj)).2 })
          rfl h.nodup h.made (Nat.le_refl _) ?_ ?_ ?_
        · intro _; exact ⟨h.heldMade i c hc hh, h.heldOut i c hc hh, hothers hh⟩
        · intro j d hj hd hdh
          have := hothers hh j d hj hd hdh
          exact ⟨h.heldOut j d hd hdh, upd_ne _ _ this, rfl⟩
        · refine ⟨hr, o, ?_⟩
          simp only [hb, ho]; rfl
      · have hh : c.holds := ⟨by rw [hpc]; simp, by rw [hpc]; simp⟩
        refine h.update P (i := i) (c' := { c with pc := .taken, result := some c.buf })
          rfl h.nodup h.made (Nat.le_refl _) ?_ ?_ ?_
        · intro _; exact ⟨h.heldMade i c hc hh, h.heldOut i c hc hh, hothers hh⟩
        · intro j d hj hd hdh; exact ⟨h.heldOut j d hd hdh, rfl, rfl⟩
        · exact ⟨rfl, hok.2⟩
      · have hh : c.holds := ⟨by rw [hpc]; simp, by rw [hpc]; simp⟩
        refine h.update P (i := i) (c' := { c with pc := .returned }) rfl ?_ ?_
          (Nat.le_refl _) ?_ ?_ ?_
        · exact List.nodup_cons.mpr ⟨h.heldOut i c hc hh, h.nodup⟩
        · intro o ho
          rcases List.mem_cons.mp ho with rfl | ho
          · exact h.heldMade i c hc hh
          · exact h.made o ho
        · intro hh'; exact absurd rfl hh'.2
        · intro j d hj hd hdh
          refine ⟨?_, rfl, rfl⟩
          intro hm
          rcases List.mem_cons.mp hm with he | hm
          · exact hothers hh j d hj hd hdh he
          · exact h.heldOut j d hd hdh hm
        · exact hok
      · exact h

theorem poolInv_run (as : List PoolAction) : ∀ {s : PoolState O}, PoolInv P s →
    PoolInv P (poolRun P s as) := by
  induction as with
  | nil => intro s h; exact h
  | cons a as ih => intro s h; exact ih (poolInv_step P h a)

/-- The input of a call does not change. -/
theorem poolStep_input (s : PoolState O) (a : PoolAction) (i : Nat) (c : Call)
    (hc : s.call i = some c) : ∃ c', (poolStep P s a).call i = some c' ∧ c'.input = c.input := by
  have hupd : ∀ (j : Nat) (d d' : Call), s.call j = some d → d'.input = d.input →
      ∃ c', upd s.call j (some d') i = some c' ∧ c'.input = c.input := by
    intro j d d' hd he
    by_cases hj : i = j
    · subst hj; rw [hc] at hd; cases hd; exact ⟨d', upd_same .., he⟩
    · exact ⟨c, by rw [upd_ne _ _ hj]; exact hc, rfl⟩
  have hemit : ∀ (dd : Option Nat) (bs : Bytes) (f : Nat → Option Call),
      (∃ c', f i = some c' ∧ c'.input = c.input) →
      ∃ c', emit dd bs f i = some c' ∧ c'.input = c.input := by
    rintro dd bs f ⟨c', h1, h2⟩
    cases dd with
    | none => exact ⟨c', h1, h2⟩
    | some j =>
      by_cases hj : i = j
      · subst hj; simp [emit, upd, h1, h2]
      · exact ⟨c', by simp [emit, upd, hj, h1], h2⟩
  cases a with
  | start j x =>
    simp only [poolStep]
    split
    · rename_i hn
      have : i ≠ j := by rintro rfl; rw [hc] at hn; cases hn
      exact ⟨c, (upd_ne _ _ this).trans hc, rfl⟩
    · exact ⟨c, hc, rfl⟩
  | getNew j =>
    simp only [poolStep]
    split
    · rename_i d hd
      split
      · exact hupd j d _ hd rfl
      · exact ⟨c, hc, rfl⟩
    · exact ⟨c, hc, rfl⟩
  | getPooled j o =>
    simp only [poolStep]
    split
    · rename_i d hd
      split
      · exact hupd j d _ hd rfl
      · exact ⟨c, hc, rfl⟩
    · exact ⟨c, hc, rfl⟩
  | drop o => exact ⟨c, hc, rfl⟩
  | go j =>
    simp only [poolStep]
    split
    · exact ⟨c, hc, rfl⟩
    · rename_i d hd
      split
      · exact ⟨c, hc, rfl⟩
      · exact hupd j d _ hd rfl
      · exact hemit _ _ _ (hupd j d _ hd rfl)
      · exact hemit _ _ _ (hupd j d _ hd rfl)
      · exact hupd j d _ hd rfl
      · exact hupd j d _ hd rfl
      · exact ⟨c, hc, rfl⟩

/-! ## The two kinds of objects forget -/

variable {C D : Type}

theorem zipper_output (F : Flate C) (hF : F.Forgets) (crc : UInt32 → Bytes → UInt32) (z : GzWriter C)
    (x : Bytes) : (zipper F crc).output ((zipper F crc).reset z x) x = gzipBytes F crc x := by
  have hw : ∀ c : Option C, (F.write ((c.map F.reset).getD F.new) x).2 ++
      (F.close (F.write ((c.map F.reset).getD F.new) x).1).2 =
      (F.write F.new x).2 ++ (F.close (F.write F.new x).1).2 := by
    intro c
    cases c with
    | none => rfl
    | some c => exact hF c x
  simp only [zipper, Pooled.output, GzWriter.reset, GzWriter.write, GzWriter.close, gzipBytes]
  simp only [Bool.false_eq_true, if_false, if_true, Option.getD_some, List.nil_append, Nat.zero_add]
  rw [← hw z.compressor]
  simp only [List.append_assoc]

/-- Readers that have a good header behave like a new one. -/
theorem readAll_clean (I : Inflate D) (hI : I.Forgets) (hdr : Bytes → Option Bytes)
    (trailer : Bytes → Bytes → Option Bytes) : ∀ (n : Nat) (x : Bytes) (z : GzReader D),
    z.rest = x → z.err = false →
    (GzReader.readAll I hdr trailer n (z.readHeader I hdr)).2 = gunzipBytes I hdr trailer n x := by
  intro n
  induction n with
  | zero => intro x z _ _; rfl
  | succ n ih =>
    intro x z hz he
    subst hz
    cases hh : hdr z.rest with
    | none =>
      have : z.readHeader I hdr = { z with err := true } := by simp only [GzReader.readHeader, hh]
      rw [this]
      simp [gunzipBytes, hh, GzReader.readAll]
    | some r =>
      have : z.readHeader I hdr =
          { z with rest := r, decompressor := some ((z.decompressor.map I.reset).getD I.new) } := by
        simp only [GzReader.readHeader, hh]
      rw [this]
      simp only [gunzipBytes, hh, GzReader.readAll]
      simp only [he, Bool.false_eq_true, if_false, Option.getD_some]
      have hread : (I.read ((z.decompressor.map I.reset).getD I.new) r).2 = (I.read I.new r).2 := by
        cases z.decompressor with
        | none => rfl
        | some d => exact hI d r
      rw [← hread]
      generalize I.read ((z.decompressor.map I.reset).getD I.new) r = a at *
      cases ha : a.2.2.bind (trailer a.2.1) with
      | none => simp
      | some r' =>
        simp only
        rw [← ih r' { rest := r', err := false, decompressor := some a.1 } rfl rfl]

theorem unzipper_output (I : Inflate D) (hI : I.Forgets) (hdr : Bytes → Option Bytes)
    (trailer : Bytes → Bytes → Option Bytes) (z : GzReader D) (x : Bytes) :
    (unzipper I hdr trailer).output ((unzipper I hdr trailer).reset z x) x =
      gunzipBytes I hdr trailer (x.length + 1) x := by
  simp only [unzipper, Pooled.output, GzReader.reset, List.append_nil]
  exact readAll_clean I hI hdr trailer _ x _ rfl rfl

end J8a

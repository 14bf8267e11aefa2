import Verif.Model.KeyRace
/-! # Lemmas for `Verif/Model/KeyRace.lean` -/
namespace J8a

variable {K : Type}

/-- The entries `C` are at the beginning of `cells`. -/
def CellsHold (cells : List (KeyCell K)) (C : KeySet K) : Prop :=
  ∀ (i : Nat) (x : KidPair K), C[i]? = some x → cells[i]? = some x.cell

/-- The entries `C` are at the beginning of the array `a`. -/
def Holds (m : KeyMem K) (a : Nat) (C : KeySet K) : Prop :=
  ∃ cells, m.arrays[a]? = some cells ∧ CellsHold cells C

/-- No `append` is being made, and the key set is `C`. -/
structure KeyIdle (m : KeyMem K) (C : KeySet K) : Prop where
  pending : m.pending = []
  len : m.len = C.length
  array : ∃ cells, m.arrays[m.ptr]? = some cells ∧ CellsHold cells C ∧ m.cap = cells.length

/-- `kp` is being appended to `C`, in the array `t`. -/
structure KeyBusy (m : KeyMem K) (C : KeySet K) (kp : KidPair K) (t : Nat) : Prop where
  holds : Holds m m.ptr C
  target : ∃ cells c, m.arrays[t]? = some cells ∧ CellsHold cells C ∧
    cells[C.length]? = some c ∧
    (c.kid = some kp.kid ∨ KeyStore.kid t C.length kp.kid ∈ m.pending) ∧
    (c.key = some kp.key ∨ KeyStore.key t C.length kp.key ∈ m.pending) ∧
    (m.cap = cells.length ∨ KeyStore.cap cells.length ∈ m.pending) ∧
    ∀ w ∈ m.pending, w = .ptr t ∨ w = .len (C.length + 1) ∨ w = .cap cells.length ∨
      w = .kid t C.length kp.kid ∨ w = .key t C.length kp.key
  ptr : m.ptr = t ∨ KeyStore.ptr t ∈ m.pending
  len : m.len = C.length + 1 ∨ (m.len = C.length ∧ KeyStore.len (C.length + 1) ∈ m.pending)

/-- The key set is `A`; all of it but possibly the last entry, `C`, is in place. -/
inductive KeyRefl (m : KeyMem K) : KeySet K → KeySet K → Prop
  | idle {C : KeySet K} : KeyIdle m C → KeyRefl m C C
  | busy {C : KeySet K} {kp : KidPair K} {t : Nat} :
      m.pending ≠ [] → KeyBusy m C kp t → KeyRefl m C (C ++ [kp])

theorem CellsHold.contents {cells : List (KeyCell K)} {C : KeySet K} (h : CellsHold cells C) :
    cells.take C.length = C.map KidPair.cell := by
  apply List.ext_getElem?
  intro i
  rw [List.getElem?_take, List.getElem?_map]
  by_cases hi : i < C.length
  · rw [if_pos hi, List.getElem?_eq_getElem hi]
    exact h i _ (List.getElem?_eq_getElem hi)
  · rw [if_neg hi, List.getElem?_eq_none (by omega)]; rfl

theorem CellsHold.prefix {cells : List (KeyCell K)} {C C1 : KeySet K} (h : CellsHold cells C)
    (hp : C1 <+: C) : CellsHold cells C1 := by
  intro i x hx
  obtain ⟨r, rfl⟩ := hp
  refine h i x ?_
  rw [List.getElem?_append_left]
  · exact hx
  · exact (List.getElem?_eq_some_iff.1 hx).1

theorem CellsHold.modify {cells : List (KeyCell K)} {C : KeySet K} (h : CellsHold cells C) {i : Nat}
    (hi : C.length ≤ i) (f : KeyCell K → KeyCell K) : CellsHold (cells.modify i f) C := by
  intro j x hx
  have hj : j < C.length := (List.getElem?_eq_some_iff.1 hx).1
  have hne : i ≠ j := by omega
  simp [List.getElem?_modify, hne, h j x hx]

theorem CellsHold.snoc {cells : List (KeyCell K)} {C : KeySet K} (h : CellsHold cells C)
    {kp : KidPair K} (hk : cells[C.length]? = some kp.cell) : CellsHold cells (C ++ [kp]) := by
  intro j x hx
  rw [List.getElem?_append] at hx
  by_cases hj : j < C.length
  · rw [if_pos hj] at hx; exact h j x hx
  · rw [if_neg hj] at hx
    have : j = C.length := by
      have := (List.getElem?_eq_some_iff.1 hx).1
      simp at this; omega
    subst this
    simp at hx
    subst hx
    exact hk

theorem KeyIdle.contents {m : KeyMem K} {C : KeySet K} (h : KeyIdle m C) :
    m.contents = C.map KidPair.cell := by
  obtain ⟨cells, h1, h2, _⟩ := h.array
  simp only [KeyMem.contents, h1, Option.getD_some, h.len, h2.contents]

theorem KeyIdle.holds {m : KeyMem K} {C : KeySet K} (h : KeyIdle m C) : Holds m m.ptr C := by
  obtain ⟨cells, h1, h2, _⟩ := h.array
  exact ⟨cells, h1, h2⟩

theorem KeyRefl.holds {m : KeyMem K} {C A : KeySet K} (h : KeyRefl m C A) : Holds m m.ptr C := by
  cases h with
  | idle h => exact h.holds
  | busy _ h => exact h.holds

theorem KeyRefl.len {m : KeyMem K} {C A : KeySet K} (h : KeyRefl m C A) : C.length ≤ m.len := by
  cases h with
  | idle h => exact Nat.le_of_eq h.len.symm
  | busy _ h => rcases h.len with h | ⟨h, _⟩ <;> omega

theorem any_kid (C : KeySet K) (kid : Str) :
    (C.map KidPair.cell).any (fun c => c.kid == some kid) = C.any (fun k => k.kid == kid) := by
  rw [List.any_map]
  congr 1

theorem getElem?_setCell (arrays : List (List (KeyCell K))) (a i j : Nat)
    (f : KeyCell K → KeyCell K) : (setCell arrays a i f)[j]? =
      (arrays[j]?).map (fun cells => if a = j then cells.modify i f else cells) := by
  rw [setCell, List.getElem?_modify]
  by_cases h : a = j
  · simp [h]
  · simp [h]

theorem Holds.setCell {m m' : KeyMem K} {a : Nat} {C : KeySet K} (h : Holds m a C) {b i : Nat}
    {f : KeyCell K → KeyCell K} (hm : m'.arrays = J8a.setCell m.arrays b i f) (hi : C.length ≤ i) :
    Holds m' a C := by
  obtain ⟨cells, h1, h2⟩ := h
  by_cases hb : b = a
  · exact ⟨cells.modify i f, by rw [hm, getElem?_setCell, h1]; simp [hb], h2.modify hi f⟩
  · exact ⟨cells, by rw [hm, getElem?_setCell, h1]; simp [hb], h2⟩

theorem Holds.arrays {m m' : KeyMem K} {a : Nat} {C : KeySet K} (h : Holds m a C)
    (hm : m'.arrays = m.arrays) : Holds m' a C := by
  obtain ⟨cells, h1, h2⟩ := h
  exact ⟨cells, by rw [hm, h1], h2⟩

theorem Holds.append {m m' : KeyMem K} {a : Nat} {C : KeySet K} (h : Holds m a C)
    {x : List (List (KeyCell K))} (hm : m'.arrays = m.arrays ++ x) : Holds m' a C := by
  obtain ⟨cells, h1, h2⟩ := h
  refine ⟨cells, ?_, h2⟩
  rw [hm, List.getElem?_append_left, h1]
  exact (List.getElem?_eq_some_iff.1 h1).1

theorem Holds.prefix {m : KeyMem K} {a : Nat} {C C1 : KeySet K} (h : Holds m a C)
    (hp : C1 <+: C) : Holds m a C1 := by
  obtain ⟨cells, h1, h2⟩ := h
  exact ⟨cells, h1, h2.prefix hp⟩

/-! ## `Upsert` -/

theorem upsert_idle {m : KeyMem K} {grow : Nat → Nat} (hg : ∀ c, c < grow c) {C : KeySet K}
    (h : KeyIdle m C) (kp : KidPair K) :
    KeyRefl (m.upsert grow kp) C (C.upsert kp) ∧
      ∀ a C1, Holds m a C1 → Holds (m.upsert grow kp) a C1 := by
  obtain ⟨cells, h1, h2, h3⟩ := h.array
  have hC : C.length ≤ cells.length := by
    have := congrArg List.length h2.contents
    simp at this; omega
  simp only [KeyMem.upsert, KeySet.upsert, h.contents, any_kid]
  split
  · exact ⟨.idle h, fun _ _ h => h⟩
  · simp only [KeyMem.append]
    split
    · rename_i hlt
      refine ⟨.busy (t := m.ptr) (by simp) ⟨⟨cells, h1, h2⟩, ?_, .inl rfl, .inr ⟨h.len, ?_⟩⟩,
        fun a C1 h => h.arrays rfl⟩
      · have : C.length < cells.length := by rw [← h3, ← h.len]; exact hlt
        refine ⟨cells, cells[C.length], h1, h2, List.getElem?_eq_getElem this, .inr ?_, .inr ?_,
          .inl h3, ?_⟩
        · simp [h.len]
        · simp [h.len]
        · intro w hw
          simp only [h.len, List.mem_cons, List.not_mem_nil, or_false] at hw
          rcases hw with rfl | rfl | rfl <;> simp
      · simp [h.len]
    · rename_i hlt
      have hcap : m.cap = C.length := by have := h.len; omega
      have hgr := hg m.cap
      have hnew : (m.grown grow).length = grow m.cap := by
        simp only [KeyMem.grown, h.contents, List.length_append, List.length_map,
          List.length_replicate, h.len]
        omega
      refine ⟨.busy (t := m.arrays.length) (by simp)
        ⟨Holds.append ⟨cells, h1, h2⟩ rfl, ?_, .inr (by simp), .inr ⟨h.len, ?_⟩⟩,
        fun a C1 h => h.append rfl⟩
      · refine ⟨m.grown grow, zeroCell, by simp, ?_, ?_, .inr ?_, .inr ?_, .inr ?_, ?_⟩
        · intro i x hx
          have hi := (List.getElem?_eq_some_iff.1 hx).1
          rw [KeyMem.grown, h.contents, List.getElem?_append_left (by simpa using hi),
            List.getElem?_map, hx]
          rfl
        · rw [KeyMem.grown, h.contents, List.getElem?_append_right (by simp)]
          simp only [List.length_map, Nat.sub_self]
          rw [List.getElem?_replicate, if_pos]
          have := h.len; omega
        · simp [h.len]
        · simp [h.len]
        · simp [hnew]
        · intro w hw
          rw [hnew]
          simp only [h.len, List.mem_cons, List.not_mem_nil, or_false] at hw
          rcases hw with rfl | rfl | rfl | rfl | rfl <;> simp
      · simp [h.len]

/-! ## Stores -/

theorem mem_eraseIdx_of_ne {α : Type} {l : List α} {i : Nat} {v w : α} (hv : l[i]? = some v)
    (hw : w ∈ l) (hne : w ≠ v) : w ∈ l.eraseIdx i := by
  rw [List.mem_eraseIdx_iff_getElem?]
  obtain ⟨j, hj⟩ := List.getElem?_of_mem hw
  refine ⟨j, ?_, hj⟩
  rintro rfl
  rw [hv] at hj
  exact hne (Option.some.inj hj).symm

theorem store_busy {m : KeyMem K} {C : KeySet K} {kp : KidPair K} {t i : Nat} {v : KeyStore K}
    (h : KeyBusy m C kp t) (hv : m.pending[i]? = some v) :
    KeyBusy { v.apply m with pending := m.pending.eraseIdx i } C kp t ∧
      ∀ a C1, C1 <+: C → Holds m a C1 →
        Holds { v.apply m with pending := m.pending.eraseIdx i } a C1 := by
  obtain ⟨cells, c, h1, h2, h3, h4, h5, h6, h7⟩ := h.target
  have hmem : v ∈ m.pending := List.mem_of_getElem? hv
  have keep : ∀ w, w ∈ m.pending → w ≠ v → w ∈ m.pending.eraseIdx i := fun w =>
    mem_eraseIdx_of_ne hv
  have only : ∀ w ∈ m.pending.eraseIdx i, w ∈ m.pending := fun w hw => List.mem_of_mem_eraseIdx hw
  rcases h7 v hmem with rfl | rfl | rfl | rfl | rfl
  · refine ⟨⟨⟨cells, h1, h2⟩, ⟨cells, c, h1, h2, h3, h4.imp_right (keep _ · (by simp)),
      h5.imp_right (keep _ · (by simp)), h6.imp_right (keep _ · (by simp)),
      fun w hw => h7 w (only w hw)⟩, .inl rfl,
      h.len.imp_right fun ⟨a, b⟩ => ⟨a, keep _ b (by simp)⟩⟩, fun a C1 _ h => h.arrays rfl⟩
  · refine ⟨⟨h.holds.arrays rfl, ⟨cells, c, h1, h2, h3, h4.imp_right (keep _ · (by simp)),
      h5.imp_right (keep _ · (by simp)), h6.imp_right (keep _ · (by simp)),
      fun w hw => h7 w (only w hw)⟩, h.ptr.imp_right (keep _ · (by simp)),
      .inl rfl⟩, fun a C1 _ h => h.arrays rfl⟩
  · refine ⟨⟨h.holds.arrays rfl, ⟨cells, c, h1, h2, h3, h4.imp_right (keep _ · (by simp)),
      h5.imp_right (keep _ · (by simp)), .inl rfl,
      fun w hw => h7 w (only w hw)⟩, h.ptr.imp_right (keep _ · (by simp)),
      h.len.imp_right fun ⟨a, b⟩ => ⟨a, keep _ b (by simp)⟩⟩, fun a C1 _ h => h.arrays rfl⟩
  · refine ⟨⟨h.holds.setCell rfl (Nat.le_refl _),
      ⟨cells.modify C.length (fun c => { c with kid := some kp.kid }), { c with kid := some kp.kid },
        ?_, h2.modify (Nat.le_refl _) _, ?_, .inl rfl,
      h5.imp_right (keep _ · (by simp)), ?_, ?_⟩, h.ptr.imp_right (keep _ · (by simp)),
      h.len.imp_right fun ⟨a, b⟩ => ⟨a, keep _ b (by simp)⟩⟩,
      fun a C1 hp h => h.setCell rfl hp.length_le⟩
    · simp only [KeyStore.apply, getElem?_setCell, h1]; simp
    · simp [List.getElem?_modify, h3]
    · rw [List.length_modify]; exact h6.imp_right (keep _ · (by simp))
    · intro w hw; rw [List.length_modify]; exact h7 w (only w hw)
  · refine ⟨⟨h.holds.setCell rfl (Nat.le_refl _),
      ⟨cells.modify C.length (fun c => { c with key := some kp.key }), { c with key := some kp.key },
        ?_, h2.modify (Nat.le_refl _) _, ?_, h4.imp_right (keep _ · (by simp)), .inl rfl,
      ?_, ?_⟩, h.ptr.imp_right (keep _ · (by simp)),
      h.len.imp_right fun ⟨a, b⟩ => ⟨a, keep _ b (by simp)⟩⟩,
      fun a C1 hp h => h.setCell rfl hp.length_le⟩
    · simp only [KeyStore.apply, getElem?_setCell, h1]; simp
    · simp [List.getElem?_modify, h3]
    · rw [List.length_modify]; exact h6.imp_right (keep _ · (by simp))
    · intro w hw; rw [List.length_modify]; exact h7 w (only w hw)

theorem KeyBusy.done {m : KeyMem K} {C : KeySet K} {kp : KidPair K} {t : Nat}
    (h : KeyBusy m C kp t) (hp : m.pending = []) : KeyIdle m (C ++ [kp]) := by
  obtain ⟨cells, c, h1, h2, h3, h4, h5, h6, _⟩ := h.target
  rw [hp] at h4 h5 h6
  have hptr := h.ptr
  have hlen := h.len
  rw [hp] at hptr hlen
  simp only [List.not_mem_nil, or_false, and_false] at h4 h5 h6 hptr hlen
  refine ⟨hp, by simp [hlen], cells, by rw [hptr, h1], h2.snoc ?_, h6⟩
  rw [h3]
  obtain ⟨a, b⟩ := c
  simp only at h4 h5
  simp [KidPair.cell, h4, h5]

/-! ## All steps -/

/-- The key set after a step, if `Upsert` is what it says (jwt.go:21-32). -/
def KeyAct.keys (A : KeySet K) : KeyAct K → KeySet K
  | .upsert kp => A.upsert kp
  | _ => A

theorem KeyRefl.congr {m m' : KeyMem K} {C A : KeySet K} (h : KeyRefl m C A)
    (h1 : m'.arrays = m.arrays) (h2 : m'.ptr = m.ptr) (h3 : m'.len = m.len) (h4 : m'.cap = m.cap)
    (h5 : m'.pending = m.pending) : KeyRefl m' C A := by
  cases h with
  | idle h =>
    refine .idle ⟨by rw [h5, h.pending], by rw [h3, h.len], ?_⟩
    rw [h1, h2, h4]; exact h.array
  | @busy kp t hne h =>
    refine .busy (t := t) (by rw [h5]; exact hne) ⟨?_, ?_, ?_, ?_⟩
    · rw [h2]; exact h.holds.arrays h1
    · rw [h1, h4, h5]; exact h.target
    · rw [h2, h5]; exact h.ptr
    · rw [h3, h5]; exact h.len

theorem KeyRefl.act {m m' : KeyMem K} {grow : Nat → Nat} (hg : ∀ c, c < grow c) {C A : KeySet K}
    (h : KeyRefl m C A) {a : KeyAct K} (ha : m.act grow a = some m') :
    ∃ C', KeyRefl m' C' (a.keys A) ∧ C <+: C' ∧
      ∀ b C1, C1 <+: C → Holds m b C1 → Holds m' b C1 := by
  cases a with
  | upsert kp =>
    simp only [KeyMem.act] at ha
    split at ha
    · rename_i hp
      cases ha
      cases h with
      | idle h =>
        have := upsert_idle hg h kp
        exact ⟨C, this.1, List.prefix_rfl, fun b C1 _ => this.2 b C1⟩
      | busy hne h => exact absurd hp hne
    · cases ha
  | store i =>
    simp only [KeyMem.act] at ha
    split at ha
    · cases ha
    · rename_i v hv
      cases ha
      cases h with
      | idle h => rw [h.pending] at hv; simp at hv
      | @busy kp t hne h =>
        obtain ⟨h1, h2⟩ := store_busy h hv
        by_cases hp : m.pending.eraseIdx i = []
        · exact ⟨C ++ [kp], .idle (h1.done hp), ⟨[kp], rfl⟩, h2⟩
        · exact ⟨C, .busy hp h1, List.prefix_rfl, h2⟩
  | loadPtr =>
    simp only [KeyMem.act] at ha
    split at ha
    · cases ha
      exact ⟨C, h.congr rfl rfl rfl rfl rfl, List.prefix_rfl, fun b C1 _ h => h.arrays rfl⟩
    · cases ha
  | loadLen =>
    simp only [KeyMem.act] at ha
    split at ha
    · cases ha
      exact ⟨C, h.congr rfl rfl rfl rfl rfl, List.prefix_rfl, fun b C1 _ h => h.arrays rfl⟩
    · cases ha
  | read =>
    simp only [KeyMem.act] at ha
    split at ha
    · split at ha
      · cases ha
        exact ⟨C, h.congr rfl rfl rfl rfl rfl, List.prefix_rfl, fun b C1 _ h => h.arrays rfl⟩
      · cases ha
    · cases ha

theorem run_nil (grow : Nat → Nat) (m : KeyMem K) : m.run grow [] = some m := rfl

theorem keyRun_cons (grow : Nat → Nat) (m : KeyMem K) (a : KeyAct K) (as : List (KeyAct K)) :
    m.run grow (a :: as) = (m.act grow a).bind (fun m' => m'.run grow as) := rfl

theorem keyRun_append (grow : Nat → Nat) (m : KeyMem K) (as bs : List (KeyAct K)) :
    m.run grow (as ++ bs) = (m.run grow as).bind (fun m' => m'.run grow bs) := by
  induction as generalizing m with
  | nil => rfl
  | cons a as ih =>
    rw [List.cons_append, keyRun_cons, keyRun_cons]
    cases m.act grow a with
    | none => rfl
    | some m' => exact ih m'

theorem KeyRefl.run {grow : Nat → Nat} (hg : ∀ c, c < grow c) (as : List (KeyAct K)) :
    ∀ {m m' : KeyMem K} {C A : KeySet K}, KeyRefl m C A → m.run grow as = some m' →
      ∃ C', KeyRefl m' C' (as.foldl KeyAct.keys A) := by
  induction as with
  | nil => intro m m' C A h hr; cases hr; exact ⟨C, h⟩
  | cons a as ih =>
    intro m m' C A h hr
    rw [keyRun_cons] at hr
    cases ha : m.act grow a with
    | none => rw [ha] at hr; cases hr
    | some m1 =>
      rw [ha] at hr
      obtain ⟨C1, h1, _, _⟩ := h.act hg ha
      exact ih h1 hr

theorem boot_idle (ks : KeySet K) (cap : Nat) (h : ks.length ≤ cap) :
    KeyIdle (bootKeys ks cap) ks := by
  refine ⟨rfl, rfl, _, rfl, ?_, ?_⟩
  · intro i x hx
    have hi := (List.getElem?_eq_some_iff.1 hx).1
    rw [List.getElem?_append_left (by simpa using hi), List.getElem?_map, hx]
    rfl
  · simp [bootKeys]; omega

/-! ## The reader -/

/-- What the reader knows, if the entries `C` were in place when it began. -/
structure ReaderOk (m : KeyMem K) (C : KeySet K) : Prop where
  ptr : ∀ a, m.rptr = some a → Holds m a C
  len : ∀ n, m.rlen = some n → C.length ≤ n
  seen : ∀ (i : Nat) (x : KidPair K), C[i]? = some x → i < m.seen.length →
    m.seen[i]? = some (some x.cell)

theorem ReaderOk.act {m m' : KeyMem K} {grow : Nat → Nat} (hg : ∀ c, c < grow c)
    {C0 C A : KeySet K} (hr : ReaderOk m C0) (hp : C0 <+: C) (h : KeyRefl m C A) {a : KeyAct K}
    (ha : m.act grow a = some m') : ReaderOk m' C0 := by
  obtain ⟨_, _, _, hh⟩ := h.act hg ha
  cases a with
  | upsert kp =>
    have e : m'.rptr = m.rptr ∧ m'.rlen = m.rlen ∧ m'.seen = m.seen := by
      simp only [KeyMem.act] at ha
      split at ha
      · cases ha
        simp only [KeyMem.upsert, KeyMem.append]
        repeat' split
        all_goals exact ⟨rfl, rfl, rfl⟩
      · cases ha
    exact ⟨fun b hb => hh b C0 hp (hr.ptr b (e.1 ▸ hb)), fun n hn => hr.len n (e.2.1 ▸ hn),
      fun i x hx hi => by rw [e.2.2] at hi ⊢; exact hr.seen i x hx hi⟩
  | store k =>
    have e : m'.rptr = m.rptr ∧ m'.rlen = m.rlen ∧ m'.seen = m.seen := by
      simp only [KeyMem.act] at ha
      split at ha
      · cases ha
      · rename_i v _
        cases ha
        cases v <;> exact ⟨rfl, rfl, rfl⟩
    exact ⟨fun b hb => hh b C0 hp (hr.ptr b (e.1 ▸ hb)), fun n hn => hr.len n (e.2.1 ▸ hn),
      fun i x hx hi => by rw [e.2.2] at hi ⊢; exact hr.seen i x hx hi⟩
  | loadPtr =>
    simp only [KeyMem.act] at ha
    split at ha
    · cases ha
      refine ⟨fun b hb => ?_, hr.len, hr.seen⟩
      cases hb
      exact (h.holds.prefix hp).arrays rfl
    · cases ha
  | loadLen =>
    simp only [KeyMem.act] at ha
    split at ha
    · cases ha
      refine ⟨hr.ptr, fun n hn => ?_, hr.seen⟩
      cases hn
      exact Nat.le_trans hp.length_le h.len
    · cases ha
  | read =>
    simp only [KeyMem.act] at ha
    split at ha
    · rename_i b n hb hn
      split at ha
      · cases ha
        refine ⟨hr.ptr, hr.len, fun i x hx hi => ?_⟩
        simp only [List.length_append, List.length_cons, List.length_nil] at hi
        simp only [List.getElem?_append]
        split
        · rename_i hlt; exact hr.seen i x hx hlt
        · have : i = m.seen.length := by omega
          subst this
          obtain ⟨cells, h1, h2⟩ := hr.ptr b hb
          simp [h1, h2 _ _ hx]
      · cases ha
    · cases ha

theorem ReaderOk.run {grow : Nat → Nat} (hg : ∀ c, c < grow c) {C0 : KeySet K}
    (as : List (KeyAct K)) : ∀ {m m' : KeyMem K} {C A : KeySet K}, ReaderOk m C0 → C0 <+: C →
      KeyRefl m C A → m.run grow as = some m' → ReaderOk m' C0 := by
  induction as with
  | nil => intro m m' C A hr _ _ h; cases h; exact hr
  | cons a as ih =>
    intro m m' C A hr hp h hrun
    rw [keyRun_cons] at hrun
    cases ha : m.act grow a with
    | none => rw [ha] at hrun; cases hrun
    | some m1 =>
      rw [ha] at hrun
      obtain ⟨C1, h1, h2, _⟩ := h.act hg ha
      exact ih (hr.act hg hp h ha) (hp.trans h2) h1 hrun

end J8a

import Verif.Lemmas.KeyRace
/-!
# Key sets that are refreshed while requests read them (C122)

The machine is `Verif/Model/KeyRace.lean`. `grow` is the capacity the runtime chooses for a new array;
all that matters is that it is larger than the old one.
-/
namespace J8a

variable {K : Type}

/-- The keys given to `Upsert` in a piece of an execution, one after another (`KeySet.upsert` is the
sequential meaning, jwt.go:21-32). -/
def upserted (ks : KeySet K) (as : List (KeyAct K)) : KeySet K :=
  as.foldl (fun ks a => match a with | .upsert kp => ks.upsert kp | _ => ks) ks

theorem upserted_eq (ks : KeySet K) (as : List (KeyAct K)) :
    upserted ks as = as.foldl KeyAct.keys ks := by
  induction as generalizing ks with
  | nil => rfl
  | cons a as ih =>
    simp only [upserted, List.foldl_cons] at ih ⊢
    rw [ih]
    cases a <;> rfl

/-- The writer's view is the sequential one: whenever no `append` is under way, the memory holds
exactly the keys of all calls of `Upsert` so far, in order. -/
theorem C122_writer (grow : Nat → Nat) (hg : ∀ c, c < grow c) (ks : KeySet K) (cap : Nat)
    (hcap : ks.length ≤ cap) (as : List (KeyAct K)) (m : KeyMem K)
    (h : (bootKeys ks cap).run grow as = some m) (hp : m.pending = []) :
    m.contents = (upserted ks as).map KidPair.cell := by
  obtain ⟨C, hr⟩ := KeyRefl.run hg as (.idle (boot_idle ks cap hcap)) h
  rw [← upserted_eq] at hr
  generalize upserted ks as = A at hr ⊢
  cases hr with
  | idle h => exact h.contents
  | busy hne _ => exact absurd hp hne

/-- **C122 (part).** A request sees all keys that were there when it began, at the right places, no
matter how its loads are interleaved with a refresh. Let `before` be what happened before the request
loaded anything, with no `append` under way, and `after` anything after it. Then the length the request
loads is at least the number of keys there were, and every entry it reads below that number is the
right one. -/
theorem C122_known_partial (grow : Nat → Nat) (hg : ∀ c, c < grow c) (ks : KeySet K) (cap : Nat)
    (hcap : ks.length ≤ cap) (before after : List (KeyAct K)) (m m' : KeyMem K)
    (h : (bootKeys ks cap).run grow before = some m) (hp : m.pending = [])
    (h1 : m.rptr = none) (h2 : m.rlen = none) (h3 : m.seen = [])
    (h' : m.run grow after = some m') :
    (∀ n, m'.rlen = some n → (upserted ks before).length ≤ n) ∧
    ∀ (i : Nat) (x : KidPair K), (upserted ks before)[i]? = some x → i < m'.seen.length →
      m'.seen[i]? = some (some x.cell) := by
  obtain ⟨C, hr⟩ := KeyRefl.run hg before (.idle (boot_idle ks cap hcap)) h
  rw [← upserted_eq] at hr
  generalize upserted ks before = A at hr ⊢
  cases hr with
  | busy hne _ => exact absurd hp hne
  | idle hi =>
    have ok : ReaderOk m' C := ReaderOk.run hg after
      ⟨by simp [h1], by simp [h2], by simp [h3]⟩ List.prefix_rfl (.idle hi) h'
    exact ⟨ok.len, ok.seen⟩

theorem rlen_act {grow : Nat → Nat} {m m' : KeyMem K} {a : KeyAct K} {n : Nat}
    (h : m.act grow a = some m') (hn : m.rlen = some n) (hs : m.seen.length ≤ n) :
    m'.rlen = some n ∧ m'.seen.length ≤ n := by
  cases a with
  | upsert kp =>
    simp only [KeyMem.act] at h
    split at h
    · cases h
      simp only [KeyMem.upsert, KeyMem.append]
      repeat' split
      all_goals exact ⟨hn, hs⟩
    · cases h
  | store k =>
    simp only [KeyMem.act] at h
    split at h
    · cases h
    · rename_i v _
      cases h
      cases v <;> exact ⟨hn, hs⟩
  | loadPtr =>
    simp only [KeyMem.act] at h
    split at h <;> cases h
    exact ⟨hn, hs⟩
  | loadLen => simp [KeyMem.act, hn] at h
  | read =>
    simp only [KeyMem.act] at h
    split at h
    · rename_i a' n' _ hn'
      rw [hn] at hn'
      cases hn'
      split at h
      · cases h
        simp only [List.length_append, List.length_cons, List.length_nil]
        exact ⟨hn, by omega⟩
      · cases h
    · cases h

theorem rlen_run {grow : Nat → Nat} (as : List (KeyAct K)) : ∀ {m m' : KeyMem K} {n : Nat},
    m.run grow as = some m' → m.rlen = some n → m.seen.length ≤ n →
      m'.rlen = some n ∧ m'.seen.length ≤ n := by
  induction as with
  | nil => intro m m' n h hn hs; cases h; exact ⟨hn, hs⟩
  | cons a as ih =>
    intro m m' n h hn hs
    rw [keyRun_cons] at h
    cases ha : m.act grow a with
    | none => rw [ha] at h; cases h
    | some m1 =>
      rw [ha] at h
      obtain ⟨h1, h2⟩ := rlen_act ha hn hs
      exact ih h h1 h2

/-- **C122 (part).** A request that loads the header of the slice while no `append` is under way sees
exactly the key set of that moment, whatever the refresh does while the request goes through the
entries. -/
theorem C122_exact_partial (grow : Nat → Nat) (hg : ∀ c, c < grow c) (ks : KeySet K) (cap : Nat)
    (hcap : ks.length ≤ cap) (before after : List (KeyAct K)) (m m' : KeyMem K)
    (h : (bootKeys ks cap).run grow before = some m) (hp : m.pending = [])
    (h1 : m.rptr = none) (h2 : m.rlen = none) (h3 : m.seen = []) (loads : List (KeyAct K))
    (hl : loads = [.loadPtr, .loadLen] ∨ loads = [.loadLen, .loadPtr])
    (h' : m.run grow (loads ++ after) = some m') :
    m'.rlen = some (upserted ks before).length ∧
    m'.seen = ((upserted ks before).map (fun x => some x.cell)).take m'.seen.length := by
  obtain ⟨_, hseen⟩ := C122_known_partial grow hg ks cap hcap before (loads ++ after) m m' h hp h1
    h2 h3 h'
  obtain ⟨C, hr⟩ := KeyRefl.run hg before (.idle (boot_idle ks cap hcap)) h
  rw [← upserted_eq] at hr
  generalize upserted ks before = A at hr hseen ⊢
  have hlen : m.len = A.length := by
    cases hr with
    | busy hne _ => exact absurd hp hne
    | idle hi => exact hi.len
  have key : ∃ m1 : KeyMem K, m1.rlen = some A.length ∧ m1.seen = [] ∧
      m1.run grow after = some m' := by
    refine ⟨{ m with rptr := some m.ptr, rlen := some m.len }, by simp [hlen], h3, ?_⟩
    rcases hl with rfl | rfl
    · rw [keyRun_append] at h'
      simpa [keyRun_cons, run_nil, KeyMem.act, h1, h2] using h'
    · rw [keyRun_append] at h'
      simpa [keyRun_cons, run_nil, KeyMem.act, h1, h2] using h'
  obtain ⟨m1, a1, a2, a3⟩ := key
  obtain ⟨b1, b2⟩ := rlen_run after a3 a1 (by simp [a2])
  refine ⟨b1, List.ext_getElem? fun i => ?_⟩
  rw [List.getElem?_take]
  split
  · rename_i hi
    have hiA : i < A.length := by omega
    rw [hseen i A[i] (List.getElem?_eq_getElem hiA) hi, List.getElem?_map,
      List.getElem?_eq_getElem hiA]
    rfl
  · rw [List.getElem?_eq_none (by omega)]

/-! ## Violations -/

/-- The loads and stores of the next theorem, in the order of the compiler: the request loads the
pointer; the refresh allocates a larger array and stores capacity, pointer and length; the request
loads the length. -/
def tornLoads (kp : KidPair K) : List (KeyAct K) :=
  [.loadPtr, .upsert kp, .store 0, .store 0, .store 0, .loadLen]

theorem reads_run (grow : Nat → Nat) (a n : Nat) (cells : List (KeyCell K)) (k : Nat) :
    ∀ (m : KeyMem K), m.rptr = some a → m.rlen = some n → m.arrays[a]? = some cells →
      m.seen.length + k ≤ n →
      m.run grow (List.replicate k .read) =
        some { m with seen := m.seen ++ (List.range' m.seen.length k).map (fun i => cells[i]?) } := by
  induction k with
  | zero => intro m _ _ _ _; simp [run_nil]
  | succ k ih =>
    intro m h1 h2 h3 h4
    rw [List.replicate_succ, keyRun_cons]
    have : m.act grow .read = some { m with seen := m.seen ++ [cells[m.seen.length]?] } := by
      simp only [KeyMem.act, h1, h2]
      rw [if_pos (by omega), h3]
      rfl
    rw [this, Option.bind_some, ih { m with seen := m.seen ++ [cells[m.seen.length]?] } h1 h2 h3
      (by simp; omega)]
    simp [List.range'_succ]

/-- **C122 is violated, whatever the keys.** Whenever the array of a key set is full and a refresh
brings a key with a new kid, a request that runs at the same time can combine the old pointer with
the new length, and read one entry beyond the end of the array. -/
theorem C122_violated_always (grow : Nat → Nat) (ks : KeySet K) (kp : KidPair K)
    (hnew : ∀ k ∈ ks, k.kid ≠ kp.kid) :
    ∃ m, (bootKeys ks ks.length).run grow
        (tornLoads kp ++ List.replicate (ks.length + 1) .read) = some m ∧
      m.seen = ks.map (fun x => some x.cell) ++ [none] := by
  have hcont := (boot_idle ks ks.length (Nat.le_refl _)).contents
  have hany : (ks.map KidPair.cell).any (fun c => c.kid == some kp.kid) = false := by
    rw [any_kid, List.any_eq_false]
    intro x hx
    simpa using hnew x hx
  have htorn : ∃ m1 : KeyMem K, (bootKeys ks ks.length).run grow (tornLoads kp) = some m1 ∧
      m1.rptr = some 0 ∧ m1.rlen = some (ks.length + 1) ∧ m1.seen = [] ∧
      m1.arrays[0]? = some (ks.map KidPair.cell) := by
    simp only [tornLoads, keyRun_cons, run_nil, KeyMem.act, bootKeys, KeyMem.upsert, if_true,
      Option.bind_some]
    have : (({ arrays := [ks.map KidPair.cell ++ List.replicate (ks.length - ks.length) zeroCell]
               ptr := 0, len := ks.length, cap := ks.length, rptr := some 0 } : KeyMem K).contents)
        = ks.map KidPair.cell := by
      simpa [bootKeys, KeyMem.contents] using hcont
    rw [this, hany]
    simp [KeyMem.append, KeyStore.apply]
  obtain ⟨m1, h1, h2, h3, h4, h5⟩ := htorn
  have hreads := reads_run grow 0 (ks.length + 1) (ks.map KidPair.cell) (ks.length + 1) m1 h2 h3 h5
    (by simp [h4])
  refine ⟨_, by rw [keyRun_append, h1, Option.bind_some, hreads], ?_⟩
  simp only [h4, List.nil_append, List.length_nil]
  refine List.ext_getElem? fun i => ?_
  rw [List.getElem?_map, List.getElem?_append, List.length_map]
  by_cases hi : i < ks.length
  · simp [hi, Nat.lt_succ_of_lt hi, List.getElem?_range']
  · by_cases he : i = ks.length
    · subst he; simp [List.getElem?_range']
    · rw [if_neg hi, List.getElem?_eq_none (by simp; omega), List.getElem?_eq_none (by simp; omega)]
      rfl

/-- **C122 is violated without a new array as well.** A request can meet an entry whose key has not
been stored yet. -/
theorem C122_violated : ∃ (kp : KidPair Nat) (m : KeyMem Nat),
    (bootKeys [⟨"a".toList, 1⟩] 2).run (fun c => 2 * c + 1)
      [.upsert kp, .store 0, .store 0, .loadPtr, .loadLen, .read, .read] = some m ∧
    m.seen = [some ⟨some "a".toList, some 1⟩, some ⟨some "b".toList, none⟩] :=
  ⟨⟨"b".toList, 2⟩, _, rfl, by decide +kernel⟩

/-- An execution in which all is well: the request loads the header, then the refresh adds a key in
a new array, and the request reads the two old keys. -/
example : ∃ m : KeyMem Nat, (bootKeys [⟨"a".toList, 1⟩, ⟨"b".toList, 2⟩] 2).run (fun c => 2 * c + 1)
    [.loadPtr, .loadLen, .upsert ⟨"c".toList, 3⟩, .store 4, .read, .store 0, .store 0, .store 0,
      .store 0, .read] = some m ∧
    m.pending = [] ∧ m.contents.length = 3 ∧
    m.seen = [some ⟨some "a".toList, some 1⟩, some ⟨some "b".toList, some 2⟩] :=
  ⟨_, rfl, by decide +kernel⟩

end J8a

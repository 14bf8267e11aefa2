import Verif.Model.JwksTimed
import Verif.Lemmas.Load
/-!
# C22 — JWKS refreshes are mutually exclusive and rate limited
-/
namespace J8a

variable {K : Type}

/-- Inside the critical section. -/
def LoadPC.inside : LoadPC → Bool
  | .start => false
  | .finished => false
  | _ => true

/-- A fetch is in progress. -/
def LoadPC.isFetching : LoadPC → Bool
  | .fetching => true
  | _ => false

/-- What the goroutine inside the critical section guarantees. -/
def LoadPC.Inv (now updateCount : Nat) (fetches : List Nat) : LoadPC → Prop
  | .start => True
  | .finished => True
  | .fetching => updateCount + 1 = fetches.length
  | .loaded => updateCount + 1 = fetches.length
  | .sleeping t => updateCount + 1 = fetches.length ∧ t ≤ now ∧ ∀ f ∈ fetches, f ≤ t
  | .slept => updateCount + 1 = fetches.length ∧
      (0 < updateCount → ∀ f ∈ fetches, f + slowwait ≤ now)
  | .counted => updateCount = fetches.length ∧
      (1 < updateCount → ∀ f ∈ fetches, f + slowwait ≤ now)

/-- The invariant of the machine. -/
structure LoadInv (s : LoadSt K) : Prop where
  excl : s.procs.countP LoadPC.inside = if s.held then 1 else 0
  pc : ∀ p ∈ s.procs, p.Inv s.now s.updateCount s.fetches
  free : s.held = false → s.updateCount = s.fetches.length ∧
    (1 < s.updateCount → ∀ f ∈ s.fetches, f + slowwait ≤ s.now)
  past : ∀ f ∈ s.fetches, f ≤ s.now
  apart : s.fetches.dropLast.Pairwise (fun a b => b + slowwait ≤ a)

theorem LoadPC.Inv.later {now now' u : Nat} {fs : List Nat} {p : LoadPC} (h : now ≤ now')
    (hp : p.Inv now u fs) : p.Inv now' u fs := by
  cases p <;> simp only [LoadPC.Inv] at * <;> try exact hp
  · exact ⟨hp.1, by omega, hp.2.2⟩
  · exact ⟨hp.1, fun h0 f hf => by have := hp.2 h0 f hf; omega⟩
  · exact ⟨hp.1, fun h0 f hf => by have := hp.2 h0 f hf; omega⟩

theorem LoadPC.Inv.outside {now now' u u' : Nat} {fs fs' : List Nat} {p : LoadPC}
    (h : p.inside = false) (_ : p.Inv now u fs) : p.Inv now' u' fs' := by
  cases p <;> simp_all [LoadPC.inside, LoadPC.Inv]

theorem countP_set {α : Type} (q : α → Bool) (l : List α) (i : Nat) (a b : α)
    (h : l[i]? = some a) :
    (l.set i b).countP q + (if q a then 1 else 0) = l.countP q + (if q b then 1 else 0) := by
  induction l generalizing i with
  | nil => simp at h
  | cons x xs ih =>
    cases i with
    | zero =>
      simp only [List.getElem?_cons_zero, Option.some.injEq] at h
      subst h
      simp only [List.set_cons_zero, List.countP_cons]
      omega
    | succ n =>
      simp only [List.getElem?_cons_succ] at h
      simp only [List.set_cons_succ, List.countP_cons]
      have := ih n h
      omega

theorem countP_le_one_others {α : Type} {q : α → Bool} {l : List α} {i : Nat} {a : α}
    (h : l[i]? = some a) (ha : q a = true) (h1 : l.countP q = 1) (k : Nat) (b : α)
    (hb : l[k]? = some b) (hk : k ≠ i) : q b = false := by
  induction l generalizing i k with
  | nil => simp at h
  | cons x xs ih =>
    rw [List.countP_cons] at h1
    have none_of : xs.countP q = 0 → ∀ y, y ∈ xs → q y = false := by
      intro h0 y hy
      have := List.countP_eq_zero.1 h0 y hy
      simpa using this
    cases i with
    | zero =>
      simp only [List.getElem?_cons_zero, Option.some.injEq] at h
      subst h
      rw [ha] at h1
      cases k with
      | zero => exact absurd rfl hk
      | succ k =>
        simp only [List.getElem?_cons_succ] at hb
        exact none_of (by simpa using h1) b (List.mem_of_getElem? hb)
    | succ i =>
      simp only [List.getElem?_cons_succ] at h
      have hpos : 0 < xs.countP q := List.countP_pos_iff.2 ⟨a, List.mem_of_getElem? h, ha⟩
      have hx : q x = false := by
        cases hq : q x
        · rfl
        · rw [hq, if_pos rfl] at h1
          omega
      rw [hx] at h1
      cases k with
      | zero =>
        simp only [List.getElem?_cons_zero, Option.some.injEq] at hb
        rw [← hb]; exact hx
      | succ k =>
        simp only [List.getElem?_cons_succ] at hb
        exact ih h (by simpa using h1) k hb (by omega)

/-- All goroutines but `i` keep their guarantee when the counters change, provided `i` is the one
inside. -/
theorem others_outside {s : LoadSt K} (h : LoadInv s) {i : Nat} {a b : LoadPC}
    (hi : s.procs[i]? = some a) (ha : a.inside = true) {now' u' : Nat} {fs' : List Nat}
    (hb : b.Inv now' u' fs') : ∀ p ∈ s.procs.set i b, p.Inv now' u' fs' := by
  intro p hp
  obtain ⟨k, hk⟩ := List.getElem?_of_mem hp
  rw [List.getElem?_set] at hk
  split at hk
  · split at hk
    · simp only [Option.some.injEq] at hk
      rw [← hk]; exact hb
    · cases hk
  · rename_i hne
    have hc : s.procs.countP LoadPC.inside = 1 := by
      have := List.countP_pos_iff.2 ⟨a, List.mem_of_getElem? hi, ha⟩
      have h2 := h.excl
      split at h2 <;> omega
    exact (h.pc p (List.mem_of_getElem? hk)).outside
      (countP_le_one_others hi ha hc k p hk (fun hh => hne hh.symm))

theorem held_of_inside {s : LoadSt K} (h : LoadInv s) {i : Nat} {a : LoadPC}
    (hi : s.procs[i]? = some a) (ha : a.inside = true) : s.held = true := by
  have := List.countP_pos_iff.2 ⟨a, List.mem_of_getElem? hi, ha⟩
  have h2 := h.excl
  cases hh : s.held
  · rw [hh] at h2
    simp at h2
    have : LoadPC.inside a = false := by simpa using h2 a (List.mem_of_getElem? hi)
    rw [ha] at this
    cases this
  · rfl

theorem LoadInv.step {s s' : LoadSt K} (h : LoadInv s) (i : Nat) (doc : Option (List (Jwk K)))
    (hs : s.stepProc i doc = some s') : LoadInv s' := by
  unfold LoadSt.stepProc at hs
  have excl' : ∀ {a b : LoadPC} {held : Bool}, s.procs[i]? = some a →
      (if s.held then 1 else 0) + (if b.inside then 1 else 0)
        = (if held then 1 else 0) + (if a.inside then 1 else 0) →
      (s.procs.set i b).countP LoadPC.inside = if held then 1 else 0 := by
    intro a b held ha hb
    have := countP_set LoadPC.inside s.procs i a b ha
    rw [h.excl] at this
    omega
  split at hs
  · cases hs
  · rename_i hp
    split at hs
    · rename_i hheld
      cases hs
      refine ⟨excl' hp (by simp [LoadPC.inside, hheld]), ?_, fun hf => h.free hf, h.past, h.apart⟩
      intro p hm
      rcases List.mem_or_eq_of_mem_set hm with hm | hm
      · exact h.pc p hm
      · rw [hm]; trivial
    · rename_i hheld
      have hheld : s.held = false := by simpa using hheld
      obtain ⟨hu, hold⟩ := h.free hheld
      cases hs
      refine ⟨excl' hp (by simp [LoadPC.inside, hheld]), ?_, by simp, ?_, ?_⟩
      · intro p hm
        rcases List.mem_or_eq_of_mem_set hm with hm | hm
        · have hout : p.inside = false := by
            have h2 := h.excl
            rw [hheld] at h2
            have := List.countP_eq_zero.1 (by simpa using h2) p hm
            simpa using this
          exact (h.pc p hm).outside hout
        · rw [hm]
          simp only [LoadPC.Inv, List.length_cons]
          omega
      · intro f hf
        rcases List.mem_cons.1 hf with hf | hf
        · simp [hf]
        · exact h.past f hf
      · cases hfs : s.fetches with
        | nil => simp
        | cons f fs =>
          rw [List.dropLast_cons_of_ne_nil (by simp)]
          rw [List.pairwise_cons]
          refine ⟨fun x hx => ?_, by rw [← hfs]; exact h.apart⟩
          cases fs with
          | nil => simp at hx
          | cons g gs =>
            refine hold ?_ x ?_
            · rw [hu, hfs]; simp
            · rw [hfs]
              exact (List.dropLast_sublist _).subset hx
  · rename_i hp
    have hheld := held_of_inside h hp rfl
    have hi := h.pc _ (List.mem_of_getElem? hp)
    split at hs
    · cases hs
      exact ⟨h.excl, h.pc, h.free, h.past, h.apart⟩
    · cases hs
      refine ⟨excl' hp (by simp [LoadPC.inside]), ?_, by simp [hheld], h.past, h.apart⟩
      exact others_outside h hp rfl (by simpa only [LoadPC.Inv] using hi)
  · rename_i hp
    have hheld := held_of_inside h hp rfl
    have hi := h.pc _ (List.mem_of_getElem? hp)
    simp only [LoadPC.Inv] at hi
    split at hs
    · cases hs
      refine ⟨excl' hp (by simp [LoadPC.inside]), ?_, by simp [hheld], h.past, h.apart⟩
      exact others_outside h hp rfl ⟨hi, Nat.le_refl _, h.past⟩
    · rename_i hu
      cases hs
      refine ⟨excl' hp (by simp [LoadPC.inside]), ?_, by simp [hheld], h.past, h.apart⟩
      exact others_outside h hp rfl ⟨hi, fun hh => absurd hh hu⟩
  · rename_i t hp
    have hheld := held_of_inside h hp rfl
    have hi := h.pc _ (List.mem_of_getElem? hp)
    simp only [LoadPC.Inv] at hi
    split at hs
    · rename_i ht
      cases hs
      refine ⟨excl' hp (by simp [LoadPC.inside]), ?_, by simp [hheld], h.past, h.apart⟩
      refine others_outside h hp rfl ⟨hi.1, fun _ f hf => ?_⟩
      have := hi.2.2 f hf
      show f + slowwait ≤ s.now
      omega
    · cases hs
  · rename_i hp
    have hheld := held_of_inside h hp rfl
    have hi := h.pc _ (List.mem_of_getElem? hp)
    simp only [LoadPC.Inv] at hi
    cases hs
    refine ⟨excl' hp (by simp [LoadPC.inside]), ?_, by simp [hheld], h.past, h.apart⟩
    exact others_outside h hp rfl ⟨hi.1, fun hu f hf => hi.2 (by simp at hu; omega) f hf⟩
  · rename_i hp
    have hheld := held_of_inside h hp rfl
    have hi := h.pc _ (List.mem_of_getElem? hp)
    simp only [LoadPC.Inv] at hi
    cases hs
    refine ⟨excl' hp (by simp [LoadPC.inside, hheld]), ?_, fun _ => hi, h.past, h.apart⟩
    exact others_outside h hp rfl trivial
  · cases hs

theorem LoadInv.act {s s' : LoadSt K} (h : LoadInv s) (a : LoadAct K) (hs : s.act a = some s') :
    LoadInv s' := by
  unfold LoadSt.act at hs
  split at hs
  · rename_i d
    cases hs
    refine ⟨h.excl, fun p hp => (h.pc p hp).later (by simp), fun hf => ⟨(h.free hf).1,
      fun h0 f hm => ?_⟩, fun f hf => ?_, h.apart⟩
    · have := (h.free hf).2 h0 f hm
      simp only; omega
    · have := h.past f hf
      simp only; omega
  · split at hs
    · cases hs
    · cases hs
      refine ⟨?_, ?_, h.free, h.past, h.apart⟩
      · have := h.excl
        simp [List.countP_append, LoadPC.inside, this]
      · intro p hp
        rcases List.mem_append.1 hp with hp | hp
        · exact h.pc p hp
        · simp only [List.mem_singleton] at hp
          rw [hp]; trivial
  · split at hs
    · cases hs
    · exact h.step _ _ hs

theorem LoadInv.run {s s' : LoadSt K} (h : LoadInv s) (as : List (LoadAct K))
    (hs : s.run as = some s') : LoadInv s' := by
  induction as generalizing s with
  | nil => simp only [LoadSt.run, Option.some.injEq] at hs; rw [← hs]; exact h
  | cons a as ih =>
    simp only [LoadSt.run] at hs
    split at hs
    · cases hs
    · rename_i s1 h1
      exact ih (h.act a h1) hs

theorem LoadInv.init (j : Jwt K) (t : Nat) : LoadInv ({ now := t, jwt := j } : LoadSt K) :=
  ⟨rfl, by simp, by simp, by simp, by simp⟩

/-- C22, mutual exclusion: in every state reached by any schedule at most one goroutine is between
acquiring and releasing the semaphore, so at most one fetch is in progress. -/
theorem C22_one_fetch (j : Jwt K) (t : Nat) (as : List (LoadAct K)) (s : LoadSt K)
    (h : ({ now := t, jwt := j } : LoadSt K).run as = some s) :
    s.procs.countP LoadPC.isFetching ≤ 1 := by
  have hi := (LoadInv.init j t).run as h
  have : s.procs.countP LoadPC.isFetching ≤ s.procs.countP LoadPC.inside := by
    refine List.countP_mono_left fun p _ hp => ?_
    cases p <;> simp_all [LoadPC.isFetching, LoadPC.inside]
  have h2 := hi.excl
  split at h2 <;> omega

/-- C22, rate limit: apart from the very first one (the boot fetch), any two fetches start at
least ten seconds apart, in any schedule with any fetch durations. `fetches` is newest first. -/
theorem C22_ten_seconds (j : Jwt K) (t : Nat) (as : List (LoadAct K)) (s : LoadSt K)
    (h : ({ now := t, jwt := j } : LoadSt K).run as = some s) (a b : Nat)
    (pre post : List Nat) (last : Nat)
    (hf : s.fetches = pre ++ a :: post ++ [last]) (hb : b ∈ post) : b + 10 * 10 ^ 9 ≤ a := by
  have hi := ((LoadInv.init j t).run as h).apart
  rw [hf, List.dropLast_concat, List.pairwise_append] at hi
  exact (List.pairwise_cons.1 hi.2.1).1 b hb

/-- Every fetch entry of the log is a fetch that really started: the log grows by the current time
exactly when a goroutine enters `jwk.Fetch`. -/
theorem C22_log_faithful (s s' : LoadSt K) (a : LoadAct K) (h : s.act a = some s') :
    (s'.fetches = s.fetches ∧
      ∀ k : Nat, s'.procs[k]? = some .fetching → s.procs[k]? = some .fetching) ∨
    (s'.fetches = s.now :: s.fetches ∧ ∃ i doc, a = .step i doc ∧
      s.procs[i]? = some .start ∧ s'.procs[i]? = some .fetching) := by
  have setne : ∀ (i : Nat) (b : LoadPC), b ≠ .fetching → ∀ k : Nat,
      (s.procs.set i b)[k]? = some .fetching → s.procs[k]? = some .fetching := by
    intro i b hb k hk
    rw [List.getElem?_set] at hk
    split at hk
    · split at hk
      · simp only [Option.some.injEq] at hk
        exact absurd hk hb
      · cases hk
    · exact hk
  unfold LoadSt.act at h
  split at h
  · cases h
    exact .inl ⟨rfl, fun _ h => h⟩
  · split at h
    · cases h
    · cases h
      refine .inl ⟨rfl, fun k hk => ?_⟩
      simp only at hk
      rw [List.getElem?_append] at hk
      split at hk
      · exact hk
      · rw [List.getElem?_singleton] at hk
        split at hk <;> cases hk
  · rename_i i doc
    split at h
    · cases h
    · unfold LoadSt.stepProc at h
      split at h
      · cases h
      · rename_i hp
        split at h
        · cases h
          exact .inl ⟨rfl, setne i _ (by simp)⟩
        · cases h
          refine .inr ⟨rfl, i, doc, rfl, hp, ?_⟩
          have hlt : i < s.procs.length := (List.getElem?_eq_some_iff.1 hp).1
          simp [List.getElem?_set, hlt]
      · split at h
        · cases h
          exact .inl ⟨rfl, fun _ h => h⟩
        · cases h
          exact .inl ⟨rfl, setne i _ (by simp)⟩
      · split at h <;> cases h <;> exact .inl ⟨rfl, setne i _ (by simp)⟩
      · split at h
        · cases h
          exact .inl ⟨rfl, setne i _ (by simp)⟩
        · cases h
      · cases h
        exact .inl ⟨rfl, setne i _ (by simp)⟩
      · cases h
        exact .inl ⟨rfl, setne i _ (by simp)⟩
      · cases h

/-- C21 for concurrent refreshes: under any schedule of any number of refreshing goroutines a key
found for a kid stays the one found, and kids stay distinct. -/
theorem C21_any_schedule (s s' : LoadSt K) (as : List (LoadAct K)) (h : s.run as = some s') :
    (∀ kid key, s.jwt.rsaPublic.find kid = some key → s'.jwt.rsaPublic.find kid = some key) ∧
    (∀ kid key, s.jwt.ecdsaPublic.find kid = some key → s'.jwt.ecdsaPublic.find kid = some key) ∧
    s'.jwt.secret = s.jwt.secret ∧
    ((s.jwt.rsaPublic.map KidPair.kid).Nodup → (s'.jwt.rsaPublic.map KidPair.kid).Nodup) ∧
    ((s.jwt.ecdsaPublic.map KidPair.kid).Nodup → (s'.jwt.ecdsaPublic.map KidPair.kid).Nodup) := by
  have one : ∀ {s s' : LoadSt K} {a : LoadAct K}, s.act a = some s' →
      ∃ ks, LoadRel ks s.jwt s'.jwt := by
    intro s s' a h
    unfold LoadSt.act at h
    split at h
    · cases h; exact ⟨[], .refl _ _⟩
    · split at h
      · cases h
      · cases h; exact ⟨[], .refl _ _⟩
    · split at h
      · cases h
      · unfold LoadSt.stepProc at h
        split at h
        · cases h
        · split at h <;> cases h <;> exact ⟨[], .refl _ _⟩
        · split at h
          · cases h; exact ⟨[], .refl _ _⟩
          · rename_i hl
            cases h; exact ⟨_, loadJwks_rel hl⟩
        · split at h <;> cases h <;> exact ⟨[], .refl _ _⟩
        · split at h <;> cases h; exact ⟨[], .refl _ _⟩
        · cases h; exact ⟨[], .refl _ _⟩
        · cases h; exact ⟨[], .refl _ _⟩
        · cases h
  induction as generalizing s with
  | nil =>
    simp only [LoadSt.run, Option.some.injEq] at h
    subst h
    exact ⟨fun _ _ h => h, fun _ _ h => h, rfl, id, id⟩
  | cons a as ih =>
    simp only [LoadSt.run] at h
    split at h
    · cases h
    · rename_i s1 h1
      obtain ⟨ks, hr⟩ := one h1
      obtain ⟨i1, i2, i3, i4, i5⟩ := ih s1 h
      exact ⟨fun kid key hk => i1 kid key (find_prefix hr.rsaPrefix hk),
        fun kid key hk => i2 kid key (find_prefix hr.ecPrefix hk), i3.trans hr.secret,
        fun hn => i4 (hr.rsaNodup hn), fun hn => i5 (hr.ecNodup hn)⟩

/-- A schedule with a boot fetch, two refreshes that are let through and one that is turned away;
the third fetch starts exactly ten seconds after the second. -/
example : (({ jwt := { alg := "RS256".toList } } : LoadSt Nat).run
    [.spawn, .step 0 none, .step 0 none, .step 0 none, .step 0 none, .step 0 none,
     .spawn, .spawn, .step 1 none, .step 2 none, .step 1 none, .step 1 none,
     .tick slowwait, .step 1 none, .step 1 none, .step 1 none, .spawn, .step 3 none]).map
      (fun s => (s.fetches, s.procs)) =
    some ([slowwait, 0, 0], [.finished, .finished, .finished, .fetching]) := by decide

end J8a

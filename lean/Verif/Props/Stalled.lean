import Verif.Props.JwksTimed
/-!
# C102 — a refresh is possible again soon after the last one

`jwk.Fetch` (jwt.go:176) uses the default HTTP client, which has no timeout; and the semaphore is held
until it returns.
-/
namespace J8a

variable {K : Type}

/-- C102 fails: as long as one fetch does not return, nothing is fetched and no key is loaded, for any
schedule, any number of refreshes asked for and any time that passes. -/
theorem C102_violated_stalled (j : Jwt K) (t : Nat) (before : List (LoadAct K)) (s : LoadSt K)
    (h : ({ now := t, jwt := j } : LoadSt K).run before = some s) (i : Nat)
    (hi : s.procs[i]? = some .fetching) (as : List (LoadAct K)) (s' : LoadSt K)
    (hr : s.run as = some s') (hstall : ∀ doc, LoadAct.step i doc ∉ as) :
    s'.fetches = s.fetches ∧ s'.jwt = s.jwt ∧ s'.procs[i]? = some .fetching := by
  have hinv := (LoadInv.init j t).run before h
  clear h
  induction as generalizing s with
  | nil =>
    simp only [LoadSt.run, Option.some.injEq] at hr; subst hr
    exact ⟨rfl, rfl, hi⟩
  | cons a as ih =>
    simp only [LoadSt.run] at hr
    split at hr
    · cases hr
    rename_i s1 h1
    have hinv1 := hinv.act a h1
    suffices s1.fetches = s.fetches ∧ s1.jwt = s.jwt ∧ s1.procs[i]? = some .fetching by
      obtain ⟨a1, a2, a3⟩ := this
      obtain ⟨b1, b2, b3⟩ := ih s1 a3 hr (fun doc hd => hstall doc (by simp [hd])) hinv1
      exact ⟨b1.trans a1, b2.trans a2, b3⟩
    have hheld := held_of_inside hinv hi rfl
    have hc : s.procs.countP LoadPC.inside = 1 := by rw [hinv.excl, hheld]; rfl
    unfold LoadSt.act at h1
    split at h1
    · cases h1; exact ⟨rfl, rfl, hi⟩
    · split at h1
      · cases h1
      · cases h1
        refine ⟨rfl, rfl, ?_⟩
        simp only
        rw [List.getElem?_append_left (List.getElem?_eq_some_iff.1 hi).1]
        exact hi
    · rename_i k doc
      have hk : k ≠ i := by
        intro hk
        exact hstall doc (by simp [hk])
      split at h1
      · cases h1
      · have hout : ∀ p, s.procs[k]? = some p → p.inside = false :=
          fun p hp => countP_le_one_others hi rfl hc k p hp hk
        unfold LoadSt.stepProc at h1
        split at h1
        · cases h1
        · rw [if_pos hheld] at h1
          cases h1
          refine ⟨rfl, rfl, ?_⟩
          simp only
          rw [List.getElem?_set_ne hk]
          exact hi
        all_goals first | (have := hout _ ‹_›; cases this; done) | (cases h1; done)

/-- What the passing of time may do when goroutines move as soon as they can and a fetch takes no
longer than `F`. -/
def LoadSt.MayPass (F : Nat) (s : LoadSt K) (d : Nat) : Prop := ∀ p ∈ s.procs, match p with
  | .fetching => ∀ f, s.fetches.head? = some f → s.now + d ≤ f + F
  | .sleeping t => s.now + d ≤ t + slowwait
  | .start => True
  | .finished => True
  | _ => d = 0

/-- Executions in which goroutines are prompt and fetches end within `F`. -/
def LoadSt.Prompt (F : Nat) : LoadSt K → List (LoadAct K) → LoadSt K → Prop
  | s, [], s' => s' = s
  | s, a :: as, s' => ∃ s1, s.act a = some s1 ∧ (∀ d, a = .tick d → s.MayPass F d) ∧
      LoadSt.Prompt F s1 as s'

/-- When a goroutine inside can be where it is. -/
def LoadPC.ByTime (F now f : Nat) : LoadPC → Prop
  | .start => True
  | .finished => True
  | .fetching => now ≤ f + F
  | .loaded => now ≤ f + F
  | .sleeping t => t ≤ f + F ∧ now ≤ t + slowwait
  | .slept => now ≤ f + F + slowwait
  | .counted => now ≤ f + F + slowwait

theorem LoadPC.ByTime.outside {F n f n' f' : Nat} {p : LoadPC} (h : p.inside = false)
    (_ : p.ByTime F n f) : p.ByTime F n' f' := by
  cases p <;> simp_all [LoadPC.inside, LoadPC.ByTime]

/-- What holds in prompt executions. -/
structure PromptInv (F : Nat) (s : LoadSt K) : Prop where
  inv : LoadInv s
  by_time : ∀ p ∈ s.procs, p.inside = true → ∃ f, s.fetches.head? = some f ∧ p.ByTime F s.now f

theorem PromptInv.act {F : Nat} {s s' : LoadSt K} (h : PromptInv F s) (a : LoadAct K)
    (ha : s.act a = some s') (hp : ∀ d, a = .tick d → s.MayPass F d) : PromptInv F s' := by
  refine ⟨h.inv.act a ha, ?_⟩
  unfold LoadSt.act at ha
  split at ha
  · rename_i d
    cases ha
    intro p hm hin
    obtain ⟨f, hf, hb⟩ := h.by_time p hm hin
    refine ⟨f, hf, ?_⟩
    have := hp d rfl p hm
    cases p <;> simp only [LoadPC.ByTime] at hb this ⊢
    · exact this f hf
    · subst this; exact hb
    · exact ⟨hb.1, this⟩
    · subst this; exact hb
    · subst this; exact hb
  · split at ha
    · cases ha
    · cases ha
      intro p hm hin
      rcases List.mem_append.1 hm with hm | hm
      · exact h.by_time p hm hin
      · simp only [List.mem_singleton] at hm
        rw [hm] at hin
        cases hin
  · rename_i i doc
    split at ha
    · cases ha
    have moved : ∀ {b : LoadPC} {now : Nat} {fs : List Nat}, fs = s.fetches → now = s.now →
        (∀ f, s.fetches.head? = some f → s.procs[i]?.any (fun a => a.inside) = true →
          (∀ a, s.procs[i]? = some a → a.ByTime F s.now f) → b.ByTime F s.now f) →
        (s.procs[i]?.any (fun a => a.inside) = true ∨ b.inside = false) →
        ∀ p ∈ s.procs.set i b, p.inside = true → ∃ f, fs.head? = some f ∧ p.ByTime F now f := by
      intro b now fs hfs hnow hb hor p hm hin
      subst hfs hnow
      rcases List.mem_or_eq_of_mem_set hm with hm | hm
      · exact h.by_time p hm hin
      · subst hm
        rcases hor with hany | hout
        · rw [Option.any_eq_true] at hany
          obtain ⟨a, ha1, ha2⟩ := hany
          obtain ⟨f, hf, hbt⟩ := h.by_time a (List.mem_of_getElem? ha1) ha2
          refine ⟨f, hf, hb f hf (by rw [ha1]; simpa using ha2) fun a' ha' => ?_⟩
          rw [ha1] at ha'
          cases ha'
          exact hbt
        · rw [hout] at hin; cases hin
    unfold LoadSt.stepProc at ha
    split at ha
    · cases ha
    · rename_i hpc
      split at ha
      · cases ha
        exact moved rfl rfl (fun f _ _ _ => trivial) (.inr rfl)
      · rename_i hheld
        cases ha
        intro p hm hin
        rcases List.mem_or_eq_of_mem_set hm with hm | hm
        · have h2 := h.inv.excl
          have hheld : s.held = false := by simpa using hheld
          rw [hheld] at h2
          have := List.countP_eq_zero.1 (by simpa using h2) p hm
          rw [hin] at this
          exact absurd rfl this
        · subst hm
          exact ⟨s.now, rfl, Nat.le_add_right _ _⟩
    · rename_i hpc
      split at ha
      · cases ha
        exact h.by_time
      · cases ha
        exact moved rfl rfl (fun f _ _ hb => by simpa only [LoadPC.ByTime] using hb _ hpc) (.inl (by rw [hpc]; rfl))
    · rename_i hpc
      split at ha
      · cases ha
        exact moved rfl rfl (fun f _ _ hb => ⟨hb _ hpc, Nat.le_add_right _ _⟩) (.inl (by rw [hpc]; rfl))
      · cases ha
        exact moved rfl rfl (fun f _ _ hb => by
          have := hb _ hpc
          simp only [LoadPC.ByTime] at this ⊢
          omega) (.inl (by rw [hpc]; rfl))
    · rename_i hpc
      split at ha
      · cases ha
        exact moved rfl rfl (fun f _ _ hb => by
          have := hb _ hpc
          simp only [LoadPC.ByTime] at this ⊢
          omega) (.inl (by rw [hpc]; rfl))
      · cases ha
    · rename_i hpc
      cases ha
      exact moved rfl rfl (fun f _ _ hb => by simpa only [LoadPC.ByTime] using hb _ hpc) (.inl (by rw [hpc]; rfl))
    · rename_i hpc
      cases ha
      exact moved rfl rfl (fun f _ _ hb => trivial) (.inl (by rw [hpc]; rfl))
    · cases ha

theorem PromptInv.run {F : Nat} {s s' : LoadSt K} (h : PromptInv F s) (as : List (LoadAct K))
    (hr : LoadSt.Prompt F s as s') : PromptInv F s' := by
  induction as generalizing s with
  | nil => simp only [LoadSt.Prompt] at hr; rw [hr]; exact h
  | cons a as ih =>
    obtain ⟨s1, h1, h2, h3⟩ := hr
    exact ih (h.act a h1 h2) h3

/-- C102, the part that holds: if fetches end within `F` and goroutines move as soon as they can, a
goroutine that wants to refresh later than `F` plus ten seconds after the start of the last fetch starts
a fetch. Missing from the full statement: that fetches end, which nothing sees to. -/
theorem C102_refresh_possible_partial (F : Nat) (j : Jwt K) (t : Nat) (as : List (LoadAct K))
    (s : LoadSt K) (h : LoadSt.Prompt F ({ now := t, jwt := j } : LoadSt K) as s) (i : Nat)
    (hi : s.procs[i]? = some .start) (hlive : s.dead = false)
    (hlate : ∀ f, s.fetches.head? = some f → f + F + 10 * 10 ^ 9 < s.now) (doc : Option (List (Jwk K))) :
    ∃ s', s.act (.step i doc) = some s' ∧ s'.procs[i]? = some .fetching := by
  have hinv := PromptInv.run (F := F) (s := { now := t, jwt := j }) ⟨LoadInv.init j t, by simp⟩ as h
  have hheld : s.held = false := by
    cases hh : s.held
    · rfl
    · exfalso
      have h1 := hinv.inv.excl
      rw [hh] at h1
      obtain ⟨p, hp, hin⟩ := List.countP_pos_iff.1 (by rw [h1]; decide)
      obtain ⟨f, hf, hb⟩ := hinv.by_time p hp hin
      have := hlate f hf
      cases p <;> simp only [LoadPC.ByTime, LoadPC.inside, slowwait] at hb hin <;> first | omega | cases hin
  have hlt : i < s.procs.length := (List.getElem?_eq_some_iff.1 hi).1
  have hs : s.act (.step i doc) = some { s with held := true, procs := s.procs.set i .fetching, fetches := s.now :: s.fetches } := by
    simp only [LoadSt.act, hlive, Bool.false_eq_true, if_false, LoadSt.stepProc, hi, hheld]
  exact ⟨_, hs, by simp [hlt]⟩

/-- A boot fetch, then a refresh that takes 2 seconds; the next one is let through after 12 seconds and
a bit. -/
example : ∃ s, LoadSt.Prompt (2 * 10 ^ 9) ({ jwt := { alg := "RS256".toList } } : LoadSt Nat)
    [.spawn, .step 0 none, .step 0 none, .step 0 none, .step 0 none, .step 0 none,
     .spawn, .step 1 none, .tick (2 * 10 ^ 9), .step 1 none, .step 1 none, .tick slowwait, .step 1 none,
     .step 1 none, .step 1 none, .tick 1, .spawn] s ∧ s.procs[2]? = some .start ∧
    s.fetches.head? = some 0 ∧ 0 + 2 * 10 ^ 9 + 10 * 10 ^ 9 < s.now := by
  refine ⟨_, ⟨_, rfl, by simp, _, rfl, by simp, _, rfl, by simp, _, rfl, by simp, _, rfl, by simp, _, rfl,
    by simp, _, rfl, by simp, _, rfl, by simp, _, rfl, ?_, _, rfl, by simp, _, rfl, by simp, _, rfl, ?_, _,
    rfl, by simp, _, rfl, by simp, _, rfl, by simp, _, rfl, ?_, _, rfl, by simp, rfl⟩, rfl, rfl, by decide⟩
  all_goals
    intro d hd
    cases hd
    intro p hp
    simp only [List.mem_cons, List.set_cons_succ, List.set_cons_zero, List.nil_append, List.cons_append,
      List.not_mem_nil, or_false] at hp
    rcases hp with rfl | rfl
    · trivial
    · first | trivial | (intro f hf; cases hf; decide) | decide

/-- The endpoint accepts connections and never answers: a day later, with a refresh asked for, nothing
was fetched. -/
example : ∃ s, ({ jwt := { alg := "RS256".toList } } : LoadSt Nat).run
    [.spawn, .step 0 none, .tick (86400 * 10 ^ 9), .spawn, .step 1 none] = some s ∧
    s.procs = [.fetching, .finished] ∧ s.fetches = [0] := ⟨_, rfl, rfl, rfl⟩

end J8a

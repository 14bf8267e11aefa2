import Verif.Props.Hub
import Verif.Props.Attempts
/-!
# C176: every request comes to its end, whatever the others do
-/
namespace J8a
open Go

variable {K : Type}

/-- An execution of the gateway without end; a step may also leave it as it is. -/
def Hub.Goes (A : Around K) (γ : Nat → Hub K) : Prop := γ 0 = {} ∧ ∀ n, γ (n + 1) = γ n ∨ Hub.Step A (γ n) (γ (n + 1))

/-- Where a request is. -/
def Hub.at (g : Hub K) (j : Nat) (t : Task K) : St := ((g.tasks[j]?).getD t).s

theorem Hub.Goes.reached {A : Around K} {γ : Nat → Hub K} (h : Hub.Goes A γ) (n : Nat) : (γ n).Reached A := by
  induction n with
  | zero => rw [h.1]; exact .new
  | succ n ih =>
    rcases h.2 n with e | e
    · rw [e]; exact ih
    · exact .step ih e

/-- A step of the gateway is a step of a request, or it leaves the request where it is. -/
theorem Hub.Step.task {A : Around K} {g g' : Hub K} (h : Hub.Step A g g') {j : Nat} {t : Task K} (ht : g.tasks[j]? = some t) :
    ∃ t', g'.tasks[j]? = some t' ∧ t'.x = t.x ∧ (t' = t ∨ ∃ a, step t.x.env t.s a = some t'.s) := by
  have hlt := (List.getElem?_eq_some_iff.1 ht).1
  cases h with
  | accept x hx => exact ⟨t, get_more _ ht, rfl, .inl rfl⟩
  | act j' t' a s' h1 h2 h3 =>
    simp only
    rw [get_set h1]
    split
    · rename_i e
      subst e
      rw [ht] at h1
      injection h1 with h1
      subst h1
      exact ⟨_, rfl, rfl, .inr ⟨a, h2⟩⟩
    · exact ⟨t, ht, rfl, .inl rfl⟩
  | deliver j' t' i q k l e s' h1 h2 h3 h4 h5 =>
    simp only
    rw [get_set h1]
    split
    · rename_i e
      subst e
      rw [ht] at h1
      injection h1 with h1
      subst h1
      exact ⟨_, rfl, rfl, .inr ⟨_, h5⟩⟩
    · exact ⟨t, ht, rfl, .inl rfl⟩
  | dial key => exact ⟨t, ht, rfl, .inl rfl⟩
  | ask => exact ⟨t, ht, rfl, .inl rfl⟩
  | conn => exact ⟨t, ht, rfl, .inl rfl⟩

theorem Hub.Goes.stays {A : Around K} {γ : Nat → Hub K} (h : Hub.Goes A γ) {j n : Nat} {t : Task K} (ht : (γ n).tasks[j]? = some t)
    (m : Nat) : ∃ t', (γ (n + m)).tasks[j]? = some t' ∧ t'.x = t.x := by
  induction m with
  | zero => exact ⟨t, ht, rfl⟩
  | succ m ih =>
    obtain ⟨t', h1, h2⟩ := ih
    rcases h.2 (n + m) with e | e
    · exact ⟨t', by rw [← Nat.add_assoc, e]; exact h1, h2⟩
    · obtain ⟨t'', h3, h4, -⟩ := e.task h1
      exact ⟨t'', h3, h4.trans h2⟩

/-- C176: a request comes to its end, after a number of steps of its handler that does not depend on anything else, as long as
the scheduler runs its handler and the read timers of its attempts fire. It does not matter what upstreams, connections and
other requests do. -/
theorem C176_finished (A : Around K) (γ : Nat → Hub K) (h : Hub.Goes A γ) (j n : Nat) (t : Task K) (ht : (γ n).tasks[j]? = some t)
    (hf : Fair t.x.env fun m => (γ (n + m)).at j t) :
    ∃ m t', (γ (n + m)).tasks[j]? = some t' ∧ t'.x = t.x ∧ (t'.s.pc = .done ∨ t'.s.pc = .panicked) ∧
      (t'.s.pc = .done → t'.s.sent.length = 1) ∧
      (t'.acts.countP fun a => match a with | .main _ => true | _ => false) ≤ 30 * (max 1 t.x.c.connection.upstream.maxAttempts).toNat := by
  have hat : ∀ {m : Nat} {t' : Task K}, (γ (n + m)).tasks[j]? = some t' → (γ (n + m)).at j t = t'.s := by
    intro m t' h'
    unfold Hub.at
    rw [h']
    rfl
  have hi : InfRun t.x.env fun m => (γ (n + m)).at j t := by
    intro m
    obtain ⟨t', h1, h2⟩ := h.stays ht m
    simp only
    rcases h.2 (n + m) with e | e
    · left
      rw [← Nat.add_assoc, e]
    · obtain ⟨t'', h3, h4, h5⟩ := e.task h1
      rw [hat h1, ← Nat.add_assoc, show (γ (n + m + 1)).at j t = t''.s from hat (m := m + 1) h3]
      rcases h5 with rfl | ⟨a, h5⟩
      · exact .inl rfl
      · rw [h2] at h5
        exact .inr ⟨a, h5⟩
  have h0 : (γ (n + 0)).at j t = t.s := hat (m := 0) ht
  have hr := C174_alone A _ (h.reached n) t (List.mem_of_getElem? ht)
  have key : ∃ m, ((γ (n + m)).at j t).pc.finished := by
    rcases going_or_still hr.2.1 with ⟨r, u, l, -, hg⟩ | ⟨-, hs⟩
    · exact hf.finishes hi (by show Inv _ ((γ (n + 0)).at j t); rw [h0]; exact hg.inv)
    · exact hf.finishes_still hi (by show Still ((γ (n + 0)).at j t); rw [h0]; exact hs)
  obtain ⟨m, hm⟩ := key
  obtain ⟨t', h1, h2⟩ := h.stays ht m
  rw [hat h1] at hm
  have hr' := (Hub.inv (h.reached (n + m))).runs j t' h1
  refine ⟨m, t', h1, h2, ?_, (C46_one_response t'.x t'.s ⟨_, hr'.2⟩).2, ?_⟩
  · cases hp : t'.s.pc <;> rw [hp] at hm <;> first | exact hm.elim | simp
  · rw [← h2]
    exact C49_bounded t'.x t'.s t'.acts hr'.2

/-- An execution may stop at any time. -/
theorem Hub.Reached.goes {A : Around K} {g : Hub K} (h : g.Reached A) : ∃ γ N, Hub.Goes A γ ∧ ∀ n, N ≤ n → γ n = g := by
  induction h with
  | new => exact ⟨fun _ => {}, 0, ⟨rfl, fun _ => .inl rfl⟩, fun _ _ => rfl⟩
  | @step g g' _ hs ih =>
    obtain ⟨γ, N, h1, h2⟩ := ih
    refine ⟨fun n => if n ≤ N then γ n else g', N + 1, ⟨by simp [h1.1], fun n => ?_⟩, fun n hn => if_neg (by omega)⟩
    simp only
    by_cases h3 : n + 1 ≤ N
    · rw [if_pos h3, if_pos (by omega)]
      exact h1.2 n
    · rw [if_neg h3]
      by_cases h4 : n ≤ N
      · rw [if_pos h4, h2 n (by omega)]
        exact .inr hs
      · rw [if_neg h4]
        exact .inl rfl

/-- The hypotheses are satisfiable: no upstream ever answers; one client waits, the other one, whose timers fire, is told. -/
example : ∃ (γ : Nat → Hub Nat) (n : Nat) (t : Task Nat), Hub.Goes Demo.around γ ∧ (γ n).tasks[1]? = some t ∧
    (∀ m, ∃ t0, (γ (n + m)).tasks[0]? = some t0 ∧ (t0.s.atmpt 0).hg = .calling) ∧
    Fair t.x.env fun m => (γ (n + m)).at 1 t := by
  obtain ⟨s1, q1, b1, h1, c1, m1, g1, -⟩ := Demo.calls (x := Demo.heading) (method := "HEAD".toList) (hw := ⟨by decide, by decide⟩)
    (h := by decide +kernel)
  obtain ⟨s2, h2, hp⟩ := Demo.of_check (x := Demo.setup)
    (as := Demo.silent 0 ++ Demo.silent 1 ++ List.replicate 3 Demo.go)
    (p := fun s => (Demo.seen s).finished && s.n == 2 && (s.atmpt 0).ctxDone && (s.atmpt 1).ctxDone) (by decide +kernel)
  simp only [Bool.and_eq_true, beq_iff_eq] at hp
  have r1 := (Hub.Reached.new (A := Demo.around)).step (.accept Demo.heading (.inl rfl)) |>.step (.accept Demo.setup (.inr rfl))
    |>.acts (j := 0) rfl h1 (by simp) (by simp)
  have r2 := r1.acts (j := 1) rfl h2 (by simp [Demo.silent]) (by simp [Demo.silent])
  obtain ⟨γ, N, h3, h4⟩ := r2.goes
  have hd := Demo.done_of_seen hp.1.1.1
  have ht : (γ N).tasks[1]? = some ⟨Demo.setup, Demo.silent 0 ++ Demo.silent 1 ++ List.replicate 3 Demo.go, s2, []⟩ := by rw [h4 N (Nat.le_refl _)]; rfl
  refine ⟨γ, N, _, h3, ht, fun m => ⟨_, by rw [h4 _ (Nat.le_add_right _ _)]; rfl, g1⟩, ?_⟩
  have hat : ∀ m (as : List Act), (γ (N + m)).at 1 ⟨Demo.setup, as, s2, []⟩ = s2 := by
    intro m as
    rw [h4 _ (Nat.le_add_right _ _)]
    rfl
  refine ⟨fun i hi => ?_, fun i k hk _ => ⟨i, Nat.le_refl _, ?_⟩⟩
  · obtain ⟨c, s', hs⟩ := hi i (Nat.le_refl _)
    rw [hat] at hs
    simp [stepMain, hd] at hs
  · simp only [hat] at hk ⊢
    have : k = 0 ∨ k = 1 := by omega
    rcases this with rfl | rfl
    · exact hp.1.2
    · exact hp.2

end J8a

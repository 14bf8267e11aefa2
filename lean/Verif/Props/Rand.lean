import Verif.Model.Rand
import Verif.Lemmas.Policy
/-!
# C85: responses of the gateway itself have no say in which label other requests get

The wanted statement is `Independent`: the dice drawn for label selection are the same whether or not the
gateway answers requests itself in between.
-/
namespace J8a.Rand
open Policy

variable {σ : Type}

/-- C85 as wanted: the dice of a history are those of the same history without own responses. -/
def Independent (S : Source σ) : Prop :=
  ∀ h : List Call, S.dices S.fresh h = S.dices S.fresh (h.filter (· = .dice))

theorem dices_append (S : Source σ) (s : σ) (h h' : List Call) :
    S.dices s (h ++ h') = S.dices s h ++ S.dices (S.after s h) h' := by
  induction h generalizing s with
  | nil => rfl
  | cons c h ih => cases c <;> simp [Source.dices, Source.after, Source.next, ih]

theorem after_append (S : Source σ) (s : σ) (h h' : List Call) :
    S.after s (h ++ h') = S.after (S.after s h) h' := List.foldl_append

/-- `n` dice in a row. -/
theorem dices_length (S : Source σ) (s : σ) (h : List Call) :
    (S.dices s h).length = h.countP (· = .dice) := by
  induction h generalizing s with
  | nil => rfl
  | cons c h ih => cases c <;> simp [Source.dices, ih]

/-- C85, what does hold: what a history hands out after its last own response is what the source, seeded
with that second, hands out; nothing that happened before has any influence. Before the first own response
it is what the source seeded with 1 hands out. -/
theorem C85_since_reseed_partial (S : Source σ) (s : σ) (before since : List Call) (t : Int) :
    S.dices s (before ++ .seed t :: since) = S.dices s before ++ S.dices (S.seed t) since ∧
    S.after s (before ++ .seed t :: since) = S.after (S.seed t) since := by
  rw [dices_append, after_append]
  exact ⟨rfl, rfl⟩

/-- C85, partial: as long as the gateway gives no response of its own the dice are independent. -/
theorem C85_no_own_partial (S : Source σ) (h : List Call) (hh : ∀ c ∈ h, c = .dice) :
    S.dices S.fresh h = S.dices S.fresh (h.filter (· = .dice)) := by
  rw [List.filter_eq_self.mpr]
  intro c hc
  simp [hh c hc]

theorem rounds_dices (S : Source σ) (s : σ) (t : Int) (n : Nat) :
    S.dices s (List.replicate n (randomHuttese t ++ [.dice])).flatten
      = List.replicate n (S.float64 (S.int (S.seed t)).2).1 := by
  induction n generalizing s with
  | zero => rfl
  | succ n ih =>
    rw [List.replicate_succ, List.flatten_cons, dices_append, ih]
    rfl

/-- C85 is violated by every source of random numbers whatsoever, except one that always rolls the same:
if label selection did not depend on own responses, then all dice of a fresh process would be equal. -/
theorem C85_violated (S : Source σ) (n : Nat)
    (hn : ∃ a ∈ S.dices S.fresh (List.replicate n .dice), ∃ b ∈ S.dices S.fresh (List.replicate n .dice),
      a ≠ b) : ¬ Independent S := by
  intro hi
  have h := hi (List.replicate n (randomHuttese 0 ++ [.dice])).flatten
  have hf : ((List.replicate n (randomHuttese 0 ++ [Call.dice])).flatten).filter (· = .dice)
      = List.replicate n .dice := by
    clear h hn
    induction n with
    | zero => rfl
    | succ n ih => rw [List.replicate_succ, List.flatten_cons, List.filter_append, ih]; rfl
  rw [rounds_dices, hf] at h
  obtain ⟨a, ha, b, hb, hab⟩ := hn
  rw [← h] at ha hb
  exact hab ((List.eq_of_mem_replicate ha).trans (List.eq_of_mem_replicate hb).symm)

/-- C85 violated, how badly: when each of `n` requests rolls its dice after the gateway answered something
itself in the same second, all of them roll the same, for every source and whatever happened before. -/
theorem C85_violated_same_dice (S : Source σ) (s : σ) (before : List Call) (t : Int) (n : Nat) :
    ∃ d, S.dices s (before ++ (List.replicate n (randomHuttese t ++ [.dice])).flatten)
      = S.dices s before ++ List.replicate n d :=
  ⟨_, by rw [dices_append, rounds_dices]⟩

/-- C85 violated during an outage: requests that roll a dice and are then answered by the gateway itself
(the upstream of the label is down, say) all within a second. From the second on they all roll the same, so
they are all sent the same way. -/
theorem C85_violated_outage (S : Source σ) (s : σ) (t : Int) (n : Nat) :
    ∃ first again, S.dices s (List.replicate (n + 1) (.dice :: randomHuttese t)).flatten
      = first :: List.replicate n again := by
  refine ⟨(S.float64 s).1, (S.float64 (S.int (S.seed t)).2).1, ?_⟩
  rw [List.replicate_succ, List.flatten_cons]
  have hg : ∀ (n : Nat), S.dices (S.int (S.seed t)).2
        (List.replicate n (.dice :: randomHuttese t)).flatten
      = List.replicate n (S.float64 (S.int (S.seed t)).2).1 := by
    intro n
    induction n with
    | zero => rfl
    | succ n ih =>
      rw [List.replicate_succ, List.flatten_cons, dices_append, List.replicate_succ]
      exact congrArg _ ih
  rw [dices_append]
  exact congrArg _ (hg n)

/-- Two sorted permutations of a policy with distinct weights are equal. -/
theorem sorted_unique {p a b : Policy} (hd : p.Pairwise (fun x y => x.weight ≠ y.weight))
    (ha : SortedFrom a p) (hb : SortedFrom b p) : a = b := by
  have hab : a.Perm b := ha.perm.trans hb.perm.symm
  have hda : a.Pairwise (fun x y => x.weight ≠ y.weight) :=
    (ha.perm.pairwise_iff (fun h => Ne.symm h)).mpr hd
  have hsa := ha.sorted
  have hsb := hb.sorted
  clear ha hb hd
  induction a generalizing b with
  | nil => exact (List.nil_perm.mp hab).symm
  | cons x a ih =>
    cases b with
    | nil => exact absurd hab.length_eq (by simp)
    | cons y b =>
      have hxy : x = y := by
        have h1 : x ∈ y :: b := hab.mem_iff.mp (List.mem_cons_self ..)
        have h2 : y ∈ x :: a := hab.mem_iff.mpr (List.mem_cons_self ..)
        rcases List.mem_cons.mp h1 with h1 | h1
        · exact h1
        rcases List.mem_cons.mp h2 with h2 | h2
        · exact h2.symm
        have k1 := (List.pairwise_cons.mp hsa).1 y h2
        have k2 := (List.pairwise_cons.mp hsb).1 x h1
        have k3 := (List.pairwise_cons.mp hda).1 y h2
        simp only [Policy.less, decide_eq_false_iff_not] at k1 k2
        omega
      subst hxy
      rw [ih hab.cons_inv (List.pairwise_cons.mp hda).2 (List.pairwise_cons.mp hsa).2
        (List.pairwise_cons.mp hsb).2]

/-- C85 violated, in labels: a policy with distinct weights, and `n` requests whose dice are rolled after an
own response in the same second. They all get the same label: the other labels get no request at all in
that second, whatever their weights. -/
theorem C85_violated_one_label (S : Source σ) (s : σ) (before : List Call) (t : Int) (p : Policy)
    (hd : p.Pairwise (fun x y => x.weight ≠ y.weight)) :
    ∃ label, ∀ n, ∀ dice ∈ S.dices (S.after s before)
        (List.replicate n (randomHuttese t ++ [.dice])).flatten,
      ∀ p' l, ResolveLabel p dice p' l → l = label := by
  let d := (S.float64 (S.int (S.seed t)).2).1
  by_cases hex : ∃ p' l, ResolveLabel p d p' l
  · obtain ⟨p1, l1, h1⟩ := hex
    refine ⟨l1, fun n dice hdice p' l hr => ?_⟩
    rw [rounds_dices] at hdice
    have := List.eq_of_mem_replicate hdice
    rw [this] at hr
    rw [hr.result, h1.result, sorted_unique hd hr.sorted h1.sorted]
  · refine ⟨[], fun n dice hdice p' l hr => ?_⟩
    rw [rounds_dices] at hdice
    have := List.eq_of_mem_replicate hdice
    rw [this] at hr
    exact absurd ⟨p', l, hr⟩ hex

/-! ## Examples -/

/-- A source that counts: its dice are all different. -/
def counting : Source Nat :=
  ⟨Int.toNat, fun s => (s, s + 1), fun s => ((s : Int) * 2 ^ 1070, s + 1)⟩

/-- Without own responses the counting source rolls different dice. -/
example : counting.dices counting.fresh (List.replicate 3 .dice) = [2 ^ 1070, 2 * 2 ^ 1070, 3 * 2 ^ 1070] := by
  decide +kernel

/-- With own responses in second 7 in between it does not. -/
example : counting.dices counting.fresh (List.replicate 3 (randomHuttese 7 ++ [.dice])).flatten
    = [8 * 2 ^ 1070, 8 * 2 ^ 1070, 8 * 2 ^ 1070] := by decide +kernel

example : ¬ Independent counting := C85_violated counting 2
  ⟨2 ^ 1070, by decide +kernel, 2 * 2 ^ 1070, by decide +kernel, by decide +kernel⟩

/-- A policy that gives blue 0.25 and green 0.75: in second 7 (8/16 rolled) every request goes to green. -/
example : ∃ p', SortedFrom p' [⟨"green".toList, 3 * 2 ^ 1072⟩, ⟨"blue".toList, 2 ^ 1072⟩] ∧
    Policy.pickLabel F64.add p' (8 * 2 ^ 1070) = "green".toList :=
  ⟨[⟨"blue".toList, 2 ^ 1072⟩, ⟨"green".toList, 3 * 2 ^ 1072⟩],
    ⟨List.Perm.swap .., by decide +kernel⟩, by decide +kernel⟩

end J8a.Rand

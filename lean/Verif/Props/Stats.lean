import Verif.Lemmas.Stats
import Verif.Model.StatsRace
/-!
# Memory history: C56, C57, C67
-/
namespace J8a
open Go

/-! ## C56 -/

/-- **C56.** Whatever samples arrive and whatever capacities the runtime picks, the history holds the
last 24 of the 24 copies of the first sample followed by the samples appended, in order; nothing
panics. -/
theorem C56_history_is_last_24 (lazy : Sample) (xs : List (Nat × Sample)) :
    ∃ s, sampleHistory lazy xs = some s ∧
      s.view = lastN 24 (List.replicate 24 lazy ++ xs.map Prod.snd) := by
  obtain ⟨t, ht, hv⟩ := fillHistory_view lazy 24 (Slice.make 24 .zero) rfl (by decide) (by simp)
  obtain ⟨u, hu, hv'⟩ := appendAll_view xs t (List.replicate 24 lazy) (by rw [hv]; rfl)
  exact ⟨u, by simp only [sampleHistory, historyMaxSamples, ht, Option.bind_eq_bind, Option.bind_some, hu],
    hv'⟩

/-- **C56**, once 24 samples have been appended: the initial fill is gone. -/
theorem C56_fill_forgotten (lazy : Sample) (xs : List (Nat × Sample)) (h : 24 ≤ xs.length) :
    ∃ s, sampleHistory lazy xs = some s ∧ s.view = lastN 24 (xs.map Prod.snd) := by
  obtain ⟨s, hs, hv⟩ := C56_history_is_last_24 lazy xs
  refine ⟨s, hs, hv.trans ?_⟩
  unfold lastN
  rw [List.drop_append]
  simp only [List.length_append, List.length_replicate, List.length_map]
  rw [List.drop_of_length_le (by rw [List.length_replicate]; omega), List.nil_append]
  congr 1; omega

/-- The history always has 24 entries. -/
theorem C56_always_24 (lazy : Sample) (xs : List (Nat × Sample)) :
    ∃ s, sampleHistory lazy xs = some s ∧ s.len = 24 := by
  obtain ⟨s, hs, hv⟩ := C56_history_is_last_24 lazy xs
  refine ⟨s, hs, ?_⟩
  rw [← s.view_length, hv]
  simp only [lastN, List.length_drop, List.length_append, List.length_replicate]
  omega

example : (sampleHistory ⟨7, 1⟩ [(0, ⟨7, 2⟩), (3, ⟨7, 3⟩)]).map (fun s => s.view.map (·.rssBytes)) =
    some (List.replicate 22 1 ++ [2, 3]) := by decide +kernel

example : (sampleHistory ⟨7, 1⟩ ((List.range 30).map fun i => (i % 3, ⟨7, i⟩))).map
    (fun s => s.view.map (·.rssBytes)) = some ((List.range 24).map (· + 6)) := by decide +kernel

/-! ## C57 -/

/-- **C57.** Nothing is flagged when some slot has no data. -/
theorem C57_incomplete_not_flagged (h : List Sample) (hi : ¬ HistoryComplete h) :
    ∀ g ∈ samplesLog h, g.high = false := by
  unfold samplesLog
  split
  · simp
  · rename_i o t
    have : ((o :: t).any fun s => s.pid == 0) = true := by
      apply Classical.byContradiction
      intro hc
      apply hi
      intro s hs
      simp only [List.any_eq_true, not_exists, not_and] at hc
      have := hc s hs
      simpa using this
    rw [if_pos this]
    intro g hg
    obtain ⟨_, _, rfl⟩ := List.mem_map.mp hg
    rfl

/-- One rate per sample. -/
theorem C57_one_rate_per_sample (h : List Sample) : (samplesLog h).length = h.length := by
  unfold samplesLog
  split
  · rfl
  · split <;> simp

/-- With complete data every sample is compared with the oldest one. -/
theorem samplesLog_complete {o : Sample} {t : List Sample} (hc : HistoryComplete (o :: t)) :
    samplesLog (o :: t) = (o :: t).map (growthOf o) := by
  unfold samplesLog
  simp only
  rw [if_neg]
  simp only [List.any_eq_true, not_exists, not_and]
  intro s hs
  have := hc s hs
  simpa using this

/-- **C57**, as the code decides it, for all sizes: the comparison is exact on the sizes rounded to
53 bits, and the only rates not compared are 0/0. -/
theorem C57_flagged_iff_rounded {o : Sample} {t : List Sample} (hc : HistoryComplete (o :: t))
    {i : Nat} {s : Sample} (hs : (o :: t)[i]? = some s) :
    ((samplesLog (o :: t))[i]?.map (·.high) = some true ↔
      (o.rssBytes ≠ 0 ∨ s.rssBytes ≠ 0) ∧
      2 * F64.roundNat o.rssBytes ≤ F64.roundNat s.rssBytes) := by
  rw [samplesLog_complete hc, List.getElem?_map, hs]
  simp only [Option.map_some, Option.some.injEq]
  rw [GoFloat.growthOf_high]
  have hz : ∀ n, F64.roundNat n = 0 ↔ n = 0 := by
    intro n
    by_cases hn : n < 2 ^ 53
    · rw [F64.roundNat_small hn]
    · have := F64.roundNat_mono (show 2 ^ 52 ≤ n by omega)
      rw [F64.roundNat_small (show 2 ^ 52 < 2 ^ 53 by omega)] at this
      omega
  have h1 := hz o.rssBytes
  have h2 := hz s.rssBytes
  constructor <;> rintro ⟨a, b⟩ <;> refine ⟨?_, b⟩ <;> omega

/-- **C57**, for every oldest size from one byte up to 4 PiB and every size of the other samples.
What is missing from the full statement: an oldest size of zero, and sizes beyond 2^52 bytes, where
`float64` cannot tell the sizes apart; both are violations below. -/
theorem C57_flagged_iff_doubled_partial {o : Sample} {t : List Sample} (hc : HistoryComplete (o :: t))
    (h0 : 0 < o.rssBytes) (h1 : o.rssBytes ≤ 2 ^ 52)
    {i : Nat} {s : Sample} (hs : (o :: t)[i]? = some s) :
    ((samplesLog (o :: t))[i]?.map (·.high) = some true ↔ 2 * o.rssBytes ≤ s.rssBytes) := by
  rw [C57_flagged_iff_rounded hc hs, F64.roundNat_small (a := o.rssBytes) (by omega)]
  constructor
  · rintro ⟨-, h⟩
    by_cases hs : s.rssBytes < 2 ^ 53
    · rwa [F64.roundNat_small hs] at h
    · omega
  · intro h
    refine ⟨by omega, ?_⟩
    by_cases hs : s.rssBytes < 2 ^ 53
    · rwa [F64.roundNat_small hs]
    · have := F64.roundNat_mono (show 2 ^ 52 * 2 ^ 1 ≤ s.rssBytes by omega)
      have h2 : F64.roundNat (2 ^ 52 * 2 ^ 1) = 2 ^ 52 * 2 ^ 1 := by decide +kernel
      omega

/-- The full statement of C57. -/
def FlaggedIffDoubled : Prop :=
  ∀ (o : Sample) (t : List Sample), HistoryComplete (o :: t) → ∀ (i : Nat) (s : Sample),
    (o :: t)[i]? = some s →
    ((samplesLog (o :: t))[i]?.map (·.high) = some true ↔ 2 * o.rssBytes ≤ s.rssBytes)

/-- **C57 is violated** by sizes that `float64` cannot represent: a sample one byte short of double
is flagged. -/
theorem C57_violated_by_rounding : ¬ FlaggedIffDoubled := by
  intro h
  have := (h ⟨1, 2 ^ 53⟩ [⟨1, 2 ^ 54 - 1⟩] (by unfold HistoryComplete; decide) 1 ⟨1, 2 ^ 54 - 1⟩ rfl).mp
    ((C57_flagged_iff_rounded (by unfold HistoryComplete; decide) rfl).mpr
      ⟨.inl (by decide), by decide +kernel⟩)
  exact absurd this (by decide)

/-- **C57 is violated** by an oldest size of zero: zero is (at least) twice zero, but 0/0 is not
compared. Harmless in practice. -/
theorem C57_violated_by_zero : ¬ FlaggedIffDoubled := by
  intro h
  have := (h ⟨1, 0⟩ [⟨1, 0⟩] (by unfold HistoryComplete; decide) 1 ⟨1, 0⟩ rfl).mpr (by decide)
  have := ((C57_flagged_iff_rounded (by unfold HistoryComplete; decide) rfl).mp this).1
  exact absurd this (by decide)

example : (samplesLog [⟨1, 100⟩, ⟨1, 199⟩, ⟨1, 200⟩, ⟨1, 50⟩, ⟨1, 1000⟩]).map (·.high) =
    [false, false, true, false, true] := by decide +kernel
example : (samplesLog [⟨1, 100⟩, ⟨0, 0⟩, ⟨1, 200⟩]).map (·.high) = [false, false, false] := by
  decide +kernel

/-! ## C67 -/

/-- A start: a full history, both goroutines between two rounds. -/
def StatsState.Start (s : StatsState) : Prop :=
  s.hist.length = 24 ∧ s.sampler = .idle ∧ s.logger = .idle

/-- The full statement of C67: the logger never indexes out of range. -/
def LoggerNeverPanics : Prop :=
  ∀ s : StatsState, s.Start → ∀ as, (statsRun s as).logger ≠ .panicked

/-- **C67 is violated**: the logger starts its loop with 24 samples, the sampler shortens the slice,
and the logger reads the sample that is no longer there. The process ends. -/
theorem C67_violated_logger_panics : ¬ LoggerNeverPanics := by
  intro h
  have := h { hist := List.replicate 24 ⟨1, 1⟩ } ⟨rfl, rfl, rfl⟩
    [.log, .log, .sample ⟨1, 2⟩, .sample ⟨1, 2⟩, .log]
  exact this (by decide +kernel)

/-- **C67 is violated** the other way around: the rates are allocated while the slice is short. -/
theorem C67_violated_rates_too_short : ¬ LoggerNeverPanics := by
  intro h
  have := h { hist := List.replicate 24 ⟨1, 1⟩ } ⟨rfl, rfl, rfl⟩
    ([.sample ⟨1, 2⟩, .sample ⟨1, 2⟩, .log, .sample ⟨1, 2⟩] ++ List.replicate 27 .log)
  exact this (by decide +kernel)

/-- The logger only moves while the sampler is between two appends. -/
def LogsBetweenAppends (s : StatsState) : List StatsAction → Prop
  | [] => True
  | a :: as => (a = .log → s.sampler = .idle) ∧ LogsBetweenAppends (statsStep s a) as

/-- The logger's loops stay inside both slices. -/
def LoggerFine : LoggerPc → Prop
  | .idle => True
  | .made n => n = 24
  | .scan n i => n = 24 ∧ i ≤ 24
  | .rate n i => n = 24 ∧ i ≤ 24
  | .high n i => n = 24 ∧ i ≤ 24
  | .panicked => False

/-- What holds throughout such a run. -/
def StatsInv (s : StatsState) : Prop :=
  LoggerFine s.logger ∧
  match s.sampler with
  | .idle => s.hist.length = 24
  | .zeroed _ => s.hist.length = 24
  | .shrunk _ => s.hist.length = 23

theorem StatsInv.step {s : StatsState} (h : StatsInv s) (a : StatsAction)
    (hcalm : a = .log → s.sampler = .idle) : StatsInv (statsStep s a) := by
  obtain ⟨hl, hs⟩ := h
  cases a with
  | sample x =>
    refine ⟨?_, ?_⟩
    · simp only [statsStep, samplerStep]
      split
      · split <;> exact hl
      · exact hl
      · exact hl
    · simp only [statsStep, samplerStep]
      cases hp : s.sampler <;> rw [hp] at hs <;> simp only at hs ⊢
      · rw [if_pos (by unfold historyMaxSamples; omega)]
        simp only [List.length_set]; exact hs
      · simp only [List.length_tail]; omega
      · simp only [List.length_append, List.length_cons, List.length_nil]; omega
  | log =>
    have hi := hcalm rfl
    rw [hi] at hs
    simp only at hs
    have key : LoggerFine (loggerStep s).logger ∧ (loggerStep s).sampler = s.sampler ∧
        (loggerStep s).hist = s.hist := by
      unfold loggerStep
      split <;> rename_i hp <;> rw [hp] at hl <;> simp only [LoggerFine] at hl
      · exact ⟨hs, rfl, rfl⟩
      · exact ⟨⟨hl, by omega⟩, rfl, rfl⟩
      · rename_i n i
        rw [List.getElem?_eq_getElem (by omega)]
        refine ⟨?_, rfl, rfl⟩
        simp only
        split
        · trivial
        · exact ⟨hl.1, by omega⟩
      · exact ⟨⟨hl.1, by omega⟩, rfl, rfl⟩
      · rw [if_pos (by omega)]
        exact ⟨⟨hl.1, by omega⟩, rfl, rfl⟩
      · exact ⟨⟨hl.1, by omega⟩, rfl, rfl⟩
      · rw [if_pos (by omega)]
        exact ⟨⟨hl.1, by omega⟩, rfl, rfl⟩
      · exact ⟨trivial, rfl, rfl⟩
    obtain ⟨k1, k2, k3⟩ := key
    refine ⟨k1, ?_⟩
    simp only [statsStep]
    rw [k2, k3, hi]
    exact hs

/-- **C67**, for runs in which the logger does not run while a sample is being appended. Missing from
the full statement: the interleavings inside `samples.append`, which do panic. -/
theorem C67_no_panic_between_appends_partial (s : StatsState) (h0 : s.Start) (as : List StatsAction)
    (hc : LogsBetweenAppends s as) : (statsRun s as).logger ≠ .panicked := by
  have hinv : StatsInv s := ⟨by rw [h0.2.2]; trivial, by rw [h0.2.1]; exact h0.1⟩
  clear h0
  induction as generalizing s with
  | nil =>
    intro h
    have := hinv.1
    rw [statsRun, List.foldl_nil] at h
    rw [h] at this
    exact this
  | cons a as ih => exact ih (statsStep s a) hc.2 (hinv.step a hc.1)

example : LogsBetweenAppends { hist := List.replicate 24 ⟨1, 1⟩ }
    [.sample ⟨1, 2⟩, .sample ⟨1, 2⟩, .sample ⟨1, 2⟩, .log, .log, .log, .sample ⟨1, 5⟩] := by
  simp only [LogsBetweenAppends]; decide +kernel

end J8a

import Verif.Lemmas.CertReport
import Verif.Model.StatsLog
import Verif.Props.Stats
/-!
# C144, C145 — what the statistics say is true, and taking them does no harm
-/
namespace J8a
open Go

/-! ## C144: uptime -/

/-- A text tells a length of time `d` (in nanoseconds), cut off to the largest unit that fits into it. -/
def ToldByLargestUnit (s : Str) (d : Nat) : Prop :=
  ∃ n size, Span.read s = some (false, [(n, size)]) ∧ n ≠ 0 ∧ n * size ≤ d ∧ d < n * size + size ∧
    (∃ u, (u, size) ∈ Span.units) ∧ ∀ u ∈ Span.units, u.2 ≤ d → u.2 ≤ size

/-- **C144.** Every line about the uptime is true: it is written by a server up for more than ten seconds, has the uptime in
microseconds, cut off, and in words, cut off to the largest unit; every round of the loop from then on writes one. -/
theorem C144_uptime_true (start : Int) (wakes : List Int)
    (hw : ∀ t ∈ wakes, start ≤ t ∧ t - start ≤ maxInt64) :
    (∀ t e, (t, e) ∈ logUptime start wakes → t ∈ wakes ∧ 10 * 10 ^ 9 < t - start ∧
      ∃ micros span, e = ⟨.debug, [("uptimeMicros".toList, .int micros)], "server uptime is ".toList ++ span⟩ ∧
        micros * 1000 ≤ t - start ∧ t - start < micros * 1000 + 1000 ∧ ToldByLargestUnit span (t - start).toNat) ∧
    (∀ t ∈ wakes, 10 * 10 ^ 9 < t - start → ∃ e, (t, e) ∈ logUptime start wakes) := by
  have hfit : ∀ t ∈ wakes, timeUntil t start = t - start := by
    intro t ht
    obtain ⟨h1, h2⟩ := hw t ht
    exact timeUntil_fits (by unfold minInt64; omega) h2
  constructor
  · intro t e he
    obtain ⟨t', ht', he⟩ := List.mem_filterMap.1 he
    rw [hfit t' ht'] at he
    unfold uptimeLine at he
    split at he
    · rename_i hgt
      simp only [Option.map_some, Option.some.injEq, Prod.mk.injEq] at he
      obtain ⟨rfl, rfl⟩ := he
      have hd : (t' - start).tdiv 1000 = (t' - start) / 1000 := Int.tdiv_eq_ediv_of_nonneg (by omega)
      refine ⟨ht', by omega, _, _, rfl, ?_, ?_, ?_⟩
      · rw [hd]; omega
      · rw [hd]; omega
      · exact durafmt_one (by omega)
    · cases he
  · intro t ht hgt
    obtain ⟨e, he⟩ : ∃ e, uptimeLine (t - start) = some e := by
      unfold uptimeLine
      rw [if_pos (by omega)]
      exact ⟨_, rfl⟩
    exact ⟨e, List.mem_filterMap.2 ⟨t, ht, by rw [hfit t ht, he]; rfl⟩⟩

/-- The rounds of a loop that sleeps a day after each. -/
def SleepsADay : List Int → Prop
  | t :: t' :: ts => t + 24 * 3600 * 10 ^ 9 ≤ t' ∧ SleepsADay (t' :: ts)
  | _ => True

theorem SleepsADay.le {t : Int} {ts : List Int} (h : SleepsADay (t :: ts)) : ∀ t' ∈ ts, t + 24 * 3600 * 10 ^ 9 ≤ t' := by
  induction ts generalizing t with
  | nil => intro t' ht; cases ht
  | cons a ts ih =>
    intro t' ht
    rcases List.mem_cons.1 ht with rfl | ht
    · exact h.1
    · have := ih h.2 t' ht
      have := h.1
      omega

/-- C144 fails on the first day: the first round comes too early to write anything, and the next one is a day later. A server
that is restarted every day never tells its uptime. -/
theorem C144_violated_first_day (start t : Int) (later : List Int) (hs : SleepsADay (t :: later)) (h0 : start ≤ t)
    (h1 : t ≤ start + 10 * 10 ^ 9) : ∀ p ∈ logUptime start (t :: later), start + 24 * 3600 * 10 ^ 9 ≤ p.1 := by
  intro p hp
  obtain ⟨t', ht', he⟩ := List.mem_filterMap.1 hp
  have hp1 : p.1 = t' := by
    cases hu : uptimeLine (timeUntil t' start) with
    | none => rw [hu] at he; cases he
    | some e => rw [hu] at he; cases he; rfl
  rw [hp1]
  rcases List.mem_cons.1 ht' with rfl | ht'
  · have hfit : timeUntil t' start = t' - start := timeUntil_fits (by unfold minInt64; omega) (by unfold maxInt64; omega)
    rw [hfit] at he
    unfold uptimeLine at he
    rw [if_neg (by omega)] at he
    cases he
  · have := hs.le t' ht'
    omega

/-- A server started at noon, its loop woken a microsecond later, and a day and two hours later. -/
example : logUptime (12 * 3600 * 10 ^ 9) [12 * 3600 * 10 ^ 9 + 1000, 38 * 3600 * 10 ^ 9] =
    [(38 * 3600 * 10 ^ 9, ⟨.debug, [("uptimeMicros".toList, .int (26 * 3600 * 10 ^ 6))],
      "server uptime is 1 day".toList⟩)] := by decide +kernel

example : SleepsADay [12 * 3600 * 10 ^ 9 + 1000, 38 * 3600 * 10 ^ 9] := by unfold SleepsADay SleepsADay; decide

/-! ## C144: memory -/

/-- What the line about memory says. -/
theorem growthMsg_text : growthMsg =
    "RSS memory increase for previous 1 day with high factor >=2.0, monitor actively.".toList := by decide +kernel

/-- What the line says is true of the samples: the newest one is at least twice the oldest one. -/
def NewestDoubled (h : List Sample) : Prop :=
  ∃ oldest newest, h.head? = some oldest ∧ h.getLast? = some newest ∧ 2 * oldest.rssBytes ≤ newest.rssBytes

theorem growthLine_iff {o : Sample} {t : List Sample} (hc : HistoryComplete (o :: t)) (h0 : 0 < o.rssBytes)
    (h1 : o.rssBytes ≤ 2 ^ 52) :
    (growthLine (o :: t)).isSome ↔ ∃ s ∈ o :: t, 2 * o.rssBytes ≤ s.rssBytes := by
  have hany : (samplesLog (o :: t)).any (·.high) = true ↔ ∃ s ∈ o :: t, 2 * o.rssBytes ≤ s.rssBytes := by
    constructor
    · intro h
      obtain ⟨g, hg, hh⟩ := List.any_eq_true.1 h
      obtain ⟨i, hi⟩ := List.mem_iff_getElem?.1 hg
      have hlen := C57_one_rate_per_sample (o :: t)
      have hlt : i < (samplesLog (o :: t)).length := (List.getElem?_eq_some_iff.1 hi).1
      have hs : (o :: t)[i]? = some ((o :: t)[i]'(by omega)) := List.getElem?_eq_getElem (by omega)
      have := (C57_flagged_iff_doubled_partial hc h0 h1 hs).1 (by rw [hi]; simp [hh])
      exact ⟨_, List.getElem_mem _, this⟩
    · rintro ⟨s, hs, hd⟩
      obtain ⟨i, hi⟩ := List.mem_iff_getElem?.1 hs
      have := (C57_flagged_iff_doubled_partial hc h0 h1 hi).2 hd
      cases hg : (samplesLog (o :: t))[i]? with
      | none => rw [hg] at this; cases this
      | some g =>
        rw [hg] at this
        exact List.any_eq_true.2 ⟨g, List.mem_iff_getElem?.2 ⟨i, hg⟩, by simpa using this⟩
  unfold growthLine
  rw [← hany]
  split <;> simp_all

/-- **C144.** From the 24th appended sample on the line about memory is written exactly if one of the last 24 samples is at
least twice the oldest one of them. Missing: that it is the newest one, that the samples span a day, and what is written before
(violations below); sizes of zero and beyond 4 PiB (C57). -/
theorem C144_growth_partial (lazy : Sample) (xs : List (Nat × Sample)) (h : 24 ≤ xs.length)
    (hpid : ∀ p ∈ xs, p.2.pid ≠ 0) (hmem : ∀ p ∈ xs, 0 < p.2.rssBytes ∧ p.2.rssBytes ≤ 2 ^ 52) :
    ∃ s o t, sampleHistory lazy xs = some s ∧ lastN 24 (xs.map Prod.snd) = o :: t ∧
      (growthLine s.view = some ⟨.debug, [],
          "RSS memory increase for previous 1 day with high factor >=2.0, monitor actively.".toList⟩ ∨
        growthLine s.view = none) ∧
      ((growthLine s.view).isSome ↔ ∃ x ∈ o :: t, 2 * o.rssBytes ≤ x.rssBytes) := by
  obtain ⟨s, hs, hv⟩ := C56_fill_forgotten lazy xs h
  have hsub : ∀ x ∈ lastN 24 (xs.map Prod.snd), ∃ p ∈ xs, p.2 = x := by
    intro x hx
    exact List.mem_map.1 (List.mem_of_mem_drop hx)
  cases hl : lastN 24 (xs.map Prod.snd) with
  | nil =>
    have : (lastN 24 (xs.map Prod.snd)).length = 24 := by
      simp only [lastN, List.length_drop, List.length_map]; omega
    rw [hl] at this
    cases this
  | cons o t =>
    rw [hl] at hsub
    refine ⟨s, o, t, hs, rfl, ?_, ?_⟩
    · unfold growthLine
      rw [growthMsg_text]
      split
      · exact .inl rfl
      · exact .inr rfl
    · rw [hv, hl]
      obtain ⟨p, hp, rfl⟩ := hsub o List.mem_cons_self
      apply growthLine_iff _ (hmem p hp).1 (hmem p hp).2
      intro x hx
      obtain ⟨q, hq, rfl⟩ := hsub x hx
      exact hpid q hq

/-- The statement of C144 about memory: there is a line exactly if the newest sample is at least twice the oldest one. -/
def GrowthTrue : Prop := ∀ (lazy : Sample) (xs : List (Nat × Sample)) (s : Slice Sample), 24 ≤ xs.length →
  (∀ p ∈ xs, p.2.pid ≠ 0 ∧ 0 < p.2.rssBytes ∧ p.2.rssBytes ≤ 2 ^ 52) → sampleHistory lazy xs = some s →
  ((growthLine s.view).isSome ↔ NewestDoubled s.view)

/-- C144 fails for memory that was given back: the line is written for a peak in the middle of the day, again every hour, though
there is no more in use than the day before. -/
theorem C144_violated_fallen : ¬ GrowthTrue := by
  intro h
  let xs : List (Nat × Sample) := (0, ⟨1, 100⟩) :: (0, ⟨1, 200⟩) :: List.replicate 22 (0, ⟨1, 100⟩)
  obtain ⟨s, hs, hv⟩ := C56_fill_forgotten ⟨1, 100⟩ xs (by decide)
  have := (h ⟨1, 100⟩ xs s (by decide) (by decide) hs).1 (by
    rw [hv]
    refine (growthLine_iff (o := ⟨1, 100⟩) (t := ⟨1, 200⟩ :: List.replicate 22 ⟨1, 100⟩) ?_ (by decide) (by decide)).2
      ⟨⟨1, 200⟩, by simp, by decide⟩
    unfold HistoryComplete
    decide)
  rw [hv] at this
  obtain ⟨o, n, ho, hn, hle⟩ := this
  have e1 : o = ⟨1, 100⟩ := by
    have : (lastN 24 (xs.map Prod.snd)).head? = some ⟨1, 100⟩ := by decide
    rw [this] at ho
    exact (Option.some.inj ho).symm
  have e2 : n = ⟨1, 100⟩ := by
    have : (lastN 24 (xs.map Prod.snd)).getLast? = some ⟨1, 100⟩ := by decide
    rw [this] at hn
    exact (Option.some.inj hn).symm
  rw [e1, e2] at hle
  exact absurd hle (by decide)

/-- C144 fails soon after the start: two samples, one taken right after the other, make the server report an increase for the
previous day. -/
theorem C144_violated_early (g : Nat) (first next : Sample) (h1 : first.pid ≠ 0) (h2 : next.pid ≠ 0)
    (h0 : 0 < first.rssBytes) (hb : first.rssBytes ≤ 2 ^ 52) (hd : 2 * first.rssBytes ≤ next.rssBytes) :
    ∃ s, sampleHistory first [(g, next)] = some s ∧ growthLine s.view = some ⟨.debug, [],
      "RSS memory increase for previous 1 day with high factor >=2.0, monitor actively.".toList⟩ := by
  obtain ⟨s, hs, hv⟩ := C56_history_is_last_24 first [(g, next)]
  refine ⟨s, hs, ?_⟩
  have hv' : s.view = first :: (List.replicate 22 first ++ [next]) := hv
  have hsome := (growthLine_iff (o := first) (t := List.replicate 22 first ++ [next]) (by
    intro x hx
    rcases List.mem_cons.1 hx with rfl | hx
    · exact h1
    · rcases List.mem_append.1 hx with hx | hx
      · rw [(List.mem_replicate.1 hx).2]; exact h1
      · rw [List.mem_singleton.1 hx]; exact h2) h0 hb).2 ⟨next, by simp, hd⟩
  rw [hv']
  unfold growthLine at hsome ⊢
  rw [growthMsg_text]
  split
  · rfl
  · rename_i hn
    rw [if_neg hn] at hsome
    cases hsome

/-- Samples taken an hour apart, or up to `late` more. -/
def TakenHourly (late : Int) : List Int → Prop
  | t :: t' :: ts => t + 3600 * 10 ^ 9 ≤ t' ∧ t' ≤ t + 3600 * 10 ^ 9 + late ∧ TakenHourly late (t' :: ts)
  | _ => True

theorem TakenHourly.span {late : Int} : ∀ {ts : List Int} {t : Int}, TakenHourly late (t :: ts) → ∀ {t' : Int},
    (t :: ts).getLast? = some t' →
    t + ts.length * (3600 * 10 ^ 9) ≤ t' ∧ t' ≤ t + ts.length * (3600 * 10 ^ 9 + late)
  | [], t, _, t', h => by
    cases h
    simp
  | a :: ts, t, h, t', hl => by
    have ih := TakenHourly.span (ts := ts) (t := a) h.2.2 (t' := t') (by simpa using hl)
    have h1 := h.1
    have h2 := h.2.1
    simp only [List.length_cons, Int.natCast_add, Int.natCast_one, Int.add_mul, Int.one_mul]
    omega

/-- C144 fails for the day: the samples that are compared lie 23 hours apart, and never a day unless a sample is more than two and
a half minutes late. -/
theorem C144_violated_span (late : Int) (hl : late ≤ 150 * 10 ^ 9) (ts : List Int) (h24 : ts.length = 24)
    (h : TakenHourly late ts) (oldest newest : Int) (ho : ts.head? = some oldest) (hn : ts.getLast? = some newest) :
    23 * 3600 * 10 ^ 9 ≤ newest - oldest ∧ newest - oldest < 24 * 3600 * 10 ^ 9 := by
  cases ts with
  | nil => cases ho
  | cons t ts =>
    cases ho
    have := h.span hn
    have hlen : ts.length = 23 := by simpa using h24
    rw [hlen] at this
    omega

example : TakenHourly (2 * 10 ^ 9) ((List.range 24).map fun i : Nat => (i : Int) * (3602 * 10 ^ 9)) := by
  simp only [List.range, List.range.loop, List.map]
  unfold TakenHourly
  repeat (first | trivial | refine ⟨by decide, by decide, ?_⟩ | unfold TakenHourly)

/-! ## C145 -/

/-- **C145**, while the process can be read: whatever is read, and however often, the history is kept. Missing: readings that
fail, see the violations. The race of C67 is apart from this. -/
theorem C145_readings_kept_partial (pid : Int) (first : Nat) (later : List (Nat × Nat)) :
    ∃ s, historyOfReadings (some pid) (some first) (later.map fun p => (p.1, some p.2)) = some s ∧
      s.view = lastN 24 (List.replicate 24 ⟨pid, first⟩ ++ later.map fun p => ⟨pid, p.2⟩) := by
  have hm : (later.map fun p => (p.1, some p.2)).mapM (m := Option)
      (fun p => (getSample (some pid) p.2).map fun s => (p.1, s)) = some (later.map fun p => (p.1, ⟨pid, p.2⟩)) := by
    induction later with
    | nil => rfl
    | cons p l ih =>
      rw [List.map_cons, List.mapM_cons, ih]
      rfl
  obtain ⟨s, hs, hv⟩ := C56_history_is_last_24 ⟨pid, first⟩ (later.map fun p => (p.1, ⟨pid, p.2⟩))
  refine ⟨s, ?_, ?_⟩
  · unfold historyOfReadings
    rw [hm]
    exact hs
  · rw [hv, List.map_map]
    rfl

/-- The statement of C145: no reading ends the process. -/
def ReadingsHarmless : Prop := ∀ proc first later, historyOfReadings proc first later ≠ none

/-- C145 fails for every reading of the memory that fails: its error is dropped, and the missing result ends the process,
whatever was read before. -/
theorem C145_violated_reading (proc : Option Int) (first : Option Nat) (before after : List (Nat × Option Nat)) (g : Nat) :
    historyOfReadings proc first (before ++ (g, none) :: after) = none := by
  have hm : (before ++ (g, none) :: after).mapM (m := Option)
      (fun p => (getSample proc p.2).map fun s => (p.1, s)) = none := by
    induction before with
    | nil =>
      rw [List.nil_append, List.mapM_cons]
      cases proc <;> rfl
    | cons p l ih =>
      rw [List.cons_append, List.mapM_cons, ih]
      cases getSample proc p.2 <;> rfl
  unfold historyOfReadings
  rw [hm]
  cases getSample proc first <;> rfl

/-- C145 fails if the process cannot be found at the start. -/
theorem C145_violated_process (first : Option Nat) (later : List (Nat × Option Nat)) :
    historyOfReadings none first later = none := rfl

theorem C145_violated : ¬ ReadingsHarmless := fun h => h none none [] rfl

example : (historyOfReadings (some 7) (some 100) [(0, some 200), (1, some 300)]).map (fun s => s.view.map (·.rssBytes)) =
    some (List.replicate 22 100 ++ [200, 300]) := by decide +kernel

end J8a

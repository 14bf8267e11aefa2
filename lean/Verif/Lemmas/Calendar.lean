import Verif.Go.Time
import Verif.Spec.Calendar
import Verif.Lemmas.Num
/-!
# Package time computes the Gregorian calendar
-/
namespace J8a.Calendar
open Go

theorem days_closed (n : Nat) : daysBeforeYear (n + 1) + n / 100 = 365 * n + n / 4 + n / 400 := by
  induction n with
  | zero => rfl
  | succ n ih =>
    show daysBeforeYear (n + 1) + yearLength (n + 1) + (n + 1) / 100 = _
    by_cases hl : Leap (n + 1)
    · rw [yearLength, if_pos hl]
      unfold Leap at hl
      omega
    · rw [yearLength, if_neg hl]
      unfold Leap at hl
      omega

theorem yearDay_shift (days k : Nat) :
    yearDay (days + 146097 * k) = ((yearDay days).1 + 400 * k, (yearDay days).2) := by
  unfold yearDay
  have h1 : (days + 146097 * k) / 146097 = days / 146097 + k := by omega
  have h2 : days + 146097 * k - 146097 * (days / 146097 + k) = days - 146097 * (days / 146097) := by omega
  simp only [h1, h2, Prod.mk.injEq, and_true]
  omega

theorem yearDay_spec (days : Nat) : daysBeforeYear ((yearDay days).1 + 1) + (yearDay days).2 = days ∧
    (yearDay days).2 < yearLength ((yearDay days).1 + 1) := by
  have hc := days_closed (yearDay days).1
  unfold yearDay at hc ⊢
  dsimp only at hc ⊢
  generalize hn : days / 146097 = n at hc ⊢
  generalize hd : days - 146097 * n = d at hc ⊢
  have hd' : d < 146097 := by omega
  generalize hn1 : d / 36524 - d / 36524 / 4 = n1 at hc ⊢
  have b1 : n1 ≤ 3 ∧ 36524 * n1 ≤ d ∧ (n1 < 3 → d < 36524 * (n1 + 1)) := by omega
  generalize hd1 : d - 36524 * n1 = d1 at hc ⊢
  have b1' : d1 ≤ 36524 ∧ (n1 < 3 → d1 < 36524) := by omega
  generalize hn4 : d1 / 1461 = n4 at hc ⊢
  have b4 : n4 ≤ 24 := by omega
  generalize hd4 : d1 - 1461 * n4 = d4 at hc ⊢
  have b4' : d4 < 1461 ∧ (n4 = 24 → n1 < 3 → d4 < 1460) := by omega
  generalize hny : d4 / 365 - d4 / 365 / 4 = ny at hc ⊢
  have by' : ny ≤ 3 ∧ 365 * ny ≤ d4 ∧ (ny < 3 → d4 < 365 * (ny + 1)) := by omega
  have y4 : (400 * n + 100 * n1 + 4 * n4 + ny) / 4 = 100 * n + 25 * n1 + n4 := by omega
  have y100 : (400 * n + 100 * n1 + 4 * n4 + ny) / 100 = 4 * n + n1 := by omega
  have y400 : (400 * n + 100 * n1 + 4 * n4 + ny) / 400 = n := by omega
  rw [y4, y100, y400] at hc
  refine ⟨by omega, ?_⟩
  by_cases hl : Leap (400 * n + 100 * n1 + 4 * n4 + ny + 1)
  · rw [yearLength, if_pos hl]
    omega
  · rw [yearLength, if_neg hl]
    by_cases h3 : ny = 3
    · have h4 : 4 ∣ 400 * n + 100 * n1 + 4 * n4 + ny + 1 := by omega
      have h100 : 100 ∣ 400 * n + 100 * n1 + 4 * n4 + ny + 1 := by
        apply Classical.byContradiction
        intro hx
        exact hl ⟨h4, .inl hx⟩
      have h24 : n4 = 24 := by omega
      have h400 : ¬ 400 ∣ 400 * n + 100 * n1 + 4 * n4 + ny + 1 := fun hx => hl ⟨h4, .inr hx⟩
      have : n1 < 3 := by omega
      omega
    · omega

/-- The lengths of the months by the length of the year. -/
def lengthsOf (leap : Bool) : List Nat := [31, if leap then 29 else 28, 31, 30, 31, 30, 31, 31, 30, 31, 30, 31]

theorem monthDay_spec : ∀ leap : Bool, ∀ yd < (if leap then 366 else 365), 1 ≤ (monthDay leap yd).1 ∧
    (monthDay leap yd).1 ≤ 12 ∧ 1 ≤ (monthDay leap yd).2 ∧
    (monthDay leap yd).2 ≤ (lengthsOf leap).getD ((monthDay leap yd).1 - 1) 0 ∧
    ((lengthsOf leap).take ((monthDay leap yd).1 - 1)).sum + ((monthDay leap yd).2 - 1) = yd := by
  decide +kernel

theorem isLeap_iff (y : Nat) : isLeap (y : Int) = decide (Leap y) := by
  have h : isLeap (y : Int) = true ↔ Leap y := by
    unfold isLeap Leap
    simp only [Bool.and_eq_true, Bool.or_eq_true, decide_eq_true_eq]
    omega
  rw [Bool.eq_iff_iff, h, decide_eq_true_iff]

theorem monthLengths_eq (y : Nat) : monthLengths y = lengthsOf (decide (Leap y)) := by
  unfold monthLengths lengthsOf
  simp

/-- Seconds from 1 January of the year 1 to the epoch. -/
def toEpoch : Int := 719162 * 86400

theorem epoch_number : epoch.number = 719162 := by
  have := days_closed 1969
  simp only [Nat.reduceAdd, Nat.reduceMul, Nat.reduceDiv] at this
  unfold epoch Date.number
  simp only [Nat.sub_self, List.take_zero, List.sum_nil, Nat.add_zero]
  omega

theorem absOf_eq {unix offset : Int} {n : Nat} (h : unix + offset + toEpoch = n) (h1 : unix + offset < 2 ^ 62) :
    absOf unix offset = n + 730692556 * 146097 * 86400 := by
  unfold absOf
  have : unix + offset + unixToAbsolute = ((n + 730692556 * 146097 * 86400 : Nat) : Int) := by
    unfold unixToAbsolute toEpoch at *
    omega
  rw [this]
  unfold toEpoch at h
  omega

/-- The date that package time computes is the one of the calendar with the number of the day. -/
theorem absDate_spec {unix offset : Int} {n : Nat} (h : unix + offset + toEpoch = n) (h1 : unix + offset < 2 ^ 62) :
    ∃ d : Date, d.Valid ∧ d.number = n / 86400 ∧ absDate (absOf unix offset) = ((d.year : Int), d.month, d.day) := by
  obtain ⟨e1, e2⟩ := yearDay_spec (n / 86400)
  have hy : yearDay (absOf unix offset / 86400) =
      ((yearDay (n / 86400)).1 + 400 * 730692556, (yearDay (n / 86400)).2) := by
    rw [absOf_eq h h1, ← yearDay_shift]
    congr 1
    omega
  generalize yearDay (n / 86400) = p at e1 e2 hy
  obtain ⟨y, yd⟩ := p
  dsimp only at e1 e2 hy
  have hm := monthDay_spec (decide (Leap (y + 1))) yd (by
    unfold yearLength at e2
    simpa using e2)
  have hyear : (((y + 400 * 730692556 : Nat) : Int) - 292277022399) = ((y + 1 : Nat) : Int) := by omega
  refine ⟨⟨y + 1, (monthDay (decide (Leap (y + 1))) yd).1, (monthDay (decide (Leap (y + 1))) yd).2⟩, ?_, ?_, ?_⟩
  · refine ⟨by dsimp only; omega, hm.1, hm.2.1, hm.2.2.1, ?_⟩
    dsimp only
    rw [monthLengths_eq]
    exact hm.2.2.2.1
  · show daysBeforeYear (y + 1) + ((monthLengths (y + 1)).take _).sum + _ = _
    rw [monthLengths_eq, Nat.add_assoc, hm.2.2.2.2]
    exact e1
  · unfold absDate
    dsimp only
    rw [hy]
    dsimp only
    rw [hyear, isLeap_iff]

theorem absClock_spec {unix offset : Int} {n : Nat} (h : unix + offset + toEpoch = n) (h1 : unix + offset < 2 ^ 62) :
    absClock (absOf unix offset) = (n % 86400 / 3600, n % 3600 / 60, n % 60) := by
  unfold absClock
  rw [absOf_eq h h1]
  simp only [Prod.mk.injEq]
  omega

theorem absWeekday_spec {unix offset : Int} {n : Nat} (h : unix + offset + toEpoch = n) (h1 : unix + offset < 2 ^ 62) :
    absWeekday (absOf unix offset) = (n / 86400 + 1) % 7 := by
  unfold absWeekday
  rw [absOf_eq h h1]
  omega

theorem digitsVal_zeros (k : Nat) (s : Str) : digitsVal (List.replicate k '0' ++ s) = digitsVal s := by
  unfold digitsVal
  rw [List.foldl_append]
  congr 1
  induction k with
  | zero => rfl
  | succ k ih => rw [List.replicate_succ, List.foldl_cons]; exact ih

theorem number_appendInt {n w : Nat} (hw : 0 < w) (h : n < 10 ^ w) (s : Str) :
    number w (appendInt (n : Int) w ++ s) = some (n, s) := by
  have he : appendInt (n : Int) w = List.replicate (w - (natToDec n).length) '0' ++ natToDec n := by
    unfold appendInt
    rw [if_neg (by omega)]
    rfl
  have hl : (natToDec n).length ≤ w := (Nat.length_toDigits_le_iff (by decide) hw).2 h
  have hlen : (appendInt (n : Int) w).length = w := by
    rw [he, List.length_append, List.length_replicate]
    omega
  have hall : (appendInt (n : Int) w).all Char.isDigit = true := by
    rw [he, List.all_append, Bool.and_eq_true]
    refine ⟨?_, List.all_eq_true.2 fun c hc => natToDec_isDigit hc⟩
    rw [List.all_eq_true]
    intro c hc
    rw [(List.mem_replicate.1 hc).2]
    decide
  unfold number
  rw [List.take_append_of_le_length (by omega), List.take_of_length_le (by omega),
    List.drop_append_of_le_length (by omega), List.drop_of_length_le (by omega), if_pos ⟨hlen, hall⟩, he,
    digitsVal_zeros, digitsVal_natToDec, List.nil_append]

theorem valid_small {d : Date} (h : d.Valid) : d.month ≤ 12 ∧ d.day ≤ 31 := by
  obtain ⟨-, h1, h2, -, h3⟩ := h
  refine ⟨h2, ?_⟩
  have : ∀ b : Bool, ∀ m ≤ 12, (lengthsOf b).getD (m - 1) 0 ≤ 31 := by decide
  rw [monthLengths_eq] at h3
  exact Nat.le_trans h3 (this _ _ h2)

theorem valid_year {d : Date} (h : d.Valid) (hn : d.number < 3652059) : d.year ≤ 9999 := by
  obtain ⟨y, m, e⟩ := d
  have h1 : 1 ≤ y := h.1
  show y ≤ 9999
  have h2 : daysBeforeYear y ≤ Date.number ⟨y, m, e⟩ := by
    unfold Date.number
    exact Nat.le_trans (Nat.le_add_right _ _) (Nat.le_add_right _ _)
  have := days_closed (y - 1)
  rw [show y - 1 + 1 = y by omega] at this
  omega

/-- The last second of the year 9999, from the year 1 on. -/
def lastSecond : Nat := 3652059 * 86400 - 1

theorem readDate_format {unix offset : Int} {n : Nat} (h : unix + offset + toEpoch = n) (h1 : n ≤ lastSecond) :
    ∃ d : Date, d.Valid ∧ d.number = n / 86400 ∧
      ∀ s, readDate (formatDate (absOf unix offset) ++ s) = some (d, s) := by
  unfold lastSecond at h1
  have h62 : unix + offset < 2 ^ 62 := by
    unfold toEpoch at h
    omega
  obtain ⟨d, hv, hn, hd⟩ := absDate_spec h h62
  refine ⟨d, hv, hn, fun s => ?_⟩
  have hy := valid_year hv (by omega)
  obtain ⟨hm, hday⟩ := valid_small hv
  unfold formatDate
  rw [hd]
  dsimp only
  unfold readDate
  rw [List.append_assoc, List.cons_append, List.append_assoc, List.cons_append,
    number_appendInt (by decide) (by omega)]
  simp only [Option.bind_eq_bind, Option.bind_some, lit, if_true]
  rw [number_appendInt (by decide) (by omega)]
  simp only [Option.bind_some, if_true]
  rw [number_appendInt (by decide) (by omega)]
  simp only [Option.bind_some]
  rw [if_pos hv]

theorem readClock_format {h m t : Nat} (h1 : h ≤ 23) (h2 : m ≤ 59) (h3 : t ≤ 59) (s : Str) :
    readClock (appendInt h 2 ++ ':' :: appendInt m 2 ++ ':' :: appendInt t 2 ++ s) = some ((h, m, t), s) := by
  unfold readClock
  simp only [List.append_assoc, List.cons_append]
  rw [number_appendInt (by decide) (by omega)]
  simp only [Option.bind_eq_bind, Option.bind_some, lit, if_true]
  rw [number_appendInt (by decide) (by omega)]
  simp only [Option.bind_some, if_true]
  rw [number_appendInt (by decide) (by omega)]
  simp only [Option.bind_some]
  rw [if_pos ⟨h1, h2, h3⟩]

theorem readZone_format {offset : Int} (h : offset % 60 = 0) (h1 : -86400 < offset) (h2 : offset < 86400) :
    readZone (formatZone offset) = some (offset / 60) := by
  unfold formatZone
  by_cases h0 : offset = 0
  · rw [if_pos h0, h0]
    rfl
  rw [if_neg h0]
  dsimp only
  have ht : offset.tdiv 60 = offset / 60 := Int.tdiv_eq_ediv_of_dvd (Int.dvd_of_emod_eq_zero h)
  rw [ht]
  have ha : (offset / 60).natAbs < 1440 := by omega
  have e1 : (number 2 (appendInt ((offset / 60).natAbs / 60 : Nat) 2 ++ ':' :: appendInt ((offset / 60).natAbs % 60 : Nat) 2))
      = some ((offset / 60).natAbs / 60, ':' :: appendInt ((offset / 60).natAbs % 60 : Nat) 2) :=
    number_appendInt (by decide) (by omega) _
  have e2 : number 2 (appendInt ((offset / 60).natAbs % 60 : Nat) 2) = some ((offset / 60).natAbs % 60, []) := by
    have := number_appendInt (n := (offset / 60).natAbs % 60) (w := 2) (by decide) (by omega) []
    rwa [List.append_nil] at this
  split
  · show readZone ('-' :: (appendInt _ 2 ++ ':' :: appendInt _ 2)) = _
    unfold readZone
    simp only [Option.bind_eq_bind]
    rw [e1]
    simp only [Option.bind_some, lit, if_true]
    rw [e2]
    simp only [Option.bind_some]
    rw [if_pos ⟨trivial, by omega, by omega⟩]
    congr 1
    omega
  · show readZone ('+' :: (appendInt _ 2 ++ ':' :: appendInt _ 2)) = _
    unfold readZone
    simp only [Option.bind_eq_bind]
    rw [e1]
    simp only [Option.bind_some, lit, if_true]
    rw [e2]
    simp only [Option.bind_some]
    rw [if_pos ⟨trivial, by omega, by omega⟩]
    congr 1
    omega

theorem instant_of {d : Date} {unix offset : Int} {n : Nat} (h : unix + offset + toEpoch = n)
    (hd : d.number = n / 86400) (ho : offset % 60 = 0) :
    instant d (n % 86400 / 3600) (n % 3600 / 60) (n % 60) (offset / 60) = unix := by
  unfold instant toEpoch at *
  rw [epoch_number, hd]
  omega

/-- A text of the layout RFC 3339 stands for the instant it was made from, from the year 1 to the year 9999 in zones of
whole minutes. -/
theorem readRFC3339_format {unix offset : Int} (h0 : 0 ≤ unix + offset + toEpoch)
    (h1 : unix + offset + toEpoch ≤ lastSecond) (hz : offset % 60 = 0) (hz1 : -86400 < offset) (hz2 : offset < 86400) :
    readRFC3339 (formatRFC3339 unix offset) = some unix := by
  obtain ⟨n, hn⟩ := Int.eq_ofNat_of_zero_le h0
  have hle : n ≤ lastSecond := by omega
  have h62 : unix + offset < 2 ^ 62 := by
    unfold toEpoch at hn
    unfold lastSecond at hle
    omega
  obtain ⟨d, hv, hd, hr⟩ := readDate_format hn hle
  unfold readRFC3339 formatRFC3339
  rw [absClock_spec hn h62]
  dsimp only
  rw [List.append_assoc, List.append_assoc, List.append_assoc, hr]
  simp only [Option.bind_eq_bind, Option.bind_some, List.cons_append, lit, if_true]
  have hc := readClock_format (h := n % 86400 / 3600) (m := n % 3600 / 60) (t := n % 60) (by omega) (by omega) (by omega)
    (formatZone offset)
  simp only [List.cons_append, List.append_assoc] at hc
  rw [hc]
  simp only [Option.bind_some]
  rw [readZone_format hz hz1 hz2]
  simp only [Option.bind_some]
  rw [instant_of hn hd hz]

/-! ## HTTP dates -/

theorem digitByte_spec : ∀ k < 10, (digitByte ((k : Nat) : Int)).isDigit = true ∧ (digitByte ((k : Nat) : Int)).toNat - 48 = k := by
  decide

theorem number_two {n : Nat} (h : n < 100) (s : Str) :
    number 2 ([digitByte (n / 10 : Nat), digitByte (n % 10 : Nat)] ++ s) = some (n, s) := by
  obtain ⟨a1, a2⟩ := digitByte_spec (n / 10) (by omega)
  obtain ⟨b1, b2⟩ := digitByte_spec (n % 10) (by omega)
  unfold number
  simp only [List.cons_append, List.nil_append, List.take_succ_cons, List.take_zero, List.length_cons, List.length_nil,
    List.all_cons, List.all_nil, a1, b1, List.drop_succ_cons, List.drop_zero, digitsVal, List.foldl_cons, List.foldl_nil,
    a2, b2]
  rw [if_pos ⟨trivial, rfl⟩]
  congr 2
  omega

theorem number_four {n : Nat} (h : n < 10000) (s : Str) :
    number 4 ([digitByte ((n : Int) / 1000), digitByte ((n : Int) / 100 % 10), digitByte ((n : Int) / 10 % 10),
      digitByte ((n : Int) % 10)] ++ s) = some (n, s) := by
  obtain ⟨a1, a2⟩ := digitByte_spec (n / 1000) (by omega)
  obtain ⟨b1, b2⟩ := digitByte_spec (n / 100 % 10) (by omega)
  obtain ⟨c1, c2⟩ := digitByte_spec (n / 10 % 10) (by omega)
  obtain ⟨d1, d2⟩ := digitByte_spec (n % 10) (by omega)
  have e1 : (n : Int) / 1000 = ((n / 1000 : Nat) : Int) := by omega
  have e2 : (n : Int) / 100 % 10 = ((n / 100 % 10 : Nat) : Int) := by omega
  have e3 : (n : Int) / 10 % 10 = ((n / 10 % 10 : Nat) : Int) := by omega
  have e4 : (n : Int) % 10 = ((n % 10 : Nat) : Int) := by omega
  rw [e1, e2, e3, e4]
  unfold number
  simp only [List.cons_append, List.nil_append, List.take_succ_cons, List.take_zero, List.length_cons, List.length_nil,
    List.all_cons, List.all_nil, a1, b1, c1, d1, List.drop_succ_cons, List.drop_zero, digitsVal, List.foldl_cons,
    List.foldl_nil, a2, b2, c2, d2]
  rw [if_pos ⟨trivial, rfl⟩]
  congr 2
  omega

theorem month_names : ∀ m < 12, (monthNames.getD m []).length = 3 ∧ monthNames.getD m [] ∈ months ∧
    months.idxOf (monthNames.getD m []) = m := by
  decide

theorem day_names : ∀ n < 7, (dayNames.getD ((n + 1) % 7) []).length = 3 ∧ days.getD n [] = dayNames.getD ((n + 1) % 7) [] := by
  decide

/-- The text of an HTTP date stands for the instant it was made from, from the year 1 to the year 9999. -/
theorem readHttpDate_append {unix : Int} (h0 : 0 ≤ unix + toEpoch) (h1 : unix + toEpoch ≤ lastSecond) :
    readHttpDate (appendTime unix) = some unix := by
  obtain ⟨n, hn⟩ := Int.eq_ofNat_of_zero_le h0
  have hn' : unix + 0 + toEpoch = n := by omega
  have hle : n ≤ 3652059 * 86400 - 1 := by
    unfold lastSecond at h1
    omega
  have h62 : unix + 0 < 2 ^ 62 := by
    unfold toEpoch at hn
    omega
  obtain ⟨d, hv, hd, he⟩ := absDate_spec hn' h62
  have hy := valid_year hv (by omega)
  obtain ⟨hm, hday⟩ := valid_small hv
  have hm1 : 1 ≤ d.month := hv.2.1
  obtain ⟨m1, m2, m3⟩ := month_names (d.month - 1) (by omega)
  obtain ⟨w1, w2⟩ := day_names (n / 86400 % 7) (by omega)
  have hw : (n / 86400 % 7 + 1) % 7 = (n / 86400 + 1) % 7 := by omega
  rw [hw] at w1 w2
  have hcl : readClock ([digitByte (n % 86400 / 3600 / 10 : Nat), digitByte (n % 86400 / 3600 % 10 : Nat)] ++ ':' ::
      ([digitByte (n % 3600 / 60 / 10 : Nat), digitByte (n % 3600 / 60 % 10 : Nat)] ++ ':' ::
      ([digitByte (n % 60 / 10 : Nat), digitByte (n % 60 % 10 : Nat)] ++ " GMT".toList))) =
      some ((n % 86400 / 3600, n % 3600 / 60, n % 60), " GMT".toList) := by
    unfold readClock
    rw [number_two (by omega)]
    simp only [Option.bind_eq_bind, Option.bind_some, lit, if_true]
    rw [number_two (by omega)]
    simp only [Option.bind_some, if_true]
    rw [number_two (by omega)]
    simp only [Option.bind_some]
    rw [if_pos ⟨by omega, by omega, by omega⟩]
  have hb : appendTime unix = dayNames.getD ((n / 86400 + 1) % 7) [] ++ ',' :: ' ' ::
      ([digitByte (d.day / 10 : Nat), digitByte (d.day % 10 : Nat)] ++ ' ' :: (monthNames.getD (d.month - 1) [] ++ ' ' ::
      ([digitByte ((d.year : Int) / 1000), digitByte ((d.year : Int) / 100 % 10), digitByte ((d.year : Int) / 10 % 10),
        digitByte ((d.year : Int) % 10)] ++ ' ' ::
      ([digitByte (n % 86400 / 3600 / 10 : Nat), digitByte (n % 86400 / 3600 % 10 : Nat)] ++ ':' ::
      ([digitByte (n % 3600 / 60 / 10 : Nat), digitByte (n % 3600 / 60 % 10 : Nat)] ++ ':' ::
      ([digitByte (n % 60 / 10 : Nat), digitByte (n % 60 % 10 : Nat)] ++ " GMT".toList)))))) := by
    unfold appendTime
    dsimp only
    rw [he, absClock_spec hn' h62, absWeekday_spec hn' h62]
    simp only [List.append_assoc, List.cons_append, List.nil_append]
    rfl
  rw [hb]
  unfold readHttpDate
  simp only [Option.bind_eq_bind]
  rw [List.take_left' w1, List.drop_left' w1]
  simp only [lit, if_true, Option.bind_some]
  rw [number_two (by omega)]
  simp only [Option.bind_some, if_true]
  rw [List.take_left' m1, List.drop_left' m1]
  simp only [if_true, Option.bind_some]
  rw [number_four (by omega)]
  simp only [Option.bind_some, if_true]
  rw [hcl]
  simp only [Option.bind_some]
  rw [if_pos ⟨trivial, m2⟩, m3]
  have hdate : (⟨d.year, d.month - 1 + 1, d.day⟩ : Date) = d := by
    rw [show d.month - 1 + 1 = d.month by omega]
  rw [hdate, if_pos ⟨hv, by unfold Date.weekday; rw [hd]; exact w2⟩]
  have := instant_of hn' hd (by decide)
  rw [show (0 : Int) / 60 = 0 by decide] at this
  rw [this]

end J8a.Calendar

import Verif.Go.Num
/-!
# The Gregorian calendar, and the texts of RFC 3339 and RFC 7231 for instants

Independent of package time: a year is 365 or 366 days long, and days are counted one year and one month after the other.
-/
namespace J8a.Calendar

/-- Every fourth year, but of the full centuries only every fourth. -/
def Leap (year : Nat) : Prop := 4 ∣ year ∧ (¬ 100 ∣ year ∨ 400 ∣ year)

instance (year : Nat) : Decidable (Leap year) := inferInstanceAs (Decidable (_ ∧ _))

def yearLength (year : Nat) : Nat := if Leap year then 366 else 365

/-- The months' lengths. -/
def monthLengths (year : Nat) : List Nat :=
  [31, if Leap year then 29 else 28, 31, 30, 31, 30, 31, 31, 30, 31, 30, 31]

/-- Days before 1 January of the year, from 1 January of the year 1 on. -/
def daysBeforeYear : Nat → Nat
  | 0 => 0
  | 1 => 0
  | y + 2 => daysBeforeYear (y + 1) + yearLength (y + 1)

/-- A date of the calendar. -/
structure Date where
  year : Nat
  month : Nat
  day : Nat
deriving DecidableEq, Repr

def Date.Valid (d : Date) : Prop :=
  1 ≤ d.year ∧ 1 ≤ d.month ∧ d.month ≤ 12 ∧ 1 ≤ d.day ∧ d.day ≤ (monthLengths d.year).getD (d.month - 1) 0

instance (d : Date) : Decidable d.Valid := inferInstanceAs (Decidable (_ ∧ _))

/-- The number of the day, 1 January of the year 1 being day 0. -/
def Date.number (d : Date) : Nat :=
  daysBeforeYear d.year + ((monthLengths d.year).take (d.month - 1)).sum + (d.day - 1)

/-- The day on which time counts from zero. -/
def epoch : Date := ⟨1970, 1, 1⟩

/-- Seconds since the epoch, of a time of day on a date, in a zone so many minutes east of UTC. -/
def instant (d : Date) (hour min sec : Nat) (east : Int) : Int :=
  ((d.number : Int) - epoch.number) * 86400 + hour * 3600 + min * 60 + sec - east * 60

/-- A number of exactly this many digits, and the rest. -/
def number (width : Nat) (s : Str) : Option (Nat × Str) :=
  if (s.take width).length = width ∧ (s.take width).all Char.isDigit = true then
    some (Go.digitsVal (s.take width), s.drop width)
  else none

/-- One certain character. -/
def lit (c : Char) : Str → Option Str
  | d :: s => if d = c then some s else none
  | [] => none

/-- RFC 3339 5.6 `time-offset`, to the end of the text; in minutes. -/
def readZone (s : Str) : Option Int :=
  match s with
  | ['Z'] => some 0
  | '+' :: s => do
    let (h, s) ← number 2 s
    let s ← lit ':' s
    let (m, s) ← number 2 s
    if s = [] ∧ h ≤ 23 ∧ m ≤ 59 then some (h * 60 + m) else none
  | '-' :: s => do
    let (h, s) ← number 2 s
    let s ← lit ':' s
    let (m, s) ← number 2 s
    if s = [] ∧ h ≤ 23 ∧ m ≤ 59 then some (-(h * 60 + m : Int)) else none
  | _ => none

/-- RFC 3339 5.6 `full-date`. -/
def readDate (s : Str) : Option (Date × Str) := do
  let (y, s) ← number 4 s
  let s ← lit '-' s
  let (m, s) ← number 2 s
  let s ← lit '-' s
  let (d, s) ← number 2 s
  if Date.Valid ⟨y, m, d⟩ then some (⟨y, m, d⟩, s) else none

/-- `hh:mm:ss`. -/
def readClock (s : Str) : Option ((Nat × Nat × Nat) × Str) := do
  let (h, s) ← number 2 s
  let s ← lit ':' s
  let (m, s) ← number 2 s
  let s ← lit ':' s
  let (t, s) ← number 2 s
  if h ≤ 23 ∧ m ≤ 59 ∧ t ≤ 59 then some ((h, m, t), s) else none

/-- RFC 3339 5.6 `date-time` without fractions: the instant it stands for. -/
def readRFC3339 (s : Str) : Option Int := do
  let (d, s) ← readDate s
  let s ← lit 'T' s
  let (c, s) ← readClock s
  let z ← readZone s
  some (instant d c.1 c.2.1 c.2.2 z)

def days : List Str := ["Mon", "Tue", "Wed", "Thu", "Fri", "Sat", "Sun"].map String.toList

def months : List Str :=
  ["Jan", "Feb", "Mar", "Apr", "May", "Jun", "Jul", "Aug", "Sep", "Oct", "Nov", "Dec"].map String.toList

/-- 1 January of the year 1 was a Monday. -/
def Date.weekday (d : Date) : Str := days.getD (d.number % 7) []

/-- RFC 7231 7.1.1.1 `IMF-fixdate`: the instant it stands for. The day of the week must be right. -/
def readHttpDate (s : Str) : Option Int := do
  let name := s.take 3
  let s ← lit ',' (s.drop 3)
  let s ← lit ' ' s
  let (d, s) ← number 2 s
  let s ← lit ' ' s
  let mon := s.take 3
  let s ← lit ' ' (s.drop 3)
  let (y, s) ← number 4 s
  let s ← lit ' ' s
  let (c, s) ← readClock s
  if s = " GMT".toList ∧ mon ∈ months then
    let date : Date := ⟨y, months.idxOf mon + 1, d⟩
    if date.Valid ∧ date.weekday = name then some (instant date c.1 c.2.1 c.2.2 0) else none
  else none

example : readRFC3339 "1970-01-01T00:00:00Z".toList = some 0 := by decide +kernel
example : readRFC3339 "1971-03-01T01:00:00+01:00".toList = some (424 * 86400) := by decide +kernel
example : readRFC3339 "1971-02-29T00:00:00Z".toList = none := by decide +kernel

end J8a.Calendar

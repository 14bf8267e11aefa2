import Verif.Go.Num
/-!
# Lengths of time in words

`2 weeks 18 hours`: numbers and units in turn, separated by blanks, the unit in the singular exactly behind a 1, with a
minus sign in front of everything for the past. Independent of the package that writes such texts.
-/
namespace J8a.Span

/-- The units, in nanoseconds; a year is 365 days. -/
def units : List (Str × Nat) :=
  [("year".toList, 365 * 86400 * 10 ^ 9), ("week".toList, 7 * 86400 * 10 ^ 9), ("day".toList, 86400 * 10 ^ 9),
   ("hour".toList, 3600 * 10 ^ 9), ("minute".toList, 60 * 10 ^ 9), ("second".toList, 10 ^ 9),
   ("millisecond".toList, 10 ^ 6), ("microsecond".toList, 10 ^ 3)]

/-- A unit behind a number. -/
def readUnit (n : Nat) (w : Str) : Option Nat :=
  if n = 1 then units.lookup w
  else if w.getLast? = some 's' then units.lookup w.dropLast else none

/-- Numbers with the lengths of their units. -/
def readTerms : List Str → Option (List (Nat × Nat))
  | [] => some []
  | [_] => none
  | n :: w :: rest => do
    let terms ← readTerms rest
    let size ← readUnit (Go.digitsVal n) w
    if n ≠ [] ∧ n.all Char.isDigit then some ((Go.digitsVal n, size) :: terms) else none

/-- The words of a text. -/
def words : Str → List Str
  | [] => [[]]
  | c :: s => if c = ' ' then [] :: words s else
    match words s with
    | [] => [[c]]
    | w :: ws => (c :: w) :: ws

/-- Whether it lies in the past, and the terms. -/
def read : Str → Option (Bool × List (Nat × Nat))
  | '-' :: s => (readTerms (words s)).map fun t => (true, t)
  | s => (readTerms (words s)).map fun t => (false, t)

/-- The length that the terms add up to. -/
def value (terms : List (Nat × Nat)) : Nat := (terms.map fun t => t.1 * t.2).sum

/-- The terms tell the length `d`, cut off: one or two of them; one alone is right to the microsecond, two are right to the
second of their units. -/
structure Tells (terms : List (Nat × Nat)) (d : Nat) : Prop where
  one_or_two : terms.length = 1 ∨ terms.length = 2
  below : value terms ≤ d
  one : terms.length = 1 → d < value terms + 1000
  two : ∀ a b, terms = [a, b] → b.2 < a.2 ∧ d < value terms + b.2

example : read "2 weeks 18 hours".toList = some (false, [(2, 7 * 86400 * 10 ^ 9), (18, 3600 * 10 ^ 9)]) := by
  decide +kernel
example : read "-1 day".toList = some (true, [(1, 86400 * 10 ^ 9)]) := by decide +kernel
example : read "1 days".toList = none ∧ read "".toList = none ∧ read "2 day".toList = none := by decide +kernel

end J8a.Span

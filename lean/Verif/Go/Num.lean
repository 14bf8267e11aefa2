import Verif.Go.Str
/-!
# Package strconv and 64 bit arithmetic
-/
namespace J8a.Go

/-- Value of a string of decimal digits. -/
def digitsVal (s : Str) : Nat := s.foldl (fun n c => 10 * n + (c.toNat - 48)) 0

/-- Bounds of `int64` (and of `int` on the supported platforms). -/
def minInt64 : Int := -(2 ^ 63)
def maxInt64 : Int := 2 ^ 63 - 1

/-- `strconv.Atoi(s)` / `strconv.ParseInt(s, 10, 64)`: optional sign, at least one decimal digit,
value in range; `none` for an error. -/
def atoi (s : Str) : Option Int :=
  let (neg, ds) := match s with
    | '-' :: r => (true, r)
    | '+' :: r => (false, r)
    | r => (false, r)
  if ds ≠ [] ∧ ds.all Char.isDigit then
    let v : Int := digitsVal ds
    let v := if neg then -v else v
    if minInt64 ≤ v ∧ v ≤ maxInt64 then some v else none
  else none

/-- Wrap-around of 64 bit two's complement arithmetic. -/
def wrap64 (x : Int) : Int := (x + 2 ^ 63) % 2 ^ 64 - 2 ^ 63

end J8a.Go

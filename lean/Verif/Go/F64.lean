/-!
# IEEE-754 binary64, finite part

Every finite `float64` is an integer multiple of 2^-1074. It is represented by that `Int`, so
comparison of floats is comparison of integers, and the float `1.0` is `F64.one = 2^1074`.
`F64.add` is the correctly rounded sum (round to nearest, ties to even, 53 significant
bits). Sums with magnitude below 2^53 units are subnormal or tiny and exact, as in IEEE.
Not modelled: overflow to infinity (magnitudes ≥ 2^1024) and NaN.
-/
namespace J8a

namespace F64

/-- The float `1.0`. -/
def one : Int := 2 ^ 1074

/-- Round a magnitude to `k` fewer bits, to nearest, ties to even. -/
def roundShift (n k : Nat) : Nat :=
  let q := n / 2 ^ k
  let r := n % 2 ^ k
  if 2 * r < 2 ^ k then q * 2 ^ k
  else if 2 * r > 2 ^ k then (q + 1) * 2 ^ k
  else if q % 2 = 0 then q * 2 ^ k else (q + 1) * 2 ^ k

/-- Round a magnitude to 53 significant bits. -/
def roundNat (n : Nat) : Nat :=
  if n < 2 ^ 53 then n else roundShift n (n.log2 - 52)

/-- Round an exact value (in units of 2^-1074) to the nearest float64. -/
def round : Int → Int
  | .ofNat n => Int.ofNat (roundNat n)
  | .negSucc n => - Int.ofNat (roundNat (n + 1))

/-- IEEE addition of finite floats (no overflow). -/
def add (a b : Int) : Int := round (a + b)

/-- The integer denotes a float64. -/
def IsF64 (a : Int) : Prop := round a = a

instance (a : Int) : Decidable (IsF64 a) := by unfold IsF64; infer_instance

end F64
end J8a

import Verif.Model.Policy
/-! # Specification vocabulary for policies: exact sums of weights -/
namespace J8a

/-- Exact sum of the weights (real number arithmetic, in units of 2^-1074). -/
def exactSum : List LabelWeight → Int
  | [] => 0
  | lw :: p => lw.weight + exactSum p

/-- No weight is negative. -/
def NonNeg (p : List LabelWeight) : Prop := ∀ lw ∈ p, 0 ≤ lw.weight

/-- Every partial sum of the list is a float64 (so that adding up does not round). -/
def ExactlySummable (p : List LabelWeight) : Prop :=
  ∀ i, i ≤ p.length → F64.IsF64 (exactSum (p.take i))

end J8a

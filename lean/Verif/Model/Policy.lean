import Verif.Go.Str
import Verif.Go.F64
/-!
# policy.go — weighted label selection
-/
namespace J8a

/-- policy.go:9-12 `LabelWeight`. The weight is a finite float64, in units of 2^-1074
(see `Go/F64.lean`). -/
structure LabelWeight where
  label : Str
  weight : Int
deriving DecidableEq, Repr

/-- policy.go:15 `Policy`. -/
abbrev Policy := List LabelWeight

/-- policy.go:24-26 `Policy.Less`. -/
def Policy.less (a b : LabelWeight) : Bool := a.weight < b.weight

/-- What `sort.Sort(Policy(policy))` (policy.go:31) may leave in the slice: some permutation
in which no element is less than an earlier one. `sort.Sort` is not stable, so which one is
unspecified. -/
structure Policy.SortedFrom (p' p : Policy) : Prop where
  perm : p'.Perm p
  sorted : p'.Pairwise (fun a b => Policy.less b a = false)

/-- policy.go:35-38: the sum of the first weights, added left to right starting from 0.
The addition is a parameter so that the same model serves IEEE addition (`F64.add`, what the
program does) and exact addition (what the configuration means). -/
def Policy.sumWith (add : Int → Int → Int) (p : Policy) : Int :=
  p.foldl (fun s lw => add s lw.weight) 0

/-- policy.go:34-40: cumulative weights `cw[i] = w[0] + … + w[i]`. -/
def Policy.cumulative (add : Int → Int → Int) (p : Policy) : List Int :=
  (List.range p.length).map fun i => Policy.sumWith add (p.take (i + 1))

/-- policy.go:43-47: first index whose cumulative weight exceeds the dice. -/
def Policy.pickIndex (add : Int → Int → Int) (p : Policy) (dice : Int) : Option Nat :=
  (Policy.cumulative add p).findIdx? (fun c => dice < c)

/-- policy.go:43-48: the label, `default` when the loop falls through. -/
def Policy.pickLabel (add : Int → Int → Int) (p : Policy) (dice : Int) : Str :=
  match Policy.pickIndex add p dice with
  | some i => (p[i]?.map LabelWeight.label).getD []
  | none => "default".toList

/-- policy.go:29-49 `resolveLabel`: given the dice (`rand.Float64()`, in [0,1)), the slice
holds `p'` afterwards and `label` is returned. -/
structure Policy.ResolveLabel (p : Policy) (dice : Int) (p' : Policy) (label : Str) : Prop where
  sorted : Policy.SortedFrom p' p
  result : label = Policy.pickLabel F64.add p' dice

/-- Possible results of `rand.Float64()`: a float in [0,1). -/
def IsDice (d : Int) : Prop := 0 ≤ d ∧ d < F64.one ∧ F64.IsF64 d

end J8a

import Verif.Model.Route
/-! # The paths of the about endpoint -/
namespace J8a
open Go

/-- The paths of the routes with the resource `about`. -/
def aboutPaths (routes : List Route) : List Str :=
  (routes.filter fun r => r.resource = "about".toList).map (·.path)

/-- The path lies under a path that ends in a slash. -/
def Under (A : List Str) (p : Str) : Prop := ∃ a ∈ A, (∃ b, a = b ++ ['/']) ∧ ∃ s, p = a ++ s

/-- The path as the gateway reads it: an absolute one. -/
def withSlash (p : Str) : Str := if p.head? = some '/' then p else '/' :: p

end J8a

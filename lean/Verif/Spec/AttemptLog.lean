import Verif.Model.AttemptLog
/-!
# What the log should say about attempts
-/
namespace J8a

/-- The beginning and the end of an attempt, as the log has them. -/
inductive Mark where
  | begun (k : Nat)
  | ended (k : Nat) (successful : Bool) (code : Option Int)
deriving DecidableEq, Repr

def AtmptLine.mark : AtmptLine → Option Mark
  | ⟨k, .initialized⟩ => some (.begun k)
  | ⟨k, .ended b c⟩ => some (.ended k b c)
  | _ => none

/-- The beginnings and ends in a log. -/
def marks (l : List AtmptLine) : List Mark := l.filterMap AtmptLine.mark

/-- The marks of attempts 1, 2, … that failed, with these statuses. -/
def failures (codes : List (Option Int)) : List Mark :=
  codes.zipIdx.flatMap fun p => [.begun (p.2 + 1), .ended (p.2 + 1) false p.1]

end J8a

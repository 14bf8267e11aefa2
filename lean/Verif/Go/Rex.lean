import Verif.Go.Str
/-!
# Package regexp: the operators used by iprex.go

The package documents that it finds the leftmost match and, of those, "the one that a backtracking
engine would have found". `ends r s` lists what can remain of `s` after a match of `r` at its start,
in the order in which a backtracking engine tries.
-/
namespace J8a

inductive Rex
  /-- a class of characters -/
  | cls (cs : List Char)
  | seq (a b : Rex)
  | alt (a b : Rex)
  /-- `r{min,max}`, greedy -/
  | rep (r : Rex) (min max : Nat)
  /-- `[cs]*`, greedy -/
  | star (cs : List Char)
deriving Repr

namespace Rex

/-- `r{min,max}` for an `r` that ends where `f` says: as many as possible first. -/
def repEnds (f : Str → List Str) : Nat → Nat → Str → List Str
  | _, 0, s => [s]
  | min, max + 1, s => (f s).flatMap (repEnds f (min - 1) max) ++ if min = 0 then [s] else []

/-- `[cs]*`. -/
def starEnds (cs : List Char) : Str → List Str
  | [] => [[]]
  | c :: s => (if c ∈ cs then starEnds cs s else []) ++ [c :: s]

def ends : Rex → Str → List Str
  | cls _, [] => []
  | cls cs, c :: s => if c ∈ cs then [s] else []
  | seq a b, s => (ends a s).flatMap (ends b)
  | alt a b, s => ends a s ++ ends b s
  | rep r min max, s => repEnds (ends r) min max s
  | star cs, s => starEnds cs s

/-- `FindStringSubmatch(s)[0]`; `none` when there is no match. -/
def find (r : Rex) : Str → Option Str
  | [] =>
    match r.ends [] with
    | [] => none
    | _ :: _ => some []
  | c :: s =>
    match r.ends (c :: s) with
    | rest :: _ => some ((c :: s).take ((c :: s).length - rest.length))
    | [] => find r s

end Rex
end J8a

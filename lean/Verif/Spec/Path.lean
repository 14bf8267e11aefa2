import Verif.Go.Str
/-!
# Paths as lists of segments
-/
namespace J8a
open Go

/-- What one segment does to the segments before it: nothing for an empty one or a dot, two dots remove
the last one. -/
def segStep (acc : List Str) (w : Str) : List Str :=
  if w = [] ∨ w = ['.'] then acc
  else if w = ['.', '.'] then acc.dropLast
  else acc ++ [w]

/-- The segments of a path once dots are resolved. -/
def segments (p : Str) : List Str := (split '/' p).foldl segStep []

/-- `/a/b` -/
def renderSegs (l : List Str) : Str := '/' :: join ['/'] l

/-- The canonical form of a path; a trailing slash stays. -/
def canonicalPath (p : Str) : Str :=
  let l := segments p
  if l ≠ [] ∧ p.getLast? = some '/' then renderSegs l ++ ['/'] else renderSegs l

/-- A segment that is a plain name. -/
def PlainSeg (w : Str) : Prop := w ≠ [] ∧ w ≠ ['.'] ∧ w ≠ ['.', '.'] ∧ '/' ∉ w

/-- A path without dot segments: none of the parts between slashes is `.` or `..`. -/
def NoDotSegs (p : Str) : Prop := ∀ w ∈ split '/' p, w ≠ ['.'] ∧ w ≠ ['.', '.']

end J8a

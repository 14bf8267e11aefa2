import Verif.Go.Str
/-!
# Package `path`, and the path cleaning of package `net/http`
-/
namespace J8a.Go

/-- `path.Clean`, going back over the last element: the output is kept in reverse, the last byte
first. The inner loop `for out.w > dotdot && out.index(out.w) != '/'` with `dotdot = 1`. -/
def backOver : Str → Str
  | c :: d :: o => if c = '/' then d :: o else backOver (d :: o)
  | o => o

/-- The loop of `path.Clean` on a rooted path: what is left to read, and the output in reverse. -/
def cleanLoop : Nat → Str → Str → Str
  | 0, _, out => out
  | _ + 1, [], out => out
  | n + 1, c :: r, out =>
    if c = '/' then cleanLoop n r out
    else if c = '.' ∧ (r = [] ∨ r.head? = some '/') then cleanLoop n r out
    else if c = '.' ∧ r.head? = some '.' ∧ (r.tail = [] ∨ r.tail.head? = some '/') then
      cleanLoop n r.tail (backOver out)
    else
      cleanLoop n ((c :: r).dropWhile (· ≠ '/'))
        (((c :: r).takeWhile (· ≠ '/')).reverse ++ if out.length ≠ 1 then '/' :: out else out)

/-- `path.Clean` of a path that starts with a slash. -/
def pathClean (p : Str) : Str := (cleanLoop p.length p.tail ['/']).reverse

/-- net/http `cleanPath`. -/
def cleanPath (p : Str) : Str :=
  if p = [] then ['/']
  else
    let p := if p.head? = some '/' then p else '/' :: p
    let np := pathClean p
    if p.getLast? = some '/' ∧ np ≠ ['/'] then np ++ ['/'] else np

end J8a.Go

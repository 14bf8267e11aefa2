import Verif.Go.Num
/-!
# Package durafmt of 2020-07-10

From its source as remembered: `Parse(d).LimitFirstN(n).String()`. Durations are nanoseconds in an `int64`.
-/
namespace J8a.Go

/-- `units`, with their lengths in microseconds. -/
def durafmtUnits : List (Str × Int) :=
  [("years".toList, 365 * 24 * 3600 * 1000000), ("weeks".toList, 7 * 24 * 3600 * 1000000),
   ("days".toList, 24 * 3600 * 1000000), ("hours".toList, 3600 * 1000000), ("minutes".toList, 60 * 1000000),
   ("seconds".toList, 1000000), ("milliseconds".toList, 1000), ("microseconds".toList, 1)]

/-- How many of each unit: every one takes from what the ones before left. -/
def durafmtCounts : List (Str × Int) → Int → List (Str × Int)
  | [], _ => []
  | (u, size) :: us, rest => (u, rest.tdiv size) :: durafmtCounts us (rest - rest.tdiv size * size)

/-- `strings.TrimRight(u, "s")`. -/
def trimPlural (u : Str) : Str := (u.reverse.dropWhile (· = 's')).reverse

/-- One round of the loop over the units; `d` is the duration without its sign. Of a duration of nothing the seconds are
written, as `Duration.String` writes `0s` for it. -/
def durafmtPiece (d : Int) (u : Str) (v : Int) : Str :=
  if 1 < v then itoa v ++ ' ' :: u ++ [' ']
  else if v = 1 then itoa v ++ ' ' :: trimPlural u ++ [' ']
  else if d = 0 then if u = "seconds".toList then itoa v ++ ' ' :: u else []
  else []

/-- `strings.TrimSpace`, of a text with no other white space than blanks. -/
def trimBlanks (s : Str) : Str := ((s.dropWhile (· = ' ')).reverse.dropWhile (· = ' ')).reverse

/-- `Durafmt.String` with `limitN`. -/
def durafmt (d : Int) (limit : Nat) : Str :=
  let d' := if d < 0 then wrap64 (-d) else d
  let text := trimBlanks ((if d < 0 then ['-'] else []) ++
    (durafmtCounts durafmtUnits (d'.tdiv 1000)).flatMap fun p => durafmtPiece d' p.1 p.2)
  if 0 < limit then
    if limit * 2 < (split ' ' text).length then join [' '] ((split ' ' text).take (limit * 2)) else text
  else text

example : durafmt (354 * 3600 * 10 ^ 9 + 22 * 60 * 10 ^ 9 + 3240000000) 0 =
    "2 weeks 18 hours 22 minutes 3 seconds 240 milliseconds".toList := by decide +kernel
example : durafmt (354 * 3600 * 10 ^ 9 + 22 * 60 * 10 ^ 9 + 3240000000) 2 = "2 weeks 18 hours".toList := by
  decide +kernel
example : durafmt 0 2 = "0 seconds".toList := by decide +kernel
example : durafmt (-1500000000) 2 = "-1 second 500 milliseconds".toList := by decide +kernel
example : durafmt 999 2 = [] := by decide +kernel
example : durafmt minInt64 2 = "-".toList := by decide +kernel

end J8a.Go

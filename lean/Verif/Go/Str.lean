/-!
# Go strings

A Go string is a sequence of bytes. It is represented by a list of `Char`, one
`Char` per byte; every literal in the repository is ASCII, so literals coincide.
These are the parts of packages `strings` and `strconv` the repository calls.
-/

namespace J8a

/-- A Go `string` (one `Char` per byte). -/
abbrev Str := List Char

/-- A Go `[]byte`. -/
abbrev Bytes := List UInt8

namespace Go

/-- `strings.HasPrefix(s, p)`. -/
def hasPrefix (s p : Str) : Bool := p.isPrefixOf s

/-- `strings.Index(s, sub)`: position of the first occurrence (`none` for -1). -/
def index : Str → Str → Option Nat
  | [], sub => if sub = [] then some 0 else none
  | c :: cs, sub =>
    if sub.isPrefixOf (c :: cs) then some 0 else (index cs sub).map (· + 1)

/-- `strings.Contains(s, sub)`. -/
def contains (s sub : Str) : Bool := (index s sub).isSome

/-- `strings.Replace(s, old, new, 1)`: replaces the first occurrence. -/
def replace1 (s old new : Str) : Str :=
  match index s old with
  | none => s
  | some i => s.take i ++ new ++ s.drop (i + old.length)

/-- `strings.Split(s, sep)` for a one byte separator. Never returns an empty slice. -/
def split (sep : Char) : Str → List Str
  | [] => [[]]
  | c :: cs =>
    if c = sep then [] :: split sep cs
    else match split sep cs with
      | [] => [[c]]
      | w :: ws => (c :: w) :: ws

/-- `strings.Join(l, sep)`. -/
def join (sep : Str) : List Str → Str
  | [] => []
  | [s] => s
  | s :: rest => s ++ sep ++ join sep rest

/-- `strings.ToUpper` on ASCII. -/
def toUpper (s : Str) : Str := s.map Char.toUpper

/-- `strings.ToLower` on ASCII. -/
def toLower (s : Str) : Str := s.map Char.toLower

/-- `strings.EqualFold` on ASCII. -/
def equalFold (a b : Str) : Bool := toLower a == toLower b

/-- `strconv.Itoa` for non-negative values. -/
def natToDec (n : Nat) : Str := Nat.toDigits 10 n

/-- `strconv.Itoa` / `%d`. -/
def itoa : Int → Str
  | .ofNat n => natToDec n
  | .negSucc n => '-' :: natToDec (n + 1)

end Go
end J8a

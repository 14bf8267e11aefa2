import Verif.Go.Str
/-!
# Packages `regexp` and `regexp/syntax` of Go 1.15

`syntax.Parse` with the flags `Perl`, which `regexp.Compile` uses, from the source as remembered: first the
text is cut into pieces, then a stack puts them together. Simplifications of the tree by the package do not
change what matches and are left out. `MatchString` only asks whether there is a match, so greed does not
matter. Not modelled, and reported as `other`: groups with flags or names, Unicode and POSIX classes,
numeric escapes, escapes inside brackets.
-/
namespace J8a.Go

/-- A regular expression. -/
inductive Re where
  | eps
  /-- one of, or none of, these ranges -/
  | cls (neg : Bool) (ranges : List (Char × Char))
  /-- `^`, `\A` -/
  | bol
  /-- `$`, `\z` -/
  | eol
  /-- `\b`, negated `\B` -/
  | wb (neg : Bool)
  | cat (a b : Re)
  | alt (a b : Re)
  | star (a : Re)
  | plus (a : Re)
  | quest (a : Re)
  | rep (a : Re) (min : Nat) (max : Option Nat)
deriving DecidableEq, Repr

/-- One character. -/
def Re.lit (c : Char) : Re := .cls false [(c, c)]

/-! ## Parsing -/

inductive RepOp where
  | star | plus | quest
  | range (min : Nat) (max : Option Nat)
deriving DecidableEq, Repr

inductive Tok where
  | piece (r : Re)
  | rep (op : RepOp)
  | opn | cls | bar
  /-- `\Q\E`, which stands for nothing -/
  | nop
  /-- an error -/
  | bad
  /-- syntax that is not modelled -/
  | other
deriving DecidableEq, Repr

/-- parse.go `parseInt`. -/
def reInt (s : Str) : Option (Nat × Str) :=
  let d := s.takeWhile Char.isDigit
  if d = [] ∨ (1 < d.length ∧ d.head? = some '0') then none
  else some (d.foldl (fun n c => 10 * n + (c.toNat - '0'.toNat)) 0, s.dropWhile Char.isDigit)

/-- parse.go `parser.repeat` (the one that reads): the text after `{`. -/
def reRange (s : Str) : Option (Nat × Option Nat × Str) :=
  match reInt s with
  | none => none
  | some (min, '}' :: r) => some (min, some min, r)
  | some (min, ',' :: '}' :: r) => some (min, none, r)
  | some (min, ',' :: r) =>
    match reInt r with
    | some (max, '}' :: r) => some (min, some max, r)
    | _ => none
  | some _ => none

/-- parse.go `parse`: the test of the bounds. -/
def rangeOk (min : Nat) (max : Option Nat) : Bool :=
  min ≤ 1000 && match max with
    | none => true
    | some m => m ≤ 1000 && min ≤ m

/-- A `?` after a repetition only says that it is not greedy. -/
def dropLazy : Str → Str
  | '?' :: r => r
  | r => r

/-- The text of `\Q…\E` and the rest. -/
def quoted : Str → Str × Str
  | [] => ([], [])
  | [c] => ([c], [])
  | c :: d :: r =>
    if c = '\\' ∧ d = 'E' then ([], r)
    else let (q, rest) := quoted (d :: r); (c :: q, rest)

/-- parse.go `parseClass`, after the opening bracket and the `^`: the ranges and the rest. -/
inductive ClassRes where
  | ok (ranges : List (Char × Char)) (rest : Str)
  | bad
  | other

def classItems : Nat → Bool → List (Char × Char) → Str → ClassRes
  | 0, _, _, _ => .bad
  | _, _, _, [] => .bad
  | n + 1, first, acc, c :: r =>
    if c = ']' ∧ first = false then .ok acc.reverse r
    else if c = '\\' ∨ (c = '[' ∧ r.head? = some ':') then .other
    else match r with
      | '-' :: h :: r' =>
        if h = ']' then classItems n false ((c, c) :: acc) r
        else if h = '\\' then .other
        else if h < c then .bad
        else classItems n false ((c, h) :: acc) r'
      | _ => classItems n false ((c, c) :: acc) r

def digitRanges : List (Char × Char) := [('0', '9')]
def spaceRanges : List (Char × Char) := [('\t', '\n'), ('\x0c', '\r'), (' ', ' ')]
def wordRanges : List (Char × Char) := [('0', '9'), ('A', 'Z'), ('_', '_'), ('a', 'z')]

/-- parse.go `parse`, case of the backslash, and `escape`: what stands for the character after it. -/
def escaped (c : Char) : Tok :=
  if c = 'A' then .piece .bol
  else if c = 'z' then .piece .eol
  else if c = 'b' then .piece (.wb false)
  else if c = 'B' then .piece (.wb true)
  else if c = 'd' then .piece (.cls false digitRanges)
  else if c = 'D' then .piece (.cls true digitRanges)
  else if c = 's' then .piece (.cls false spaceRanges)
  else if c = 'S' then .piece (.cls true spaceRanges)
  else if c = 'w' then .piece (.cls false wordRanges)
  else if c = 'W' then .piece (.cls true wordRanges)
  else if c = 'a' then .piece (.lit '\x07')
  else if c = 'f' then .piece (.lit '\x0c')
  else if c = 'n' then .piece (.lit '\n')
  else if c = 'r' then .piece (.lit '\r')
  else if c = 't' then .piece (.lit '\t')
  else if c = 'v' then .piece (.lit '\x0b')
  else if ('0' ≤ c && c ≤ '7') || c = 'x' || c = 'p' || c = 'P' then .other
  else if c.toNat < 128 ∧ c.isAlphanum = false then .piece (.lit c)
  else .bad

/-- parse.go `parse`, the characters that begin something longer: what was read and the rest; no rest
after an error. -/
def tokLong (c : Char) (r : Str) : List Tok × Option Str :=
  if c = '(' then
    match r with
    | '?' :: ':' :: r => ([.opn], some r)
    | '?' :: _ => ([.other], none)
    | _ => ([.opn], some r)
  else if c = '{' then
    match reRange r with
    | none => ([.piece (.lit '{')], some r)
    | some (min, max, r) =>
      if rangeOk min max then ([.rep (.range min max)], some (dropLazy r)) else ([.bad], none)
  else if c = '[' then
    match classItems (r.length + 1) true [] (if r.head? = some '^' then r.tail else r) with
    | .ok ranges rest => ([.piece (.cls (r.head? = some '^') ranges)], some rest)
    | .bad => ([.bad], none)
    | .other => ([.other], none)
  else
    match r with
    | [] => ([.bad], none)
    | d :: r =>
      if d = 'Q' then
        (if (quoted r).1 = [] then [.nop] else (quoted r).1.map fun c => .piece (.lit c), some (quoted r).2)
      else ([escaped d], some r)

/-- parse.go `parse`, the reading of one thing. -/
def tok1 (c : Char) (r : Str) : List Tok × Option Str :=
  if c = '^' then ([.piece .bol], some r)
  else if c = '$' then ([.piece .eol], some r)
  else if c = '.' then ([.piece (.cls true [('\n', '\n')])], some r)
  else if c = '|' then ([.bar], some r)
  else if c = ')' then ([.cls], some r)
  else if c = '*' then ([.rep .star], some (dropLazy r))
  else if c = '+' then ([.rep .plus], some (dropLazy r))
  else if c = '?' then ([.rep .quest], some (dropLazy r))
  else if c ∈ "({[\\".toList then tokLong c r
  else ([.piece (.lit c)], some r)

/-- parse.go `parse`, the reading. -/
def tok : Nat → Str → List Tok
  | 0, _ => []
  | _, [] => []
  | n + 1, c :: r =>
    match tok1 c r with
    | (ts, some r) => ts ++ tok n r
    | (ts, none) => ts

def tokens (s : Str) : List Tok := tok s.length s

/-- What is open: the finished alternatives and the pieces of the current one, both backwards. -/
structure Frame where
  alts : List Re := []
  pieces : List Re := []
deriving DecidableEq, Repr

/-- The pieces, put together. -/
def catRev : List Re → Re
  | [] => .eps
  | [r] => r
  | r :: rs => .cat (catRev rs) r

/-- The alternatives, put together. -/
def altRev : List Re → Re
  | [] => .eps
  | [r] => r
  | r :: rs => .alt (altRev rs) r

def Frame.close (f : Frame) : Re := altRev (catRev f.pieces :: f.alts)

/-- parse.go `repeatIsValid`. -/
def repeatIsValid : Re → Nat → Bool
  | .rep a min max, n =>
    match max with
    | some 0 => true
    | _ =>
      let m := max.getD min
      if m > n then false else repeatIsValid a (if m > 0 then n / m else n)
  | .cat a b, n => repeatIsValid a n && repeatIsValid b n
  | .alt a b, n => repeatIsValid a n && repeatIsValid b n
  | .star a, n => repeatIsValid a n
  | .plus a, n => repeatIsValid a n
  | .quest a, n => repeatIsValid a n
  | _, _ => true

/-- parse.go `parser.repeat` (the one that applies). -/
def applyRep (op : RepOp) (a : Re) : Option Re :=
  match op with
  | .star => some (.star a)
  | .plus => some (.plus a)
  | .quest => some (.quest a)
  | .range min max =>
    if (2 ≤ min ∨ 2 ≤ max.getD 0) ∧ repeatIsValid (.rep a min max) 1000 = false then none
    else some (.rep a min max)

/-- The state of the parser; `afterRep` tells that a repetition was read last. -/
inductive PSt where
  | run (top : Frame) (below : List Frame) (afterRep : Bool)
  | bad
  | other
deriving DecidableEq, Repr

/-- parse.go `parse`, `parseVerticalBar`, `parseRightParen`. -/
def pstep : PSt → Tok → PSt
  | .bad, _ => .bad
  | .other, _ => .other
  | .run f below after, t =>
    match t with
    | .piece r => .run { f with pieces := r :: f.pieces } below false
    | .rep op =>
      if after then .bad
      else match f.pieces with
        | [] => .bad
        | a :: rs =>
          match applyRep op a with
          | none => .bad
          | some r => .run { f with pieces := r :: rs } below true
    | .nop => .run f below false
    | .bar => .run { alts := catRev f.pieces :: f.alts } below false
    | .opn => .run {} (f :: below) false
    | .cls =>
      match below with
      | [] => .bad
      | g :: below => .run { g with pieces := f.close :: g.pieces } below false
    | .bad => .bad
    | .other => .other

inductive Parsed where
  | ok (r : Re)
  | bad
  | other
deriving DecidableEq, Repr

def pfinish : PSt → Parsed
  | .run f [] _ => .ok f.close
  | .run _ _ _ => .bad
  | .bad => .bad
  | .other => .other

/-- parse.go `Parse`. -/
def parseRe (s : Str) : Parsed := pfinish ((tokens s).foldl pstep (.run {} [] false))

/-! ## Matching -/

def inClass (neg : Bool) (ranges : List (Char × Char)) (c : Char) : Bool :=
  (ranges.any fun p => p.1 ≤ c && c ≤ p.2) != neg

def isWordAt (w : Str) (i : Nat) : Bool :=
  match w[i]? with
  | some c => inClass false wordRanges c
  | none => false

/-- Is there a word boundary at `i`? -/
def boundary (w : Str) (i : Nat) : Bool :=
  (if i = 0 then false else isWordAt w (i - 1)) != isWordAt w i

/-- Where repetitions of something that goes from `i` to one of `f i` can end. -/
def starEnds (f : Nat → List Nat) : Nat → Nat → List Nat
  | 0, i => [i]
  | k + 1, i => i :: ((f i).filter (i < ·)).flatMap (starEnds f k)

/-- Exactly `n` times. -/
def powEnds (f : Nat → List Nat) : Nat → Nat → List Nat
  | 0, i => [i]
  | n + 1, i => (f i).flatMap (powEnds f n)

/-- At most `n` times. -/
def upToEnds (f : Nat → List Nat) : Nat → Nat → List Nat
  | 0, i => [i]
  | n + 1, i => i :: (f i).flatMap (upToEnds f n)

/-- After `min` times, up to `max` times. -/
def moreEnds (f : Nat → List Nat) (len min : Nat) (max : Option Nat) (i : Nat) : List Nat :=
  match max with
  | none => starEnds f len i
  | some m => if m < min then [] else upToEnds f (m - min) i

/-- Where matches in `w` that begin at `i` can end. -/
def Re.ends (w : Str) : Re → Nat → List Nat
  | .eps, i => [i]
  | .cls neg ranges, i =>
    match w[i]? with
    | some c => if inClass neg ranges c then [i + 1] else []
    | none => []
  | .bol, i => if i = 0 then [i] else []
  | .eol, i => if i = w.length then [i] else []
  | .wb neg, i => if boundary w i != neg then [i] else []
  | .cat a b, i => (a.ends w i).flatMap (b.ends w)
  | .alt a b, i => a.ends w i ++ b.ends w i
  | .star a, i => starEnds (a.ends w) w.length i
  | .plus a, i => (a.ends w i).flatMap (starEnds (a.ends w) w.length)
  | .quest a, i => i :: a.ends w i
  | .rep a min max, i =>
    (powEnds (a.ends w) min i).flatMap (moreEnds (a.ends w) w.length min max)

/-- regexp.go `MatchString`. -/
def Re.matchString (r : Re) (w : Str) : Bool :=
  (List.range (w.length + 1)).any fun i => !(r.ends w i).isEmpty

end J8a.Go

import Verif.Go.Regexp
/-!
# What a regular expression is

The syntax of `regexp/syntax` (its documentation, doc.go, with the flags `Perl`) as a grammar, without the parts
that are not modelled. First the text is divided into words (`Words`), then the words into phrases (`Alts`).
`Syntax s e` says that `s` is a regular expression and `e` what it stands for.
-/
namespace J8a.Syn
open Go

/-! ## Words -/

/-- The words. -/
inductive Word where
  | piece (r : Re)
  | rep (op : RepOp)
  | opn | cls | bar
  /-- `\Q\E` -/
  | nop

/-- The text after `{` of a counted repetition: `n}`, `n,}`, `n,m}`. -/
inductive Counted : Str → Nat → Option Nat → Prop
  | exactly (n : Nat) : Counted (natToDec n ++ "}".toList) n (some n)
  | atLeast (n : Nat) : Counted (natToDec n ++ ",}".toList) n none
  | between (n m : Nat) : Counted (natToDec n ++ ",".toList ++ natToDec m ++ "}".toList) n (some m)

/-- The bounds of a counted repetition are in order and at most 1000. -/
def InBounds (min : Nat) (max : Option Nat) : Prop :=
  min ≤ 1000 ∧ ∀ m, max = some m → min ≤ m ∧ m ≤ 1000

/-- The text of a class after `[` or `[^`. At its beginning a `]` stands for itself. -/
inductive ClassText : Bool → Str → List (Char × Char) → Prop
  | close : ClassText false "]".toList []
  | range (first : Bool) (lo hi : Char) (t : Str) (l : List (Char × Char)) (hlo : lo = ']' → first = true)
      (hlo' : lo ≠ '\\') (hhi : hi ≠ ']' ∧ hi ≠ '\\') (hle : lo ≤ hi) (ht : ClassText false t l) :
      ClassText first (lo :: '-' :: hi :: t) ((lo, hi) :: l)
  | one (first : Bool) (c : Char) (t : Str) (l : List (Char × Char)) (hc : c = ']' → first = true) (hc' : c ≠ '\\')
      (hposix : ¬ (c = '[' ∧ ∃ u, t = ':' :: u)) (hrange : ∀ h u, t = '-' :: h :: u → h = ']')
      (ht : ClassText false t l) : ClassText first (c :: t) ((c, c) :: l)

/-- The digits, the white space and the letters of words. -/
def digit : List (Char × Char) := [('0', '9')]
def space : List (Char × Char) := [('\t', '\n'), ('\x0c', '\r'), (' ', ' ')]
def word : List (Char × Char) := [('0', '9'), ('A', 'Z'), ('_', '_'), ('a', 'z')]

/-- A letter after a backslash. -/
def letters : List (Char × Re) := [
  ('A', .bol), ('z', .eol), ('b', .wb false), ('B', .wb true),
  ('d', .cls false digit), ('D', .cls true digit), ('s', .cls false space), ('S', .cls true space),
  ('w', .cls false word), ('W', .cls true word),
  ('a', .cls false [('\x07', '\x07')]), ('f', .cls false [('\x0c', '\x0c')]), ('n', .cls false [('\n', '\n')]),
  ('r', .cls false [('\r', '\r')]), ('t', .cls false [('\t', '\t')]), ('v', .cls false [('\x0b', '\x0b')])]

/-- The characters that do not always stand for themselves. -/
def special : Str := "^$.|)*+?({[\\".toList

/-- One character. -/
def one (c : Char) : Re := .cls false [(c, c)]

/-- The text of a repetition. -/
inductive RepText : Str → RepOp → Prop
  | star : RepText "*".toList .star
  | plus : RepText "+".toList .plus
  | quest : RepText "?".toList .quest
  | counted (t : Str) (min : Nat) (max : Option Nat) (ht : Counted t min max) (hb : InBounds min max) :
      RepText ('{' :: t) (.range min max)

/-- `Reads t rest ws`: the text `t` before `rest` stands for the words `ws`. -/
inductive ReadsAs : Str → Str → List Word → Prop
  | bol (r : Str) : ReadsAs "^".toList r [.piece .bol]
  | eol (r : Str) : ReadsAs "$".toList r [.piece .eol]
  | any (r : Str) : ReadsAs ".".toList r [.piece (.cls true [('\n', '\n')])]
  | bar (r : Str) : ReadsAs "|".toList r [.bar]
  | cls (r : Str) : ReadsAs ")".toList r [.cls]
  | opn (r : Str) (h : ∀ u, r ≠ '?' :: u) : ReadsAs "(".toList r [.opn]
  | opnOnly (r : Str) : ReadsAs "(?:".toList r [.opn]
  | rep (t r : Str) (op : RepOp) (ht : RepText t op) (h : ∀ u, r ≠ '?' :: u) : ReadsAs t r [.rep op]
  /-- a repetition that is not greedy -/
  | repLazy (t r : Str) (op : RepOp) (ht : RepText t op) : ReadsAs (t ++ "?".toList) r [.rep op]
  | lit (c : Char) (r : Str) (h : c ∉ special) : ReadsAs [c] r [.piece (one c)]
  | brace (r : Str) (h : ∀ t u min max, Counted t min max → r ≠ t ++ u) : ReadsAs "{".toList r [.piece (one '{')]
  | oneOf (t r : Str) (l : List (Char × Char)) (ht : ClassText true t l) (h : ∀ u, t ≠ '^' :: u) :
      ReadsAs ('[' :: t) r [.piece (.cls false l)]
  | noneOf (t r : Str) (l : List (Char × Char)) (ht : ClassText true t l) :
      ReadsAs ('[' :: '^' :: t) r [.piece (.cls true l)]
  | letter (c : Char) (e : Re) (r : Str) (h : (c, e) ∈ letters) : ReadsAs ['\\', c] r [.piece e]
  | punct (c : Char) (r : Str) (h : c.toNat < 128) (h' : c.isAlphanum = false) : ReadsAs ['\\', c] r [.piece (one c)]
  | quote (q r : Str) (hq : q ≠ []) (h : ¬ "\\E".toList <:+: q) :
      ReadsAs ("\\Q".toList ++ q ++ "\\E".toList) r (q.map fun c => .piece (one c))
  /-- a quotation to the end -/
  | quoteRest (q : Str) (hq : q ≠ []) (h : ¬ "\\E".toList <:+: q) :
      ReadsAs ("\\Q".toList ++ q) [] (q.map fun c => .piece (one c))
  | nop (r : Str) : ReadsAs "\\Q\\E".toList r [.nop]
  | nopEnd : ReadsAs "\\Q".toList [] [.nop]

/-- The words of a text. -/
inductive Words : Str → List Word → Prop
  | nil : Words [] []
  | more (t r : Str) (ws us : List Word) (h : ReadsAs t r ws) (hr : Words r us) : Words (t ++ r) (ws ++ us)

/-- The text begins with a repetition, of nothing. -/
inductive BeginsWithRep : Str → Prop
  | rep (t r : Str) (op : RepOp) (ht : RepText t op) : BeginsWithRep (t ++ r)
  | nop (r : Str) (h : BeginsWithRep r) : BeginsWithRep ("\\Q\\E".toList ++ r)

/-! ## Phrases -/

/-- How often the most repeated part of an expression is repeated; repetitions inside of repetitions count as often
as the outer one says, and `{0}` hides what it repeats. -/
def size : Re → Nat
  | .rep a min max => if max = some 0 then 1 else Nat.max 1 (max.getD min) * size a
  | .cat a b => Nat.max (size a) (size b)
  | .alt a b => Nat.max (size a) (size b)
  | .star a => size a
  | .plus a => size a
  | .quest a => size a
  | _ => 1

/-- An expression, repeated. -/
def repeated : RepOp → Re → Re
  | .star, a => .star a
  | .plus, a => .plus a
  | .quest, a => .quest a
  | .range min max, a => .rep a min max

/-- Several expressions as one, from the left. -/
def joined (f : Re → Re → Re) : List Re → Re
  | [] => .eps
  | r :: rs => rs.foldl f r

mutual
/-- A piece, a group or a repetition of one; the flag tells whether a repetition is its last word. -/
inductive Item : Bool → List Word → Re → Prop
  | piece (r : Re) : Item false [.piece r] r
  | group (ws : List Word) (l : List Re) (h : Alts ws l) : Item false (.opn :: (ws ++ [.cls])) (joined .alt l)
  | nop (b : Bool) (ws : List Word) (r : Re) (h : Item b ws r) : Item false (ws ++ [.nop]) r
  /-- there is no repetition directly after another, and none that repeats too much -/
  | rep (ws : List Word) (r : Re) (op : RepOp) (h : Item false ws r) (hs : size (repeated op r) ≤ 1000) :
      Item true (ws ++ [.rep op]) (repeated op r)

/-- Items one after the other. -/
inductive Items : List Word → List Re → Prop
  | nil : Items [] []
  | nop (ws : List Word) (h : Items ws []) : Items (ws ++ [.nop]) []
  | more (b : Bool) (ws us : List Word) (l : List Re) (r : Re) (h : Items ws l) (hr : Item b us r) :
      Items (ws ++ us) (l ++ [r])

/-- Alternatives. -/
inductive Alts : List Word → List Re → Prop
  | one (ws : List Word) (l : List Re) (h : Items ws l) : Alts ws [joined .cat l]
  | more (ws us : List Word) (m l : List Re) (h : Alts ws m) (hl : Items us l) :
      Alts (ws ++ .bar :: us) (m ++ [joined .cat l])
end

/-- `s` is a regular expression and stands for `e`. -/
def Syntax (s : Str) (e : Re) : Prop := ∃ ws l, Words s ws ∧ Alts ws l ∧ e = joined .alt l

end J8a.Syn

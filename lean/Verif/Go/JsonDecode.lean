import Verif.Go.Json
/-!
# Package encoding/json (Go 1.15): `json.Unmarshal` into an `interface{}`

The scanner (scanner.go) and the decoder (decode.go) in one pass, as a recursive descent; both accept the
same texts. A number that `strconv.ParseFloat` finds out of range is an error; `fits` says which numbers are
not. Strings are bytes.
-/
namespace J8a.Go

/-- The values. A number is kept as its text, an object as its members in order. -/
inductive JTree where
  | null
  | bool (b : Bool)
  | num (text : Str)
  | str (s : Str)
  | arr (l : List JTree)
  | obj (l : List (Str × JTree))

/-- scanner.go `isSpace`. -/
def isJsonSpace (c : Char) : Bool := c = ' ' || c = '\t' || c = '\r' || c = '\n'

def skipSpace (s : Str) : Str := s.dropWhile isJsonSpace

/-- The value of a hexadecimal digit. -/
def hexDigitVal (c : Char) : Option Nat :=
  if '0' ≤ c ∧ c ≤ '9' then some (c.toNat - 48)
  else if 'a' ≤ c ∧ c ≤ 'f' then some (c.toNat - 87)
  else if 'A' ≤ c ∧ c ≤ 'F' then some (c.toNat - 55)
  else none

/-- decode.go `getu4`, after the `\u`. -/
def getu4 (s : Str) : Option Nat :=
  match s with
  | a :: b :: c :: d :: _ =>
    match hexDigitVal a, hexDigitVal b, hexDigitVal c, hexDigitVal d with
    | some a, some b, some c, some d => some (((a * 16 + b) * 16 + c) * 16 + d)
    | _, _, _, _ => none
  | _ => none

/-- `utf8.EncodeRune`. -/
def encodeRune (n : Nat) : Str :=
  if n < 0x80 then [Char.ofNat n]
  else if n < 0x800 then [Char.ofNat (0xc0 + n / 64), Char.ofNat (0x80 + n % 64)]
  else if n < 0x10000 then
    [Char.ofNat (0xe0 + n / 4096), Char.ofNat (0x80 + n / 64 % 64), Char.ofNat (0x80 + n % 64)]
  else
    [Char.ofNat (0xf0 + n / 262144), Char.ofNat (0x80 + n / 4096 % 64),
     Char.ofNat (0x80 + n / 64 % 64), Char.ofNat (0x80 + n % 64)]

/-- decode.go `unquoteBytes`, a `\uXXXX` of value `n` with `s` behind it: the bytes written and how much of
`s` is used up. A surrogate needs its other half, also written as `\uXXXX`; else it is replaced. -/
def unquoteHex (n : Nat) (s : Str) : Str × Nat :=
  if 0xd800 ≤ n ∧ n < 0xe000 then
    match s with
    | '\\' :: 'u' :: r => match getu4 r with
      | some m =>
        if n < 0xdc00 ∧ 0xdc00 ≤ m ∧ m < 0xe000 then
          (encodeRune ((n - 0xd800) * 1024 + (m - 0xdc00) + 0x10000), 6)
        else (encodeRune 0xfffd, 0)
      | none => (encodeRune 0xfffd, 0)
    | _ => (encodeRune 0xfffd, 0)
  else (encodeRune n, 0)

/-- decode.go `unquoteBytes`: the character after a backslash, other than `u`. -/
def unquoteEscape (e : Char) : Option Char :=
  if e = '"' ∨ e = '\\' ∨ e = '/' then some e
  else if e = 'b' then some (Char.ofNat 8)
  else if e = 'f' then some (Char.ofNat 12)
  else if e = 'n' then some '\n'
  else if e = 'r' then some '\r'
  else if e = 't' then some '\t'
  else none

/-- A string after its opening quote (scanner.go `stateInString` …, decode.go `unquoteBytes`): the value and
what follows the closing quote. The number bounds the length. -/
def jstring : Nat → Str → Option (Str × Str)
  | 0, _ => none
  | _, [] => none
  | n + 1, c :: s =>
    if c = '"' then some ([], s)
    else if c = '\\' then
      match s with
      | [] => none
      | e :: s =>
        if e = 'u' then
          match getu4 s with
          | none => none
          | some v =>
            let (bytes, used) := unquoteHex v (s.drop 4)
            (jstring n ((s.drop 4).drop used)).map fun p => (bytes ++ p.1, p.2)
        else match unquoteEscape e with
          | none => none
          | some u => (jstring n s).map fun p => (u :: p.1, p.2)
    else if c.toNat < 0x20 then none
    else match runeSize (c :: s) with
      | none => (jstring n s).map fun p => (encodeRune 0xfffd ++ p.1, p.2)
      | some k => (jstring n ((c :: s).drop k)).map fun p => ((c :: s).take k ++ p.1, p.2)

/-- Digits, and what follows. -/
def spanDigits (s : Str) : Str × Str := (s.takeWhile Char.isDigit, s.dropWhile Char.isDigit)

/-- scanner.go `stateNeg`, `state0`, `state1`. -/
def scanInt (s : Str) : Option (Str × Str) :=
  match s with
  | '0' :: r => some (['0'], r)
  | c :: _ => if c.isDigit then some (spanDigits s) else none
  | [] => none

/-- scanner.go `stateDot`, `stateDot0`. -/
def scanFrac (s : Str) : Option (Str × Str) :=
  match s with
  | '.' :: r => if (spanDigits r).1 = [] then none else some ('.' :: (spanDigits r).1, (spanDigits r).2)
  | s => some ([], s)

/-- The sign of an exponent. -/
def scanSign (s : Str) : Str × Str :=
  match s with
  | '+' :: r => (['+'], r)
  | '-' :: r => (['-'], r)
  | s => ([], s)

/-- scanner.go `stateE`, `stateESign`, `stateE0`. -/
def scanExp (s : Str) : Option (Str × Str) :=
  match s with
  | [] => some ([], [])
  | c :: r =>
    if c = 'e' ∨ c = 'E' then
      let (sign, r) := scanSign r
      if (spanDigits r).1 = [] then none else some (c :: sign ++ (spanDigits r).1, (spanDigits r).2)
    else some ([], s)

/-- scanner.go `stateBeginValue`: the sign of a number. -/
def scanMinus (s : Str) : Str × Str :=
  match s with
  | '-' :: r => (['-'], r)
  | s => ([], s)

/-- A number: its text and what follows. -/
def scanNumber (s : Str) : Option (Str × Str) :=
  let (minus, s) := scanMinus s
  match scanInt s with
  | none => none
  | some (i, s) => match scanFrac s with
    | none => none
    | some (f, s) => match scanExp s with
      | none => none
      | some (e, s) => some (minus ++ i ++ f ++ e, s)

/-- scanner.go `maxNestingDepth`. -/
def maxNesting : Nat := 10000

mutual

/-- decode.go `valueInterface`: a value at the beginning of the text, and what follows. The first number
bounds the length of the text, the second is how deep we are. -/
def jvalue (fits : Str → Bool) : Nat → Nat → Str → Option (JTree × Str)
  | 0, _, _ => none
  | n + 1, d, s =>
    match s with
    | '"' :: r => (jstring r.length r).map fun p => (.str p.1, p.2)
    | '{' :: r =>
      if maxNesting ≤ d then none
      else match skipSpace r with
        | '}' :: r => some (.obj [], r)
        | r => (jmembers fits n (d + 1) r).map fun p => (.obj p.1, p.2)
    | '[' :: r =>
      if maxNesting ≤ d then none
      else match skipSpace r with
        | ']' :: r => some (.arr [], r)
        | r => (jelems fits n (d + 1) r).map fun p => (.arr p.1, p.2)
    | 't' :: 'r' :: 'u' :: 'e' :: r => some (.bool true, r)
    | 'f' :: 'a' :: 'l' :: 's' :: 'e' :: r => some (.bool false, r)
    | 'n' :: 'u' :: 'l' :: 'l' :: r => some (.null, r)
    | s => match scanNumber s with
      | none => none
      | some (t, r) => if fits t then some (.num t, r) else none

/-- decode.go `objectInterface`: the members, from the first key to the closing brace. -/
def jmembers (fits : Str → Bool) : Nat → Nat → Str → Option (List (Str × JTree) × Str)
  | 0, _, _ => none
  | n + 1, d, s =>
    match s with
    | '"' :: r => match jstring r.length r with
      | none => none
      | some (k, r) => match skipSpace r with
        | ':' :: r => match jvalue fits n d (skipSpace r) with
          | none => none
          | some (v, r) => match skipSpace r with
            | ',' :: r => (jmembers fits n d (skipSpace r)).map fun p => ((k, v) :: p.1, p.2)
            | '}' :: r => some ([(k, v)], r)
            | _ => none
        | _ => none
    | _ => none

/-- decode.go `arrayInterface`: the elements, from the first one to the closing bracket. -/
def jelems (fits : Str → Bool) : Nat → Nat → Str → Option (List JTree × Str)
  | 0, _, _ => none
  | n + 1, d, s =>
    match jvalue fits n d s with
    | none => none
    | some (v, r) => match skipSpace r with
      | ',' :: r => (jelems fits n d (skipSpace r)).map fun p => (v :: p.1, p.2)
      | ']' :: r => some ([v], r)
      | _ => none

end

/-- `json.Unmarshal`; `none` for an error. -/
def jsonDecode (fits : Str → Bool) (s : Str) : Option JTree :=
  match jvalue fits (2 * s.length + 1) 0 (skipSpace s) with
  | some (v, r) => if skipSpace r = [] then some v else none
  | none => none

end J8a.Go

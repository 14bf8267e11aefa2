import Verif.Go.Num
/-!
# Package encoding/json

`json.Marshal` of a struct with fields of type `string` and `int` (Go 1.15, encode.go
`encodeState.string` with `escapeHTML`). Strings are bytes, so the UTF-8 decoder is part of it.
-/
namespace J8a.Go

/-- Is the byte in the range? -/
def inRange (lo hi : Nat) (c : Char) : Bool := lo ≤ c.toNat && c.toNat ≤ hi

/-- `utf8.acceptRanges`: the range of the second byte after this first byte. -/
def secondLo (a : Char) : Nat :=
  if a.toNat = 0xe0 then 0xa0 else if a.toNat = 0xf0 then 0x90 else 0x80

def secondHi (a : Char) : Nat :=
  if a.toNat = 0xed then 0x9f else if a.toNat = 0xf4 then 0x8f else 0xbf

/-- `utf8.DecodeRuneInString`, the size of the rune at the start of a non-empty string; `none` if the
bytes are not valid UTF-8 (`RuneError` with size 1). -/
def runeSize : Str → Option Nat
  | [] => none
  | a :: s =>
    if inRange 0 0x7f a then some 1
    else if inRange 0xc2 0xdf a then
      match s with
      | b :: _ => if inRange 0x80 0xbf b then some 2 else none
      | _ => none
    else if inRange 0xe0 0xef a then
      match s with
      | b :: c :: _ =>
        if inRange (secondLo a) (secondHi a) b && inRange 0x80 0xbf c then some 3 else none
      | _ => none
    else if inRange 0xf0 0xf4 a then
      match s with
      | b :: c :: d :: _ =>
        if inRange (secondLo a) (secondHi a) b && inRange 0x80 0xbf c && inRange 0x80 0xbf d then some 4
        else none
      | _ => none
    else none

/-- The table `hex`. -/
def hexDigit (n : Nat) : Char := if n < 10 then Char.ofNat (48 + n) else Char.ofNat (87 + n)

/-- A byte below 0x80. -/
def jsonAscii (c : Char) : Str :=
  if c = '\\' ∨ c = '"' then ['\\', c]
  else if c = '\n' then ['\\', 'n']
  else if c = '\r' then ['\\', 'r']
  else if c = '\t' then ['\\', 't']
  else if c.toNat < 0x20 ∨ c = '<' ∨ c = '>' ∨ c = '&' then
    "\\u00".toList ++ [hexDigit (c.toNat / 16), hexDigit (c.toNat % 16)]
  else [c]

/-- The three bytes of U+2028 and U+2029. -/
def isLineSep (s : Str) : Bool :=
  match s with
  | a :: b :: c :: _ => a.toNat == 0xe2 && b.toNat == 0x80 && (c.toNat == 0xa8 || c.toNat == 0xa9)
  | _ => false

/-- The escaped content of a string literal. The first argument bounds the length. -/
def jsonEscape : Nat → Str → Str
  | 0, _ => []
  | _, [] => []
  | n + 1, c :: s =>
    match runeSize (c :: s) with
    | none => "\\ufffd".toList ++ jsonEscape n s
    | some k =>
      if k = 1 then jsonAscii c ++ jsonEscape n s
      else if isLineSep (c :: s) then
        "\\u202".toList ++ [hexDigit ((s.getD 1 c).toNat % 16)] ++ jsonEscape n (s.drop 2)
      else (c :: s).take k ++ jsonEscape n ((c :: s).drop k)

def jsonString (s : Str) : Str := '"' :: jsonEscape s.length s ++ ['"']

/-- A field of the struct. -/
inductive JsonField where
  | str (s : Str)
  | int (n : Int)
deriving DecidableEq, Repr

def jsonField : JsonField → Str
  | .str s => jsonString s
  | .int n => itoa n

/-- `json.Marshal` of a struct, given its field names (which need no escape) and values. -/
def jsonObject (fields : List (Str × JsonField)) : Str :=
  '{' :: join [','] (fields.map fun f => jsonString f.1 ++ ':' :: jsonField f.2) ++ ['}']

/-- A string as bytes. -/
def strBytes (s : Str) : Bytes := s.map fun c => UInt8.ofNat c.toNat

end J8a.Go

import Verif.Go.Str
/-!
# UTF-8 (RFC 3629) and JSON objects (RFC 8259)

A fragment of JSON: one object whose values are strings, integers and booleans, without insignificant
white space. Characters are Unicode characters here, not bytes.
-/
namespace J8a

/-- The bytes of a character. -/
def utf8Char (u : Char) : Str :=
  let n := u.toNat
  if n < 0x80 then [Char.ofNat n]
  else if n < 0x800 then [Char.ofNat (0xc0 + n / 64), Char.ofNat (0x80 + n % 64)]
  else if n < 0x10000 then
    [Char.ofNat (0xe0 + n / 4096), Char.ofNat (0x80 + n / 64 % 64), Char.ofNat (0x80 + n % 64)]
  else
    [Char.ofNat (0xf0 + n / 262144), Char.ofNat (0x80 + n / 4096 % 64),
     Char.ofNat (0x80 + n / 64 % 64), Char.ofNat (0x80 + n % 64)]

/-- The bytes of a text. -/
def utf8 (t : List Char) : Str := t.flatMap utf8Char

namespace Json

def hexVal (c : Char) : Option Nat :=
  if '0' ≤ c ∧ c ≤ '9' then some (c.toNat - 48)
  else if 'a' ≤ c ∧ c ≤ 'f' then some (c.toNat - 87)
  else if 'A' ≤ c ∧ c ≤ 'F' then some (c.toNat - 55)
  else none

/-- Four hex digits; surrogates are not accepted. -/
def hex4 (a b c d : Char) : Option Char := do
  let n := ((← hexVal a) * 16 + (← hexVal b)) * 256 + (← hexVal c) * 16 + (← hexVal d)
  if 0xd800 ≤ n ∧ n ≤ 0xdfff then none else some (Char.ofNat n)

/-- The character after a backslash, other than `u`. -/
def escape : Char → Option Char
  | '"' => some '"'
  | '\\' => some '\\'
  | '/' => some '/'
  | 'b' => some (Char.ofNat 8)
  | 'f' => some (Char.ofNat 12)
  | 'n' => some '\n'
  | 'r' => some '\r'
  | 't' => some '\t'
  | _ => none

/-- A string after its opening quote: the value and what follows the closing quote. -/
def string : List Char → Option (List Char × List Char)
  | [] => none
  | '\\' :: 'u' :: a :: b :: c :: d :: r =>
    match hex4 a b c d, string r with
    | some u, some (v, r') => some (u :: v, r')
    | _, _ => none
  | '\\' :: e :: r =>
    match escape e, string r with
    | some u, some (v, r') => some (u :: v, r')
    | _, _ => none
  | c :: r =>
    if c = '"' then some ([], r)
    else if c = '\\' ∨ c.toNat < 0x20 then none
    else match string r with
      | some (v, r') => some (c :: v, r')
      | none => none

/-- A value. -/
inductive Value where
  | str (s : List Char)
  | int (n : Int)
  | bool (b : Bool)
deriving DecidableEq, Repr

/-- An unsigned integer: digits without leading zero. -/
def natural (t : List Char) : Option (Nat × List Char) :=
  let ds := t.takeWhile Char.isDigit
  if ds = [] ∨ (ds.head? = some '0' ∧ ds ≠ ['0']) then none
  else some (ds.foldl (fun n c => 10 * n + (c.toNat - 48)) 0, t.dropWhile Char.isDigit)

def value : List Char → Option (Value × List Char)
  | '"' :: r => (string r).map fun p => (.str p.1, p.2)
  | '-' :: r => (natural r).map fun p => (.int (-p.1), p.2)
  | 't' :: 'r' :: 'u' :: 'e' :: r => some (.bool true, r)
  | 'f' :: 'a' :: 'l' :: 's' :: 'e' :: r => some (.bool false, r)
  | r => (natural r).map fun p => (.int p.1, p.2)

/-- Members up to the closing brace. The number bounds how many. -/
def members : Nat → List Char → Option (List (List Char × Value) × List Char)
  | 0, _ => none
  | n + 1, t =>
    match t with
    | '"' :: r => do
      let (k, r) ← string r
      match r with
      | ':' :: r => do
        let (v, r) ← value r
        match r with
        | ',' :: r => do
          let (ms, r) ← members n r
          return ((k, v) :: ms, r)
        | '}' :: r => some ([(k, v)], r)
        | _ => none
      | _ => none
    | _ => none

/-- The members of the object a text denotes. -/
def parse (t : List Char) : Option (List (List Char × Value)) :=
  match t with
  | '{' :: '}' :: [] => some []
  | '{' :: r => match members r.length r with
    | some (ms, []) => some ms
    | _ => none
  | _ => none

end Json
end J8a

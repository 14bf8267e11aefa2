import Verif.Go.JsonDecode
import Verif.Spec.Json
/-!
# JSON (RFC 8259) and base64url (RFC 4648)

The grammar of JSON as a relation between a text of Unicode characters and what it denotes. Strings are given
as their UTF-8 bytes in the result.
-/
namespace J8a
open Go (JTree)

/-- Section 2: insignificant white space. -/
def JsonWs (t : List Char) : Prop := ∀ c ∈ t, c = ' ' ∨ c = '\t' ∨ c = '\n' ∨ c = '\r'

/-- Four hex digits as a number. -/
def hexNat (a b c d : Char) : Option Nat := do
  return (((← Json.hexVal a) * 16 + (← Json.hexVal b)) * 16 + (← Json.hexVal c)) * 16 + (← Json.hexVal d)

/-- Section 7: the characters between the quotes of a string, and the string. A surrogate must be
followed by its other half. -/
inductive JsonChars : List Char → List Char → Prop
  | nil : JsonChars [] []
  | plain {c : Char} {t v : List Char} : c ≠ '"' → c ≠ '\\' → 0x20 ≤ c.toNat → JsonChars t v →
      JsonChars (c :: t) (c :: v)
  | escape {e u : Char} {t v : List Char} : Json.escape e = some u → JsonChars t v →
      JsonChars ('\\' :: e :: t) (u :: v)
  | hex {a b c d u : Char} {t v : List Char} : hexNat a b c d = some u.toNat → JsonChars t v →
      JsonChars ('\\' :: 'u' :: a :: b :: c :: d :: t) (u :: v)
  | pair {a b c d a' b' c' d' u : Char} {n m : Nat} {t v : List Char} :
      hexNat a b c d = some n → 0xd800 ≤ n → n ≤ 0xdbff →
      hexNat a' b' c' d' = some m → 0xdc00 ≤ m → m ≤ 0xdfff →
      u.toNat = 0x10000 + (n - 0xd800) * 0x400 + (m - 0xdc00) → JsonChars t v →
      JsonChars ('\\' :: 'u' :: a :: b :: c :: d :: '\\' :: 'u' :: a' :: b' :: c' :: d' :: t) (u :: v)

/-- One or more digits. -/
def Digits (t : List Char) : Prop := t ≠ [] ∧ ∀ c ∈ t, '0' ≤ c ∧ c ≤ '9'

/-- Section 6: numbers. -/
structure JsonNumber (t : List Char) : Prop where
  parts : ∃ minus int frac exp, t = minus ++ int ++ frac ++ exp ∧
    (minus = [] ∨ minus = ['-']) ∧
    (int = ['0'] ∨ (Digits int ∧ int.head? ≠ some '0')) ∧
    (frac = [] ∨ ∃ ds, Digits ds ∧ frac = '.' :: ds) ∧
    (exp = [] ∨ ∃ e sign ds, (e = 'e' ∨ e = 'E') ∧ (sign = [] ∨ sign = ['+'] ∨ sign = ['-']) ∧
      Digits ds ∧ exp = e :: sign ++ ds)

/-- What a piece of text denotes. -/
inductive JsonPart where
  | value (v : JTree)
  | members (ms : List (Str × JTree))
  | elems (vs : List JTree)

/-- Sections 3 to 5: values, the members of an object, the elements of an array. The number bounds the
nesting of objects and arrays; `ok` says which numbers are in the range of the implementation, `chars` is what may be
between the quotes of a string, and the string. -/
inductive JsonTextOf (chars : List Char → Str → Prop) (ok : Str → Prop) : Nat → List Char → JsonPart → Prop
  | null {h : Nat} : JsonTextOf chars ok h ['n', 'u', 'l', 'l'] (.value .null)
  | true {h : Nat} : JsonTextOf chars ok h ['t', 'r', 'u', 'e'] (.value (.bool true))
  | false {h : Nat} : JsonTextOf chars ok h ['f', 'a', 'l', 's', 'e'] (.value (.bool false))
  | num {h : Nat} {t : List Char} : JsonNumber t → ok t → JsonTextOf chars ok h t (.value (.num t))
  | str {h : Nat} {t : List Char} {v : Str} : chars t v →
      JsonTextOf chars ok h ('"' :: t ++ ['"']) (.value (.str v))
  | noMembers {h : Nat} {w : List Char} : JsonWs w →
      JsonTextOf chars ok (h + 1) ('{' :: w ++ ['}']) (.value (.obj []))
  | obj {h : Nat} {t : List Char} {ms : List (Str × JTree)} : JsonTextOf chars ok h t (.members ms) →
      JsonTextOf chars ok (h + 1) ('{' :: t ++ ['}']) (.value (.obj ms))
  | noElems {h : Nat} {w : List Char} : JsonWs w →
      JsonTextOf chars ok (h + 1) ('[' :: w ++ [']']) (.value (.arr []))
  | arr {h : Nat} {t : List Char} {vs : List JTree} : JsonTextOf chars ok h t (.elems vs) →
      JsonTextOf chars ok (h + 1) ('[' :: t ++ [']']) (.value (.arr vs))
  | member {h : Nat} {w1 w2 w3 w4 kt vt : List Char} {k : Str} {v : JTree} : JsonWs w1 → JsonWs w2 →
      JsonWs w3 → JsonWs w4 → chars kt k → JsonTextOf chars ok h vt (.value v) →
      JsonTextOf chars ok h (w1 ++ '"' :: kt ++ '"' :: w2 ++ ':' :: w3 ++ vt ++ w4) (.members [(k, v)])
  | moreMembers {h : Nat} {w1 w2 w3 w4 kt vt t : List Char} {k : Str} {v : JTree}
      {ms : List (Str × JTree)} : JsonWs w1 → JsonWs w2 → JsonWs w3 → JsonWs w4 → chars kt k →
      JsonTextOf chars ok h vt (.value v) → JsonTextOf chars ok h t (.members ms) →
      JsonTextOf chars ok h (w1 ++ '"' :: kt ++ '"' :: w2 ++ ':' :: w3 ++ vt ++ w4 ++ ',' :: t)
        (.members ((k, v) :: ms))
  | elem {h : Nat} {w1 w2 vt : List Char} {v : JTree} : JsonWs w1 → JsonWs w2 →
      JsonTextOf chars ok h vt (.value v) → JsonTextOf chars ok h (w1 ++ vt ++ w2) (.elems [v])
  | moreElems {h : Nat} {w1 w2 vt t : List Char} {v : JTree} {vs : List JTree} : JsonWs w1 →
      JsonWs w2 → JsonTextOf chars ok h vt (.value v) → JsonTextOf chars ok h t (.elems vs) →
      JsonTextOf chars ok h (w1 ++ vt ++ w2 ++ ',' :: t) (.elems (v :: vs))

/-- A string as the RFC has it, in UTF-8. -/
def strictChars (t : List Char) (v : Str) : Prop := ∃ u, JsonChars t u ∧ v = utf8 u

/-- A text as the RFC has it. -/
abbrev JsonText := JsonTextOf strictChars

/-- The replacement character, U+FFFD. -/
def replacement : Str := utf8Char (Char.ofNat 0xfffd)

/-- The second half of a character of two surrogates is here. -/
def LowHalf (t : Str) : Prop := ∃ a b c d r m, t = '\\' :: 'u' :: a :: b :: c :: d :: r ∧ hexNat a b c d = some m ∧
  0xdc00 ≤ m ∧ m ≤ 0xdfff

/-- Section 8.2: the RFC leaves open what becomes of surrogates without their other half, and of what is no UTF-8. Here
they are replaced. The text is given as its bytes. -/
inductive LooseChars : Str → Str → Prop
  | nil : LooseChars [] []
  | plain {u : Char} {t v : Str} : u ≠ '"' → u ≠ '\\' → 0x20 ≤ u.toNat → LooseChars t v →
      LooseChars (utf8Char u ++ t) (utf8Char u ++ v)
  | bad {b : Char} {t v : Str} : (∀ u r, b :: t ≠ utf8Char u ++ r) → LooseChars t v →
      LooseChars (b :: t) (replacement ++ v)
  | escape {e u : Char} {t v : Str} : Json.escape e = some u → LooseChars t v →
      LooseChars ('\\' :: e :: t) (u :: v)
  | hex {a b c d u : Char} {t v : Str} : hexNat a b c d = some u.toNat → LooseChars t v →
      LooseChars ('\\' :: 'u' :: a :: b :: c :: d :: t) (utf8Char u ++ v)
  | pair {a b c d a' b' c' d' u : Char} {n m : Nat} {t v : Str} :
      hexNat a b c d = some n → 0xd800 ≤ n → n ≤ 0xdbff →
      hexNat a' b' c' d' = some m → 0xdc00 ≤ m → m ≤ 0xdfff →
      u.toNat = 0x10000 + (n - 0xd800) * 0x400 + (m - 0xdc00) → LooseChars t v →
      LooseChars ('\\' :: 'u' :: a :: b :: c :: d :: '\\' :: 'u' :: a' :: b' :: c' :: d' :: t) (utf8Char u ++ v)
  | alone {a b c d : Char} {n : Nat} {t v : Str} : hexNat a b c d = some n → 0xd800 ≤ n → n ≤ 0xdfff →
      ¬ (n ≤ 0xdbff ∧ LowHalf t) → LooseChars t v →
      LooseChars ('\\' :: 'u' :: a :: b :: c :: d :: t) (replacement ++ v)

/-- RFC 4648, table 2. -/
def b64Alphabet : List Char :=
  "ABCDEFGHIJKLMNOPQRSTUVWXYZabcdefghijklmnopqrstuvwxyz0123456789-_".toList

def b64Char (n : Nat) : Char := b64Alphabet.getD (n % 64) 'A'

/-- RFC 4648, sections 4 and 5, without padding (RFC 7515, section 2): groups of 24 bits are four groups of six;
a last group that is short is filled up with zero bits. -/
def base64url : Str → Str
  | [] => []
  | [a] =>
    let v := a.toNat * 16
    [b64Char (v / 64), b64Char v]
  | [a, b] =>
    let v := (a.toNat * 256 + b.toNat) * 4
    [b64Char (v / 4096), b64Char (v / 64), b64Char v]
  | a :: b :: c :: r =>
    let v := (a.toNat * 256 + b.toNat) * 256 + c.toNat
    b64Char (v / 262144) :: b64Char (v / 4096) :: b64Char (v / 64) :: b64Char v :: base64url r

/-- The bits of a number, the most significant first. -/
def bits6 (n : Nat) : List Nat := [n / 32 % 2, n / 16 % 2, n / 8 % 2, n / 4 % 2, n / 2 % 2, n % 2]

def bits8 (n : Nat) : List Nat := [n / 128 % 2, n / 64 % 2] ++ bits6 n

/-- What a text in base64url stands for, read without care: line breaks do not count, and neither do the bits that are left
over. -/
def Base64Of (s : Str) (bytes : Str) : Prop :=
  ∃ (letters : List Nat) (extra : List Nat), (s.filter fun c => c ≠ '\n' ∧ c ≠ '\r') = letters.map b64Char ∧
    (∀ n ∈ letters, n < 64) ∧ (∀ c ∈ bytes, c.toNat < 256) ∧
    letters.flatMap bits6 = bytes.flatMap (fun c => bits8 c.toNat) ++ extra ∧ extra.length < 6

end J8a

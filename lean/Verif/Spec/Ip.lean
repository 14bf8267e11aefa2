import Verif.Go.Str
/-! # Textual addresses -/
namespace J8a
open Go

/-- `a.b.c.d`. -/
def v4Text (a b c d : Nat) : Str :=
  natToDec a ++ '.' :: natToDec b ++ '.' :: natToDec c ++ '.' :: natToDec d

/-- A hexadecimal digit. -/
def IsHex (c : Char) : Prop := c ∈ "0123456789abcdefABCDEF".toList

/-- One group of an IPv6 address. -/
def IsGroup (g : Str) : Prop := 1 ≤ g.length ∧ g.length ≤ 4 ∧ ∀ c ∈ g, IsHex c

/-- Groups with colons in between. -/
def colonJoin (gs : List Str) : Str := join [':'] gs

/-- The form `g1:…:gm::h1:…:hn`. -/
def v6Short (pre post : List Str) : Str := colonJoin pre ++ "::".toList ++ colonJoin post

/-- `[addr]:port`. -/
def v6Remote (addr port : Str) : Str := '[' :: addr ++ ']' :: ':' :: port

/-- What separates words: anything but letters, digits, dots, colons and percent signs. -/
def IsSeparator (c : Char) : Prop :=
  c ∉ "0123456789abcdefghijklmnopqrstuvwxyzABCDEFGHIJKLMNOPQRSTUVWXYZ.:%".toList

instance : DecidablePred IsSeparator := fun _ => inferInstanceAs (Decidable (_ ∉ _))

/-- A text without percent signs and double colons whose words have at most six colons and no dot behind a
colon. So `remote error: tls: bad certificate` and `read tcp 10.0.0.1:443->10.0.0.2:5000: i/o timeout`. The
arguments before the text: how many colons the word has so far, and whether the last character was one. -/
def calm : Nat → Bool → Str → Bool
  | _, _, [] => true
  | k, p, c :: s =>
    if c = '%' then false
    else if IsSeparator c then calm 0 false s
    else if c = ':' then !p && k < 6 && calm (k + 1) true s
    else if c = '.' then k == 0 && calm k false s
    else calm k false s

end J8a

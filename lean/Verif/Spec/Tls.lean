import Verif.Model.Tls
/-! # Vocabulary for certificate chains -/
namespace J8a
open Go

/-- An upper case hexadecimal digit. -/
def IsHexDigit (c : Char) : Prop := c ∈ "0123456789ABCDEF".toList

/-- Its value. -/
def hexDigitVal (c : Char) : Nat := if c.isDigit then c.toNat - 48 else c.toNat - 55

/-- Value of a string of hexadecimal digits. -/
def hexVal (s : Str) : Nat := s.foldl (fun n c => 16 * n + hexDigitVal c) 0

/-- `s` is `n` in hexadecimal: pairs of digits separated by dashes, no superfluous leading pair. -/
def DashedHex (n : Nat) (s : Str) : Prop :=
  ∃ g : Str, ∃ gs : List Str, s = join ['-'] (g :: gs) ∧
    (∀ p ∈ g :: gs, p.length = 2 ∧ ∀ c ∈ p, IsHexDigit c) ∧
    hexVal (g :: gs).flatten = n ∧ (gs ≠ [] → g ≠ ['0', '0'])

/-- The certificate names itself as its issuer, as a self-signed one must. -/
def SelfIssued (c : Cert) : Prop := c.issuer = c.subject

/-- No two clock readings saturate. -/
def InRange (chain : List Cert) (now : Nat → Int) : Prop :=
  ∀ i c, chain[i]? = some c → minInt64 < c.notAfter - now i ∧ c.notAfter - now i < maxInt64

end J8a

import Verif.Go.Str
/-!
# RFC 4122: UUIDs as text, and those made from random numbers
-/
namespace J8a
namespace Uuid

/-- The value of a hexadecimal digit, of either case. -/
def digit (c : Char) : Option Nat :=
  if '0' ≤ c ∧ c ≤ '9' then some (c.toNat - '0'.toNat)
  else if 'a' ≤ c ∧ c ≤ 'f' then some (c.toNat - 'a'.toNat + 10)
  else if 'A' ≤ c ∧ c ≤ 'F' then some (c.toNat - 'A'.toNat + 10)
  else none

/-- hexOctet = hexDigit hexDigit, so many of them in front of a text. -/
def octets : Nat → Str → Option (List Nat × Str)
  | 0, s => some ([], s)
  | n + 1, a :: b :: s => do
    let x ← digit a
    let y ← digit b
    let (l, r) ← octets n s
    return ((16 * x + y) :: l, r)
  | _ + 1, _ => none

def hyphen : Str → Option Str
  | '-' :: s => some s
  | _ => none

/-- RFC 4122, section 3: UUID = time-low "-" time-mid "-" time-high-and-version "-"
clock-seq-and-reserved clock-seq-low "-" node. -/
def read (s : Str) : Option (List Nat) := do
  let (a, s) ← octets 4 s
  let s ← hyphen s
  let (b, s) ← octets 2 s
  let s ← hyphen s
  let (c, s) ← octets 2 s
  let s ← hyphen s
  let (d, s) ← octets 2 s
  let s ← hyphen s
  let (e, s) ← octets 6 s
  if s = [] then some (a ++ b ++ c ++ d ++ e) else none

/-- RFC 4122, section 4.4: the octets `u` are those of a random UUID whose 122 random bits are those of `r`. -/
structure RandomFrom (r u : List Nat) : Prop where
  length : u.length = 16
  version : u.getD 6 0 / 16 = 4
  variant : u.getD 8 0 / 64 = 2
  octet6 : u.getD 6 0 % 16 = r.getD 6 0 % 16
  octet8 : u.getD 8 0 % 64 = r.getD 8 0 % 64
  others : ∀ i, i ≠ 6 → i ≠ 8 → i < 16 → u.getD i 0 = r.getD i 0

/-- The same 122 bits. -/
structure SameBits (r r' : List Nat) : Prop where
  octet6 : r.getD 6 0 % 16 = r'.getD 6 0 % 16
  octet8 : r.getD 8 0 % 64 = r'.getD 8 0 % 64
  others : ∀ i, i ≠ 6 → i ≠ 8 → i < 16 → r.getD i 0 = r'.getD i 0

example : read "f81d4fae-7dec-11d0-A765-00a0c91e6bf6".toList = some
    [0xf8, 0x1d, 0x4f, 0xae, 0x7d, 0xec, 0x11, 0xd0, 0xa7, 0x65, 0x00, 0xa0, 0xc9, 0x1e, 0x6b, 0xf6] := by
  decide +kernel

end Uuid
end J8a

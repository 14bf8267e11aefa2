import Verif.Go.Str
/-!
# Package encoding/base64 (Go 1.15): `RawURLEncoding.DecodeString`, `StdEncoding.EncodeToString`

`Encoding.Decode` with its fast paths for eight and four characters does the same as `decodeQuantum`
over and over. Line breaks are skipped; the unused bits of the last character are not looked at, because
the encoding is not strict.
-/
namespace J8a.Go

/-- `decodeMap` of `encodeURL`. -/
def b64Val (c : Char) : Option Nat :=
  if 'A' ≤ c ∧ c ≤ 'Z' then some (c.toNat - 65)
  else if 'a' ≤ c ∧ c ≤ 'z' then some (c.toNat - 71)
  else if '0' ≤ c ∧ c ≤ '9' then some (c.toNat + 4)
  else if c = '-' then some 62
  else if c = '_' then some 63
  else none

/-- A byte. -/
def byteChar (n : Nat) : Char := Char.ofNat (n % 256)

/-- `decodeQuantum`, until the input ends. -/
def b64Groups : List Nat → Option Str
  | [] => some []
  | [_] => none
  | [a, b] => some [byteChar ((a * 64 + b) / 16)]
  | [a, b, c] =>
    let v := (a * 64 + b) * 64 + c
    some [byteChar (v / 1024), byteChar (v / 4)]
  | a :: b :: c :: d :: r =>
    let v := ((a * 64 + b) * 64 + c) * 64 + d
    (b64Groups r).map fun s => byteChar (v / 65536) :: byteChar (v / 256) :: byteChar v :: s

/-- `RawURLEncoding.DecodeString`; `none` for an error. -/
def b64Decode (s : Str) : Option Str :=
  ((s.filter fun c => c ≠ '\n' ∧ c ≠ '\r').mapM b64Val).bind b64Groups

/-- `encodeStd`. -/
def b64Std (n : Nat) : Char :=
  "ABCDEFGHIJKLMNOPQRSTUVWXYZabcdefghijklmnopqrstuvwxyz0123456789+/".toList.getD (n % 64) 'A'

/-- `StdEncoding.EncodeToString`, with padding. -/
def b64Encode : Str → Str
  | [] => []
  | [a] =>
    let v := a.toNat * 65536
    [b64Std (v / 262144), b64Std (v / 4096), '=', '=']
  | [a, b] =>
    let v := a.toNat * 65536 + b.toNat * 256
    [b64Std (v / 262144), b64Std (v / 4096), b64Std (v / 64), '=']
  | a :: b :: c :: r =>
    let v := a.toNat * 65536 + b.toNat * 256 + c.toNat
    b64Std (v / 262144) :: b64Std (v / 4096) :: b64Std (v / 64) :: b64Std v :: b64Encode r

end J8a.Go

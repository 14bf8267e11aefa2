import Verif.Go.Str
/-!
# crypto/md5 and encoding/hex

MD5 as in RFC 1321, which `md5.New`, `Write` and `Sum` compute, and `hex.EncodeToString`.
-/
namespace J8a.Go

/-- RFC 1321 3.4: `floor(2^32 * abs(sin(i + 1)))`. -/
def md5Table : List UInt32 :=
  [0xd76aa478, 0xe8c7b756, 0x242070db, 0xc1bdceee, 0xf57c0faf, 0x4787c62a, 0xa8304613, 0xfd469501,
   0x698098d8, 0x8b44f7af, 0xffff5bb1, 0x895cd7be, 0x6b901122, 0xfd987193, 0xa679438e, 0x49b40821,
   0xf61e2562, 0xc040b340, 0x265e5a51, 0xe9b6c7aa, 0xd62f105d, 0x02441453, 0xd8a1e681, 0xe7d3fbc8,
   0x21e1cde6, 0xc33707d6, 0xf4d50d87, 0x455a14ed, 0xa9e3e905, 0xfcefa3f8, 0x676f02d9, 0x8d2a4c8a,
   0xfffa3942, 0x8771f681, 0x6d9d6122, 0xfde5380c, 0xa4beea44, 0x4bdecfa9, 0xf6bb4b60, 0xbebfbc70,
   0x289b7ec6, 0xeaa127fa, 0xd4ef3085, 0x04881d05, 0xd9d4d039, 0xe6db99e5, 0x1fa27cf8, 0xc4ac5665,
   0xf4292244, 0x432aff97, 0xab9423a7, 0xfc93a039, 0x655b59c3, 0x8f0ccc92, 0xffeff47d, 0x85845dd1,
   0x6fa87e4f, 0xfe2ce6e0, 0xa3014314, 0x4e0811a1, 0xf7537e82, 0xbd3af235, 0x2ad7d2bb, 0xeb86d391]

/-- RFC 1321 3.4: the rotations of the four rounds. -/
def md5Shifts : List UInt32 :=
  [7, 12, 17, 22, 5, 9, 14, 20, 4, 11, 16, 23, 6, 10, 15, 21]

def rotl32 (x s : UInt32) : UInt32 := (x <<< s) ||| (x >>> (32 - s))

/-- RFC 1321 3.3: the four words of the buffer. -/
structure Md5State where
  a : UInt32 := 0x67452301
  b : UInt32 := 0xefcdab89
  c : UInt32 := 0x98badcfe
  d : UInt32 := 0x10325476
deriving DecidableEq, Repr

/-- RFC 1321 3.4: step `i` of 64 on a block of sixteen words. -/
def md5Step (m : List UInt32) (s : Md5State) (i : Nat) : Md5State :=
  let fg : UInt32 × Nat :=
    if i < 16 then ((s.b &&& s.c) ||| (~~~s.b &&& s.d), i)
    else if i < 32 then ((s.d &&& s.b) ||| (~~~s.d &&& s.c), (5 * i + 1) % 16)
    else if i < 48 then (s.b ^^^ s.c ^^^ s.d, (3 * i + 5) % 16)
    else (s.c ^^^ (s.b ||| ~~~s.d), (7 * i) % 16)
  let t := s.a + fg.1 + md5Table.getD i 0 + m.getD fg.2 0
  ⟨s.d, s.b + rotl32 t (md5Shifts.getD (i / 16 * 4 + i % 4) 0), s.b, s.c⟩

def md5Block (s : Md5State) (m : List UInt32) : Md5State :=
  let r := (List.range 64).foldl (md5Step m) s
  ⟨s.a + r.a, s.b + r.b, s.c + r.c, s.d + r.d⟩

/-- The lowest byte of a word first. -/
def leBytes32 (w : UInt32) : Bytes := [w.toUInt8, (w >>> 8).toUInt8, (w >>> 16).toUInt8, (w >>> 24).toUInt8]

def leWords : Bytes → List UInt32
  | a :: b :: c :: d :: t =>
    (a.toUInt32 ||| (b.toUInt32 <<< 8) ||| (c.toUInt32 <<< 16) ||| (d.toUInt32 <<< 24)) :: leWords t
  | _ => []

/-- RFC 1321 3.1, 3.2: one bit, zeros, and the number of bits in eight bytes. -/
def md5Pad (msg : Bytes) : Bytes :=
  msg ++ 0x80 :: List.replicate ((119 - msg.length % 64) % 64) 0 ++
    leBytes32 (UInt32.ofNat (8 * msg.length)) ++ leBytes32 (UInt32.ofNat (8 * msg.length / 2 ^ 32))

/-- So many blocks of sixteen words. -/
def md5Blocks : Nat → List UInt32 → List (List UInt32)
  | 0, _ => []
  | n + 1, l => l.take 16 :: md5Blocks n (l.drop 16)

def md5 (msg : Bytes) : Bytes :=
  let s := (md5Blocks ((md5Pad msg).length / 64) (leWords (md5Pad msg))).foldl md5Block {}
  leBytes32 s.a ++ leBytes32 s.b ++ leBytes32 s.c ++ leBytes32 s.d

def hexNibble (n : Nat) : Char := "0123456789abcdef".toList.getD n '0'

/-- `hex.EncodeToString`. -/
def hexEncode (b : Bytes) : Str := b.flatMap fun x => [hexNibble (x.toNat / 16), hexNibble (x.toNat % 16)]

/-- The examples of RFC 1321 A.5. -/
def md5Hex (s : String) : Str := hexEncode (md5 (s.toList.map fun c => UInt8.ofNat c.toNat))
example : md5Hex "" = "d41d8cd98f00b204e9800998ecf8427e".toList := by decide +kernel
example : md5Hex "abc" = "900150983cd24fb0d6963f7d28e17f72".toList := by decide +kernel
example : md5Hex "ABCDEFGHIJKLMNOPQRSTUVWXYZabcdefghijklmnopqrstuvwxyz0123456789" =
    "d174ab98d277d9f5a5611c2c9f419d9f".toList := by decide +kernel

theorem md5_length (msg : Bytes) : (md5 msg).length = 16 := rfl

theorem hexEncode_length (b : Bytes) : (hexEncode b).length = 2 * b.length := by
  induction b with
  | nil => rfl
  | cons x b ih =>
    unfold hexEncode at ih ⊢
    rw [List.flatMap_cons, List.length_append, ih]
    simp only [List.length_cons, List.length_nil]
    omega

theorem hexNibble_mem (n : Nat) : hexNibble n ∈ "0123456789abcdef".toList := by
  unfold hexNibble
  rw [List.getD_eq_getElem?_getD]
  cases h : "0123456789abcdef".toList[n]? with
  | none => decide
  | some c => exact List.mem_of_getElem? h

theorem hexEncode_digits (b : Bytes) : ∀ c ∈ hexEncode b, c ∈ "0123456789abcdef".toList := by
  intro c hc
  obtain ⟨x, -, hc⟩ := List.mem_flatMap.1 hc
  simp only [List.mem_cons, List.not_mem_nil, or_false] at hc
  rcases hc with rfl | rfl <;> exact hexNibble_mem _

end J8a.Go

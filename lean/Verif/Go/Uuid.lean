import Verif.Go.Md5
/-!
# google/uuid 1.1.2: random UUIDs, from its source as remembered
-/
namespace J8a.Go

/-- `io.ReadFull(rander, uuid[:])`: the first sixteen bytes of what the source still gives, or an error. -/
def readFull16 (src : Bytes) : Option Bytes := if 16 ≤ src.length then some (src.take 16) else none

/-- `uuid.Nil`. -/
def uuidNil : Bytes := List.replicate 16 0

/-- version4.go `NewRandom`: the UUID, and whether there is an error. -/
def newRandom (src : Bytes) : Bytes × Bool :=
  match readFull16 src with
  | none => (uuidNil, true)
  | some u => ((u.modify 6 fun x => x &&& 0x0f ||| 0x40).modify 8 fun x => x &&& 0x3f ||| 0x80, false)

/-- uuid.go `encodeHex`: the groups of the text have 4, 2, 2, 2 and 6 bytes. -/
def uuidString (u : Bytes) : Str :=
  hexEncode (u.take 4) ++ '-' :: hexEncode ((u.drop 4).take 2) ++ '-' :: hexEncode ((u.drop 6).take 2) ++
    '-' :: hexEncode ((u.drop 8).take 2) ++ '-' :: hexEncode (u.drop 10)

end J8a.Go

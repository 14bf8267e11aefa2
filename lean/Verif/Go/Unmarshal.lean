import Verif.Go.Str
/-!
# encoding/json (Go 1.15) — `json.Unmarshal` of a document into Go values

The document is given as a tree. `Unmarshal` stores what it can: a value that does not fit its target is left
out, the rest is decoded, and the first misfit is returned as an error afterwards (which config.go:94 ignores).
-/
namespace J8a.Go

/-- A JSON document. A number has the integer it denotes if it is written without fraction and exponent, and
its nearest float64 (see `Go/F64.lean`). -/
inductive JVal where
  | null
  | bool (b : Bool)
  | num (int : Option Int) (val : Int)
  | str (s : Str)
  | arr (l : List JVal)
  | obj (kvs : List (Str × JVal))

/-- How a value is decoded into a variable: the value before, the document, the value after. -/
abbrev Dec (α : Type) := α → JVal → α

/-- decode.go `literalStore` for a string variable. -/
def decString : Dec Str
  | _, .str s => s
  | old, _ => old

/-- decode.go `literalStore` for an integer variable that holds `lo … hi`. -/
def decInt (lo hi : Int) : Dec Int
  | old, .num (some i) _ => if lo ≤ i ∧ i ≤ hi then i else old
  | old, _ => old

/-- `int` and `int64`. -/
def decInt64 : Dec Int := decInt (-(2 ^ 63)) (2 ^ 63 - 1)

/-- `uint16`. -/
def decUint16 : Dec Nat := fun old v => (decInt 0 65535 (old : Int) v).toNat

/-- decode.go `literalStore` for a float64 variable. (Numbers beyond the range of float64 are left out.) -/
def decFloat : Dec Int
  | _, .num _ val => val
  | old, _ => old

def decBool : Dec Bool
  | _, .bool b => b
  | old, _ => old

/-- decode.go `array` for a slice: elements are decoded into those that are there, then into new ones. (When a
slice was cut short before, what was behind its end would come back; that needs the same key three times.) -/
def decElems {α : Type} (zero : α) (d : Dec α) : List α → List JVal → List α
  | _, [] => []
  | old, v :: vs => d (old.headD zero) v :: decElems zero d old.tail vs

/-- A slice; null makes it nil, which reads like the empty one. -/
def decSlice {α : Type} (zero : α) (d : Dec α) : Dec (List α)
  | old, .arr l => decElems zero d old l
  | _, .null => []
  | old, _ => old

/-- decode.go `object`, the field for a key: that of the same name, else the first that differs in case
only. -/
def findField {S : Type} (fields : List (Str × Dec S)) (k : Str) : Option (Dec S) :=
  match fields.find? (fun f => f.1 == k) with
  | some f => some f.2
  | none => (fields.find? (fun f => equalFold f.1 k)).map Prod.snd

/-- decode.go `object` for a struct: key by key, keys without a field are skipped. -/
def decStruct {S : Type} (fields : List (Str × Dec S)) : Dec S
  | old, .obj kvs => kvs.foldl (fun s kv => match findField fields kv.1 with
      | some d => d s kv.2
      | none => s) old
  | old, _ => old

/-- decode.go `object` for a map, read as a function: every element is decoded into a fresh one. -/
def decMap {α : Type} (d : JVal → Option α) : Dec (Str → Option α)
  | old, .obj kvs => kvs.foldl (fun m kv => fun n => if n = kv.1 then d kv.2 else m n) old
  | _, .null => fun _ => none
  | old, _ => old

/-- One element of a map that is iterated over later. -/
def putEntry {α : Type} (k : Str) (a : α) : List (Str × α) → List (Str × α)
  | [] => [(k, a)]
  | e :: l => if e.1 = k then (k, a) :: l else e :: putEntry k a l

/-- decode.go `object` for a map that is iterated over later. -/
def decEntries {α : Type} (d : JVal → α) : Dec (List (Str × α))
  | old, .obj kvs => kvs.foldl (fun m kv => putEntry kv.1 (d kv.2) m) old
  | _, .null => []
  | old, _ => old

/-- The decoder of a struct for one of its fields. -/
def field {S α : Type} (name : String) (get : S → α) (set : S → α → S) (d : Dec α) : Str × Dec S :=
  (name.toList, fun s v => set s (d (get s) v))

end J8a.Go

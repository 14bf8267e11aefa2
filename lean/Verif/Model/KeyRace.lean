import Verif.Model.Jwt
/-!
# jwt.go:19-41, 188-234 and proxy.go:540-544 — a key set in memory, read while it is refreshed

`LoadJwks` runs in its own goroutine (proxy.go:623) and appends to the key set of the running
configuration. Requests copy the header of the same slice (proxy.go:540, 542, 544) and walk along it
(jwt.go:35, proxy.go:606), with no lock. The Go memory model says of such accesses: "reads and writes
of values larger than a single machine word behave as multiple machine-word-sized operations in an
unspecified order". So here

* a slice header is three words (pointer, length, capacity), loaded and stored one by one;
* the stores of one `append` happen in any order. (The compiler of Go 1.15 emits capacity, pointer,
  length, entry; see `state.append` in cmd/compile/internal/gc/ssa.go.)
* memory is otherwise sequentially consistent.

Simplified: each of the two fields of an entry is one word (Go splits either in two), and the load of
an entry is one step. There is one writer, because `LoadJwks` holds the lock while it calls `Upsert`
(C22), and one reader, because readers do not change anything.
-/
namespace J8a

variable {K : Type}

/-- An entry of the array behind a key set. A word that has not been stored yet is zero (`none`). -/
structure KeyCell (K : Type) where
  kid : Option Str := none
  key : Option K := none
deriving DecidableEq, Repr

/-- An entry of a new array. -/
def zeroCell : KeyCell K := ⟨none, none⟩

/-- The entry that holds `kp` completely. -/
def KidPair.cell (kp : KidPair K) : KeyCell K := ⟨some kp.kid, some kp.key⟩

/-- One store of a machine word. -/
inductive KeyStore (K : Type) where
  | ptr (a : Nat)
  | len (n : Nat)
  | cap (c : Nat)
  | kid (a i : Nat) (kid : Str)
  | key (a i : Nat) (key : K)
deriving DecidableEq, Repr

/-- The memory of a key set: all arrays that were ever allocated for it, the three words of the
slice header, and the stores the writer has still to make for the current `append`. The reader: the
words of the header it has loaded, and the entries it has read; `none` stands for a read beyond the
end of the array, of whatever is there. -/
structure KeyMem (K : Type) where
  arrays : List (List (KeyCell K))
  ptr : Nat
  len : Nat
  cap : Nat
  pending : List (KeyStore K) := []
  rptr : Option Nat := none
  rlen : Option Nat := none
  seen : List (Option (KeyCell K)) := []
deriving DecidableEq, Repr

/-- The entries of the key set as the writer sees them. -/
def KeyMem.contents (m : KeyMem K) : List (KeyCell K) :=
  ((m.arrays[m.ptr]?).getD []).take m.len

/-- Change one entry. -/
def setCell (arrays : List (List (KeyCell K))) (a i : Nat) (f : KeyCell K → KeyCell K) :
    List (List (KeyCell K)) :=
  arrays.modify a (fun cells => cells.modify i f)

/-- The effect of one store. -/
def KeyStore.apply (m : KeyMem K) : KeyStore K → KeyMem K
  | .ptr a => { m with ptr := a }
  | .len n => { m with len := n }
  | .cap c => { m with cap := c }
  | .kid a i s => { m with arrays := setCell m.arrays a i (fun c => { c with kid := some s }) }
  | .key a i k => { m with arrays := setCell m.arrays a i (fun c => { c with key := some k }) }

/-- The array `append` allocates when there is no room: the old entries, then zeros. -/
def KeyMem.grown (grow : Nat → Nat) (m : KeyMem K) : List (KeyCell K) :=
  m.contents ++ List.replicate (grow m.cap - m.len) zeroCell

/-- jwt.go:30 `*ks = append(*ks, kp)`: the stores to be made. `grow` is the capacity the runtime
chooses. -/
def KeyMem.append (grow : Nat → Nat) (m : KeyMem K) (kp : KidPair K) : KeyMem K :=
  if m.len < m.cap then
    { m with
      pending := [.len (m.len + 1), .kid m.ptr m.len kp.kid, .key m.ptr m.len kp.key] }
  else
    { m with
      arrays := m.arrays ++ [m.grown grow]
      pending := [.cap (grow m.cap), .ptr m.arrays.length, .len (m.len + 1),
        .kid m.arrays.length m.len kp.kid, .key m.arrays.length m.len kp.key] }

/-- jwt.go:21-32 `Upsert`. -/
def KeyMem.upsert (grow : Nat → Nat) (m : KeyMem K) (kp : KidPair K) : KeyMem K :=
  if m.contents.any (fun c => c.kid == some kp.kid) then m else m.append grow kp

/-- What can happen next. -/
inductive KeyAct (K : Type) where
  /-- the refresh calls `Upsert` for the next key (jwt.go:214, 229) -/
  | upsert (kp : KidPair K)
  /-- the refresh makes one of its pending stores -/
  | store (i : Nat)
  /-- the request loads the pointer of the slice header (proxy.go:540, 542) -/
  | loadPtr
  /-- the request loads the length of the slice header (proxy.go:540, 542) -/
  | loadLen
  /-- the request reads the next entry (jwt.go:35, proxy.go:606) -/
  | read
deriving DecidableEq, Repr

/-- One step; `none` when it is not possible. -/
def KeyMem.act (grow : Nat → Nat) (m : KeyMem K) : KeyAct K → Option (KeyMem K)
  | .upsert kp => if m.pending = [] then some (m.upsert grow kp) else none
  | .store i => match m.pending[i]? with
    | none => none
    | some w => some { w.apply m with pending := m.pending.eraseIdx i }
  | .loadPtr => if m.rptr = none then some { m with rptr := some m.ptr } else none
  | .loadLen => if m.rlen = none then some { m with rlen := some m.len } else none
  | .read => match m.rptr, m.rlen with
    | some a, some n =>
      if m.seen.length < n then
        some { m with seen := m.seen ++ [((m.arrays[a]?).getD [])[m.seen.length]?] }
      else none
    | _, _ => none

/-- Any interleaving. -/
def KeyMem.run (grow : Nat → Nat) (m : KeyMem K) (as : List (KeyAct K)) : Option (KeyMem K) :=
  as.foldlM (KeyMem.act grow) m

/-- A key set after boot: one array with room for `cap` entries. -/
def bootKeys (ks : KeySet K) (cap : Nat) : KeyMem K :=
  { arrays := [ks.map KidPair.cell ++ List.replicate (cap - ks.length) zeroCell]
    ptr := 0
    len := ks.length
    cap := cap }

end J8a

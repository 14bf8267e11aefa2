import Verif.Go.Str
/-!
# gzip.go — pooled writers and readers under concurrent calls

`sync.Pool` hands out any object that was put back, or a new one, and may drop objects at any time.
A call takes an object, resets it to its own buffer, works, closes, reads its result and puts the
object back when it returns (the `defer`). An object remembers which call's buffer it was reset to:
what it emits goes there, whoever is using it.
-/
namespace J8a

/-- A pooled object: what `New` makes, and what `Reset`, the work and `Close` do to it. Work and
close emit bytes. For `Gzip`: `Reset(buf)`, `Write(input)`, `Close()`. For `Gunzip`: `Reset` on the
input, `ReadAll`, `Close()`. -/
structure Pooled (O : Type) where
  fresh : O
  reset : O → Bytes → O
  work : O → Bytes → O × Bytes
  close : O → O × Bytes

/-- What comes out of an object that has just been reset. -/
def Pooled.output {O : Type} (P : Pooled O) (o : O) (x : Bytes) : Bytes :=
  (P.work o x).2 ++ (P.close (P.work o x).1).2

/-- Where a call is. -/
inductive CallPc
  /-- gzip.go:32 / 47 next -/
  | start
  /-- gzip.go:34 / 49 next -/
  | got
  /-- gzip.go:36 / 51 next -/
  | reset
  /-- gzip.go:37 / 52 next -/
  | worked
  /-- gzip.go:40 / 55 next -/
  | closed
  /-- the result is taken; the deferred `Put` is next -/
  | taken
  | returned
deriving DecidableEq, Repr

structure Call where
  input : Bytes
  pc : CallPc := .start
  obj : Nat := 0
  buf : Bytes := []
  result : Option Bytes := none
deriving DecidableEq, Repr

structure PoolState (O : Type) where
  /-- the objects made so far -/
  next : Nat := 0
  obj : Nat → O
  /-- the call whose buffer the object was last reset to -/
  dest : Nat → Option Nat := fun _ => none
  pool : List Nat := []
  call : Nat → Option Call := fun _ => none

inductive PoolAction
  | start (i : Nat) (input : Bytes)
  | getNew (i : Nat)
  | getPooled (i o : Nat)
  /-- the call's next step after it has its object -/
  | go (i : Nat)
  /-- the garbage collector empties a slot -/
  | drop (o : Nat)
deriving DecidableEq, Repr

def upd {α : Type} (f : Nat → α) (i : Nat) (a : α) : Nat → α := fun j => if j = i then a else f j

variable {O : Type}

/-- Append to the buffer the object writes to. -/
def emit (d : Option Nat) (bs : Bytes) (calls : Nat → Option Call) : Nat → Option Call :=
  match d with
  | none => calls
  | some j => upd calls j ((calls j).map fun c => { c with buf := c.buf ++ bs })

/-- gzip.go:31-57: one step; an action that is not possible changes nothing. -/
def poolStep (P : Pooled O) (s : PoolState O) : PoolAction → PoolState O
  | .start i x =>
    match s.call i with
    | none => { s with call := upd s.call i (some { input := x }) }
    | some _ => s
  | .getNew i =>
    match s.call i with
    | some c =>
      if c.pc = .start then
        { s with next := s.next + 1, obj := upd s.obj s.next P.fresh, dest := upd s.dest s.next none,
                 call := upd s.call i (some { c with pc := .got, obj := s.next }) }
      else s
    | none => s
  | .getPooled i o =>
    match s.call i with
    | some c =>
      if c.pc = .start ∧ o ∈ s.pool then
        { s with pool := s.pool.erase o, call := upd s.call i (some { c with pc := .got, obj := o }) }
      else s
    | none => s
  | .go i =>
    match s.call i with
    | none => s
    | some c =>
      match c.pc with
      | .start => s
      | .got =>
        { s with obj := upd s.obj c.obj (P.reset (s.obj c.obj) c.input),
                 dest := upd s.dest c.obj (some i),
                 call := upd s.call i (some { c with pc := .reset }) }
      | .reset =>
        let r := P.work (s.obj c.obj) c.input
        { s with obj := upd s.obj c.obj r.1,
                 call := emit (s.dest c.obj) r.2 (upd s.call i (some { c with pc := .worked })) }
      | .worked =>
        let r := P.close (s.obj c.obj)
        { s with obj := upd s.obj c.obj r.1,
                 call := emit (s.dest c.obj) r.2 (upd s.call i (some { c with pc := .closed })) }
      | .closed => { s with call := upd s.call i (some { c with pc := .taken, result := some c.buf }) }
      | .taken =>
        { s with pool := c.obj :: s.pool, call := upd s.call i (some { c with pc := .returned }) }
      | .returned => s
  | .drop o => { s with pool := s.pool.erase o }

/-- Any history of calls. -/
def poolRun (P : Pooled O) (s : PoolState O) (as : List PoolAction) : PoolState O :=
  as.foldl (poolStep P) s

/-- The program start: nothing made, nothing pooled, no call. -/
def poolInit (P : Pooled O) : PoolState O := { obj := fun _ => P.fresh }

/-! ## The two kinds of objects -/

/-- `flate.Writer`. -/
structure Flate (C : Type) where
  new : C
  reset : C → C
  write : C → Bytes → C × Bytes
  close : C → C × Bytes

/-- `gzip.Writer` (compress/gzip/gzip.go of Go 1.15). A `bytes.Buffer` accepts every write, so `err`
stays nil. -/
structure GzWriter (C : Type) where
  wroteHeader : Bool := false
  compressor : Option C := none
  digest : UInt32 := 0
  size : Nat := 0
  closed : Bool := false

/-- The ten header bytes with no name, no time and the default level. -/
def gzHeader : Bytes := [0x1f, 0x8b, 8, 0, 0, 0, 0, 0, 0, 255]

/-- `binary.LittleEndian.PutUint32`. -/
def le32 (n : Nat) : Bytes :=
  [UInt8.ofNat n, UInt8.ofNat (n / 2 ^ 8), UInt8.ofNat (n / 2 ^ 16), UInt8.ofNat (n / 2 ^ 24)]

variable {C : Type}

/-- `(*gzip.Writer).Reset`: `init` keeps only the compressor, reset. -/
def GzWriter.reset (F : Flate C) (z : GzWriter C) : GzWriter C :=
  { compressor := z.compressor.map F.reset }

/-- `(*gzip.Writer).Write`; `crc` is `crc32.Update`. -/
def GzWriter.write (F : Flate C) (crc : UInt32 → Bytes → UInt32) (z : GzWriter C) (p : Bytes) :
    GzWriter C × Bytes :=
  let hdr := if z.wroteHeader then [] else gzHeader
  let c := z.compressor.getD F.new
  let r := F.write c p
  ({ z with wroteHeader := true, compressor := some r.1, digest := crc z.digest p,
            size := z.size + p.length }, hdr ++ r.2)

/-- `(*gzip.Writer).Close`. -/
def GzWriter.close (F : Flate C) (crc : UInt32 → Bytes → UInt32) (z : GzWriter C) :
    GzWriter C × Bytes :=
  if z.closed then (z, [])
  else
    let (z, o) := if z.wroteHeader then (z, []) else z.write F crc []
    let r := F.close (z.compressor.getD F.new)
    ({ z with compressor := some r.1, closed := true },
      o ++ r.2 ++ le32 z.digest.toNat ++ le32 z.size)

/-- gzip.go:15-20, 32-37: the writers of `zipPool`. -/
def zipper (F : Flate C) (crc : UInt32 → Bytes → UInt32) : Pooled (GzWriter C) where
  fresh := {}
  reset z _ := z.reset F
  work z x := z.write F crc x
  close z := z.close F crc

/-- `flate` decompressor: `Reset` forgets, reading takes the compressed input and yields the data and,
if the stream ended properly, what follows it. -/
structure Inflate (D : Type) where
  new : D
  reset : D → D
  read : D → Bytes → D × Bytes × Option Bytes

/-- `gzip.Reader` (compress/gzip/gunzip.go of Go 1.15): the unread input, the error state and the
decompressor that is kept. -/
structure GzReader (D : Type) where
  rest : Bytes := []
  err : Bool := false
  decompressor : Option D := none

variable {D : Type}

/-- `readHeader`: `hdr` cuts a well-formed member header off (`none`: an error, the decompressor is
left alone). -/
def GzReader.readHeader (I : Inflate D) (hdr : Bytes → Option Bytes) (z : GzReader D) : GzReader D :=
  match hdr z.rest with
  | none => { z with err := true }
  | some r => { z with rest := r, decompressor := some ((z.decompressor.map I.reset).getD I.new) }

/-- `(*gzip.Reader).Reset`. -/
def GzReader.reset (I : Inflate D) (hdr : Bytes → Option Bytes) (z : GzReader D) (x : Bytes) :
    GzReader D :=
  { rest := x, decompressor := z.decompressor : GzReader D }.readHeader I hdr

/-- `ioutil.ReadAll` on the reader: member after member until the input ends or something is wrong.
`trailer data rest` checks and cuts off the eight bytes after a member. `fuel` bounds the number of
members: each one takes at least the header's bytes, so the input's length is enough. -/
def GzReader.readAll (I : Inflate D) (hdr : Bytes → Option Bytes) (trailer : Bytes → Bytes → Option Bytes) :
    Nat → GzReader D → GzReader D × Bytes
  | 0, z => (z, [])
  | fuel + 1, z =>
    if z.err then (z, [])
    else
      let got := I.read (z.decompressor.getD I.new) z.rest
      match got.2.2.bind (trailer got.2.1) with
      | none => ({ z with decompressor := some got.1, err := true }, got.2.1)
      | some r =>
        let next := { z with decompressor := some got.1, rest := r }
        let more := GzReader.readAll I hdr trailer fuel (next.readHeader I hdr)
        (more.1, got.2.1 ++ more.2)

/-- gzip.go:22-28, 47-52: the readers of `unzipPool`. `New` reads the header of `gzipSmall`. -/
def unzipper (I : Inflate D) (hdr : Bytes → Option Bytes) (trailer : Bytes → Bytes → Option Bytes) :
    Pooled (GzReader D) where
  fresh := ({} : GzReader D).reset I hdr
    [31, 139, 8, 0, 0, 0, 0, 0, 0, 255, 170, 174, 5, 4, 0, 0, 255, 255, 67, 191, 166, 163, 2, 0, 0, 0]
  reset z x := z.reset I hdr x
  work z x := z.readAll I hdr trailer (x.length + 1)
  close z := (z, [])

end J8a

import Verif.Model.Policy
/-!
# policy.go:31 under concurrency — `sort.Sort` on a slice shared by all requests

`resolveLabel` is called by every request goroutine on `Runner.Policies[name]`, a slice header
copied from a shared map: all goroutines sort the same backing array without synchronisation
(policy.go:29-31, route.go:50-53).

The algorithm is the one of Go 1.15's package sort, function by function. What it does next depends on the
array only through the results of `Less`, so a call of `sort.Sort` is a tree of `Less` and `Swap` calls.
Loops are recursive with a bound on the remaining iterations; where the bound is the loop condition itself
there is no other test.

`Swap(x, y)` is `policy[x], policy[y] = policy[y], policy[x]` (policy.go:21-23): two loads, then
two stores. A load or store of one `LabelWeight` and one `Less` are single steps
(simplification: on hardware they can tear, which only adds behaviours), memory is sequentially
consistent.
-/
namespace J8a.SortRace

/-- The remaining part of a call. -/
inductive Prog where
  | done
  | less (x y : Nat) (k : Bool → Prog)
  | swap (x y : Nat) (k : Prog)

/-! ## package sort -/

/-- `insertionSort`, inner loop: `for j := i; j > a && Less(j, j-1); j-- { Swap(j, j-1) }`, with
`m = j - a`. -/
def insertInner (a : Nat) (k : Prog) : Nat → Prog
  | 0 => k
  | m + 1 => .less (a + m + 1) (a + m) fun r =>
    if r then .swap (a + m + 1) (a + m) (insertInner a k m) else k

/-- `insertionSort`, outer loop: `for i := a + 1; i < b; i++`, with `m = b - i`. -/
def insertOuter (a b : Nat) (k : Prog) : Nat → Prog
  | 0 => k
  | m + 1 => insertInner a (insertOuter a b k m) (b - (m + 1) - a)

def insertionSort (a b : Nat) (k : Prog) : Prog := insertOuter a b k (b - (a + 1))

/-- `quickSort`: `for i := a + 6; i < b; i++ { if Less(i, i-6) { Swap(i, i-6) } }`, with `m = b - i`. -/
def shellPass (b : Nat) (k : Prog) : Nat → Prog
  | 0 => k
  | m + 1 => .less (b - (m + 1)) (b - (m + 1) - 6) fun r =>
    if r then .swap (b - (m + 1)) (b - (m + 1) - 6) (shellPass b k m) else shellPass b k m

/-- `siftDown`; the bound is on the number of levels. -/
def siftDown (hi first : Nat) (k : Prog) : Nat → Nat → Prog
  | 0, _ => k
  | f + 1, root =>
    let child := 2 * root + 1
    if child ≥ hi then k
    else
      let go (child : Nat) : Prog := .less (first + root) (first + child) fun r =>
        if r then .swap (first + root) (first + child) (siftDown hi first k f child) else k
      if child + 1 < hi then
        .less (first + child) (first + child + 1) fun r => if r then go (child + 1) else go child
      else go child

/-- `heapSort`, first loop: `for i := (hi - 1) / 2; i >= 0; i-- { siftDown(i, hi, first) }`, with
`m = i + 1`. -/
def heapify (hi first : Nat) (k : Prog) : Nat → Prog
  | 0 => k
  | m + 1 => siftDown hi first (heapify hi first k m) hi m

/-- `heapSort`, second loop: `for i := hi - 1; i >= 0; i-- { Swap(first, first+i); siftDown(0, i, first) }`,
with `m = i + 1`. -/
def popAll (first : Nat) (k : Prog) : Nat → Prog
  | 0 => k
  | m + 1 => .swap first (first + m) (siftDown m first (popAll first k m) m 0)

def heapSort (a b : Nat) (k : Prog) : Prog :=
  heapify (b - a) a (popAll a k (b - a)) ((b - a - 1) / 2 + 1)

/-- `medianOfThree(m1, m0, m2)`. -/
def medianOfThree (m1 m0 m2 : Nat) (k : Prog) : Prog :=
  let rest : Prog := .less m2 m1 fun r =>
    if r then .swap m2 m1 (.less m1 m0 fun r => if r then .swap m1 m0 k else k) else k
  .less m1 m0 fun r => if r then .swap m1 m0 rest else rest

/-- `for ; x < y && Less(x, pivot) == want; x++ {}`, with `m = y - x`. -/
def upLess (pivot : Nat) (want : Bool) (k : Nat → Prog) : Nat → Nat → Prog
  | 0, x => k x
  | m + 1, x => .less x pivot fun r => if r = want then upLess pivot want k m (x + 1) else k x

/-- `for ; x < y && Less(pivot, x) == want; x++ {}`, with `m = y - x`. -/
def upMore (pivot : Nat) (want : Bool) (k : Nat → Prog) : Nat → Nat → Prog
  | 0, x => k x
  | m + 1, x => .less pivot x fun r => if r = want then upMore pivot want k m (x + 1) else k x

/-- `for ; x < y && Less(y-1, pivot) == want; y-- {}`, with `m = y - x`. -/
def downLess (pivot : Nat) (want : Bool) (k : Nat → Prog) : Nat → Nat → Prog
  | 0, y => k y
  | m + 1, y => .less (y - 1) pivot fun r => if r = want then downLess pivot want k m (y - 1) else k y

/-- `for ; x < y && Less(pivot, y-1) == want; y-- {}`, with `m = y - x`. -/
def downMore (pivot : Nat) (want : Bool) (k : Nat → Prog) : Nat → Nat → Prog
  | 0, y => k y
  | m + 1, y => .less pivot (y - 1) fun r => if r = want then downMore pivot want k m (y - 1) else k y

/-- `doPivot`, main loop over the unexamined part `[b, c)`. -/
def partitionLoop (pivot : Nat) (k : Nat → Nat → Prog) : Nat → Nat → Nat → Prog
  | 0, b, c => k b c
  | f + 1, b, c =>
    upMore pivot false (fun b =>
      downMore pivot true (fun c =>
        if b ≥ c then k b c else .swap b (c - 1) (partitionLoop pivot k f (b + 1) (c - 1)))
        (c - b) c)
      (c - b) b

/-- `doPivot`, loop of the protection against duplicates, over `[a, b)`. -/
def protectLoop (pivot : Nat) (k : Nat → Prog) : Nat → Nat → Nat → Prog
  | 0, _, b => k b
  | f + 1, a, b =>
    downLess pivot false (fun b =>
      upLess pivot true (fun a =>
        if a ≥ b then k b else .swap a (b - 1) (protectLoop pivot k f (a + 1) (b - 1)))
        (b - a) a)
      (b - a) b

/-- `doPivot`: the last lines. -/
def pivotEnd (pivot : Nat) (k : Nat → Nat → Prog) (b c : Nat) : Prog := .swap pivot (b - 1) (k (b - 1) c)

/-- `doPivot`, from `if protect` on. -/
def pivotProtect (pivot : Nat) (k : Nat → Nat → Prog) (protect : Bool) (a b c : Nat) : Prog :=
  if protect then protectLoop pivot (fun b => pivotEnd pivot k b c) (b - a) a b
  else pivotEnd pivot k b c

/-- `doPivot`: `if !Less(m, pivot) { Swap(m, b-1); b--; dups++ }`. -/
def dupMid (pivot m : Nat) (k : Nat → Nat → Prog) (a b c dups : Nat) : Prog :=
  .less m pivot fun r =>
    if r then pivotProtect pivot k (1 < dups) a b c
    else .swap m (b - 1) (pivotProtect pivot k (1 < dups + 1) a (b - 1) c)

/-- `doPivot`: `if !Less(b-1, pivot) { b--; dups++ }`. -/
def dupLow (pivot m : Nat) (k : Nat → Nat → Prog) (a b c dups : Nat) : Prog :=
  .less (b - 1) pivot fun r =>
    if r then dupMid pivot m k a b c dups else dupMid pivot m k a (b - 1) c (dups + 1)

/-- `doPivot`: `if !Less(pivot, hi-1) { Swap(c, hi-1); c++; dups++ }`. -/
def dupHigh (pivot m hi : Nat) (k : Nat → Nat → Prog) (a b c : Nat) : Prog :=
  .less pivot (hi - 1) fun r =>
    if r then dupLow pivot m k a b c 0 else .swap c (hi - 1) (dupLow pivot m k a b (c + 1) 1)

/-- `doPivot`, after the main loop. -/
def pivotDups (lo hi : Nat) (k : Nat → Nat → Prog) (a b c : Nat) : Prog :=
  if hi - c < 5 then pivotProtect lo k true a b c
  else if hi - c < (hi - lo) / 4 then dupHigh lo ((lo + hi) / 2) hi k a b c
  else pivotProtect lo k false a b c

/-- `doPivot`, after the choice of the pivot. -/
def pivotMain (lo hi : Nat) (k : Nat → Nat → Prog) : Prog :=
  upLess lo true (fun a => partitionLoop lo (fun b c => pivotDups lo hi k a b c) (hi - 1 - a) a (hi - 1))
    (hi - 1 - (lo + 1)) (lo + 1)

/-- `doPivot`; `k` gets `midlo` and `midhi`. -/
def doPivot (lo hi : Nat) (k : Nat → Nat → Prog) : Prog :=
  let m := (lo + hi) / 2
  let rest := medianOfThree lo m (hi - 1) (pivotMain lo hi k)
  if hi - lo > 40 then
    let s := (hi - lo) / 8
    medianOfThree lo (lo + s) (lo + 2 * s)
      (medianOfThree m (m - s) (m + s)
        (medianOfThree (hi - 1) (hi - 1 - s) (hi - 1 - 2 * s) rest))
  else rest

/-- `quickSort`, for at most 12 elements. -/
def smallSort (a b : Nat) (k : Prog) : Prog :=
  if b - a > 1 then shellPass b (insertionSort a b k) (b - (a + 6)) else k

/-- `quickSort`. Its loop continues with the longer part. -/
def quickSort : Nat → Nat → Nat → Prog → Prog
  | 0, a, b, k => if b - a > 12 then heapSort a b k else smallSort a b k
  | d + 1, a, b, k =>
    if b - a > 12 then
      doPivot a b fun mlo mhi =>
        if mlo - a < b - mhi then quickSort d a mlo (quickSort d mhi b k)
        else quickSort d mhi b (quickSort d a mlo k)
    else smallSort a b k

/-- `maxDepth`: twice the number of binary digits. -/
def maxDepth (n : Nat) : Nat := if n = 0 then 0 else 2 * (Nat.log2 n + 1)

/-- `sort.Sort` for `Len() = n`. -/
def sort (n : Nat) : Prog := quickSort (maxDepth n) 0 n .done

/-! ## The goroutines -/

/-- Program counter of one goroutine; the intermediate steps of a swap carry the loaded values. -/
inductive PC where
  | at (p : Prog)
  | load2 (x y : Nat) (t1 : LabelWeight) (k : Prog)
  | store1 (x y : Nat) (t1 t2 : LabelWeight) (k : Prog)
  | store2 (y : Nat) (t2 : LabelWeight) (k : Prog)
  | panicked

/-- Where a call of `resolveLabel` starts. -/
def start (n : Nat) : PC := .at (sort n)

/-- `Less(x, y)` (policy.go:24-26); `none`: index out of range. -/
def lessAt (arr : Policy) (x y : Nat) : Option Bool :=
  match arr[x]?, arr[y]? with
  | some a, some b => some (Policy.less a b)
  | _, _ => none

/-- One step of one goroutine on the shared array. -/
def stepPC (arr : Policy) : PC → Policy × PC
  | .at .done => (arr, .at .done)
  | .at (.less x y k) => match lessAt arr x y with
    | some r => (arr, .at (k r))
    | none => (arr, .panicked)
  | .at (.swap x y k) => match arr[y]? with
    | some t => (arr, .load2 x y t k)
    | none => (arr, .panicked)
  | .load2 x y t1 k => match arr[x]? with
    | some t => (arr, .store1 x y t1 t k)
    | none => (arr, .panicked)
  | .store1 x y t1 t2 k => (arr.set x t1, .store2 y t2 k)
  | .store2 y t2 k => (arr.set y t2, .at k)
  | .panicked => (arr, .panicked)

/-- The shared array and the goroutines currently resolving a label of this policy. -/
structure St where
  arr : Policy
  procs : List PC

/-- A new request arrives, or some goroutine makes a step. -/
inductive Act where
  | arrive
  | run (k : Nat)
deriving DecidableEq, Repr

/-- One step of the system. -/
def step (s : St) : Act → St
  | .arrive => { s with procs := s.procs ++ [start s.arr.length] }
  | .run k => match s.procs[k]? with
    | some pc => { arr := (stepPC s.arr pc).1, procs := s.procs.set k (stepPC s.arr pc).2 }
    | none => s

/-- An execution. -/
def exec (s : St) (acts : List Act) : St := acts.foldl step s

end J8a.SortRace

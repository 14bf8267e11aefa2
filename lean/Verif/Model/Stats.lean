import Verif.Go.F64
import Verif.Go.Slice
/-!
# stats.go:13-84 and 114-124 — memory history

Not modelled: how a sample is taken, what is written to the log.
-/
namespace J8a
open Go

/-- stats.go:13-21 `sample`, the fields the history looks at. -/
structure Sample where
  pid : Int := 0
  rssBytes : Nat := 0
deriving DecidableEq, Repr

/-- `*new(sample)`. -/
def Sample.zero : Sample := {}

/-- stats.go:33 `historyMaxSamples`. -/
def historyMaxSamples : Nat := 24

/-- stats.go:46-53 `samples.append`. `grow` is the spare capacity the runtime picks when it has to
reallocate. `none` is a panic. -/
def samplesAppend (grow : Nat) (s : Slice Sample) (x : Sample) : Option (Slice Sample) := do
  let s ← if historyMaxSamples ≤ s.len then (← s.set 0 .zero).tail else some s
  return s.append .zero grow x

/-- stats.go:117-119: the slots `k`, `k+1`, … are filled with the first sample. -/
def fillHistory (lazy : Sample) : Nat → Slice Sample → Option (Slice Sample)
  | 0, s => some s
  | k + 1, s => do fillHistory lazy k (← s.set (historyMaxSamples - (k + 1)) lazy)

/-- stats.go:120-123: the sampling loop, for the samples it has seen; every sample comes with the
capacity the runtime picked. -/
def appendAll : List (Nat × Sample) → Slice Sample → Option (Slice Sample)
  | [], s => some s
  | (g, x) :: xs, s => do appendAll xs (← samplesAppend g s x)

/-- stats.go:114-124: the history goroutine. -/
def sampleHistory (lazy : Sample) (xs : List (Nat × Sample)) : Option (Slice Sample) := do
  appendAll xs (← fillHistory lazy historyMaxSamples (Slice.make historyMaxSamples .zero))

/-- A `float64` that may be special; finite values as in `Go/F64.lean`. -/
inductive GoFloat
  | fin (v : Int)
  | inf
  | nan
deriving DecidableEq, Repr

namespace GoFloat

/-- `float64(n)` of a `uint64`: the nearest float. -/
def ofNat (n : Nat) : GoFloat := .fin (F64.roundNat n * F64.one)

/-- The nearest float (ties to even) of the quotient of two positive integers. `2 * s + sticky` is
the quotient in units of 2^-1075, its lowest bit telling whether anything was cut off; rounding that
to 53 bits rounds the quotient correctly unless it is below 2^-1021, which quotients of `uint64`
values are not. -/
def divNat (n d : Nat) : Nat :=
  let s := n * 2 ^ 1074 / d
  let sticky := if n * 2 ^ 1074 % d = 0 then 0 else 1
  F64.roundNat (2 * s + sticky) / 2

/-- IEEE division of non-negative values. -/
def div : GoFloat → GoFloat → GoFloat
  | .fin a, .fin b =>
    if b = 0 then (if a = 0 then .nan else .inf)
    else .fin (divNat a.toNat b.toNat : Nat)
  | .inf, .fin _ => .inf
  | .fin _, .inf => .fin 0
  | _, _ => .nan

/-- `a >= b`; false when either is NaN. -/
def ge : GoFloat → GoFloat → Bool
  | .fin a, .fin b => decide (b ≤ a)
  | .inf, .fin _ => true
  | .inf, .inf => true
  | _, _ => false

end GoFloat

/-- stats.go:34 `growthRateThreshold`. -/
def growthRateThreshold : GoFloat := .fin (2 * F64.one)

/-- stats.go:23-26 `growthRate`. -/
structure GrowthRate where
  v : GoFloat := .fin 0
  high : Bool := false
deriving DecidableEq, Repr

/-- stats.go:66-69, one sample against the oldest one. -/
def growthOf (oldest s : Sample) : GrowthRate :=
  let v := (GoFloat.ofNat s.rssBytes).div (GoFloat.ofNat oldest.rssBytes)
  { v, high := v.ge growthRateThreshold }

/-- stats.go:55-84 `samples.log`, the result, on a history nobody else writes meanwhile. -/
def samplesLog (h : List Sample) : List GrowthRate :=
  match h with
  | [] => []
  | oldest :: _ =>
    if h.any (fun s => s.pid == 0) then h.map fun _ => {}
    else h.map (growthOf oldest)

end J8a

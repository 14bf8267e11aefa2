import Verif.Model.Stats
/-!
# stats.go:46-84, 114-131 — the history sampler and the statistics logger, side by side

Both goroutines use `procHistory` without a lock. Every read or write of the shared slice is one
step. The slice header is read and written in one piece (Go does not even promise that).
-/
namespace J8a

/-- Where the sampler is inside `samples.append`. -/
inductive SamplerPc
  | idle
  /-- element 0 has been zeroed (line 49) -/
  | zeroed (x : Sample)
  /-- the slice has been shortened (line 50), or was short -/
  | shrunk (x : Sample)
deriving DecidableEq, Repr

/-- Where the logger is inside `samples.log`. The first number is `len(growthRates)`, the second
one more than the loop variable. -/
inductive LoggerPc
  | idle
  /-- line 56 done -/
  | made (n : Nat)
  /-- loop of lines 58-63 -/
  | scan (n i : Nat)
  /-- loop of lines 65-70 -/
  | rate (n i : Nat)
  /-- loop of lines 73-81 -/
  | high (n i : Nat)
  | panicked
deriving DecidableEq, Repr

structure StatsState where
  hist : List Sample
  sampler : SamplerPc := .idle
  logger : LoggerPc := .idle
deriving DecidableEq, Repr

inductive StatsAction
  /-- the sampler starts to append `x`, or goes on -/
  | sample (x : Sample)
  /-- the logger makes its next step -/
  | log
deriving DecidableEq, Repr

/-- stats.go:46-53, one step. -/
def samplerStep (x : Sample) (s : StatsState) : StatsState :=
  match s.sampler with
  | .idle =>
    if historyMaxSamples ≤ s.hist.length then
      { s with hist := s.hist.set 0 .zero, sampler := .zeroed x }
    else { s with sampler := .shrunk x }
  | .zeroed x => { s with hist := s.hist.tail, sampler := .shrunk x }
  | .shrunk x => { s with hist := s.hist ++ [x], sampler := .idle }

/-- stats.go:55-84, one step. An index out of range ends the process: nothing recovers in that
goroutine. -/
def loggerStep (s : StatsState) : StatsState :=
  match s.logger with
  | .idle => { s with logger := .made s.hist.length }
  | .made n => { s with logger := .scan n s.hist.length }
  | .scan n (i + 1) =>
    match s.hist[i]? with
    | none => { s with logger := .panicked }
    | some x => { s with logger := if x.pid = 0 then .idle else .scan n i }
  | .scan n 0 => { s with logger := .rate n s.hist.length }
  | .rate n (i + 1) =>
    if i < s.hist.length ∧ i < n then { s with logger := .rate n i }
    else { s with logger := .panicked }
  | .rate n 0 => { s with logger := .high n s.hist.length }
  | .high n (i + 1) =>
    if i < n then { s with logger := .high n i } else { s with logger := .panicked }
  | .high _ 0 => { s with logger := .idle }
  | .panicked => s

def statsStep (s : StatsState) : StatsAction → StatsState
  | .sample x => samplerStep x s
  | .log => loggerStep s

/-- stats.go:114-131 after the initial fill: any interleaving. -/
def statsRun (s : StatsState) (as : List StatsAction) : StatsState := as.foldl statsStep s

end J8a

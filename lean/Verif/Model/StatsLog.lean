import Verif.Go.Durafmt
import Verif.Go.Zerolog
import Verif.Model.Stats
import Verif.Model.Tls
/-!
# stats.go:71-147, server.go:156-160 — what the statistics write to the log, and taking a sample

Of a reading only the process id and the resident memory are kept, the fields the history looks at. The line `server
performance` (stats.go:39-44) is not modelled.
-/
namespace J8a
open Go

/-- stats.go:75-77. `%.1f` of the constant `growthRateThreshold`, 2.0, is `2.0`. -/
def growthMsg : Str :=
  "RSS memory increase for previous ".toList ++ durafmt (1000000000 * 3600 * historyMaxSamples) 1 ++
    " with high factor >=".toList ++ "2.0".toList ++ ", monitor actively.".toList

/-- stats.go:71-81: the newest high rate breaks the loop, so there is one line at most. -/
def growthLine (h : List Sample) : Option ZEvent :=
  if (samplesLog h).any (·.high) then some { level := .debug, fields := [], msg := growthMsg } else none

/-- stats.go:137-143: one round of the loop, `up` being what `time.Since` returns. `Msgf` with no arguments takes its text
for a format; words for a length of time have no `%`. -/
def uptimeLine (up : Int) : Option ZEvent :=
  if up > 1000000000 * 10 then
    some { level := .debug, fields := [("uptimeMicros".toList, .int (up.tdiv 1000))],
           msg := "server uptime is ".toList ++ durafmt up 1 }
  else none

/-- stats.go:134-147: the lines of the rounds that begin at the times `wakes`, with these times. `time.Since(Runner.Start)`
saturates like `time.Until`. -/
def logUptime (start : Int) (wakes : List Int) : List (Int × ZEvent) :=
  wakes.filterMap fun t => (uptimeLine (timeUntil t start)).map fun e => (t, e)

/-- stats.go:86-103 `getSample`. `proc` is the process (nil if `NewProcess` failed, server.go:157), `mem` the resident memory
(nil if `MemoryInfo` failed); both errors are dropped. `none` is a panic. -/
def getSample (proc : Option Int) (mem : Option Nat) : Option Sample := do
  let pid ← proc
  let rss ← mem
  return { pid, rssBytes := rss }

/-- stats.go:114-124 with the readings: the first one, and the ones that the loop appends, each with the capacity the runtime
picks. `none` is a panic in this goroutine, which ends the process. -/
def historyOfReadings (proc : Option Int) (first : Option Nat) (later : List (Nat × Option Nat)) : Option (Slice Sample) := do
  let lazy ← getSample proc first
  let xs ← later.mapM fun p => (getSample proc p.2).map fun s => (p.1, s)
  sampleHistory lazy xs

end J8a

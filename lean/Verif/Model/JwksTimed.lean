import Verif.Model.Jwt
/-!
# jwt.go:170-255 `LoadJwks` as a timed machine

Any number of goroutines run `LoadJwks` for one jwt configuration: one at boot
(jwt.go:163), the others started by requests with unknown kids (proxy.go:625). Time is a natural
number of nanoseconds; it passes by arbitrary amounts between steps.
-/
namespace J8a

/-- jwt.go:82 `jwksRefreshSlowwait`, in nanoseconds. -/
def slowwait : Nat := 10 * 10 ^ 9

/-- Where a goroutine is inside `LoadJwks`. -/
inductive LoadPC where
  /-- before `TryAcquire` (jwt.go:174) -/
  | start
  /-- inside `jwk.Fetch` (jwt.go:176) -/
  | fetching
  /-- keys stored, before the test of `updateCount` (jwt.go:242) -/
  | loaded
  /-- inside `time.Sleep`, entered at the given time (jwt.go:243) -/
  | sleeping (since : Nat)
  /-- before `updateCount++` (jwt.go:245) -/
  | slept
  /-- before `Release` (jwt.go:247) -/
  | counted
  /-- returned -/
  | finished
deriving DecidableEq, Repr

/-- The shared state: the semaphore (jwt.go:110, one permit), the counter, the key sets, the
goroutines; and, for the statements only, the start times of all fetches, newest first. -/
structure LoadSt (K : Type) where
  now : Nat := 0
  held : Bool := false
  updateCount : Nat := 0
  jwt : Jwt K
  procs : List LoadPC := []
  fetches : List Nat := []
  dead : Bool := false

/-- Scheduler actions. -/
inductive LoadAct (K : Type) where
  /-- time passes -/
  | tick (d : Nat)
  /-- a goroutine starts running `LoadJwks` -/
  | spawn
  /-- goroutine `i` makes a step; `doc` is what the endpoint serves if the step is the return of
  `jwk.Fetch` -/
  | step (i : Nat) (doc : Option (List (Jwk K)))

variable {K : Type}

/-- One step of goroutine `i`. A crash in it ends the process (no `recover`). `time.Sleep` returns
no earlier than asked. -/
def LoadSt.stepProc (s : LoadSt K) (i : Nat) (doc : Option (List (Jwk K))) : Option (LoadSt K) :=
  match s.procs[i]? with
  | none => none
  | some .start =>
    if s.held then some { s with procs := s.procs.set i .finished }
    else some { s with held := true, procs := s.procs.set i .fetching,
                       fetches := s.now :: s.fetches }
  | some .fetching =>
    match loadJwks s.jwt doc with
    | .panic => some { s with dead := true }
    | .done j _ => some { s with jwt := j, procs := s.procs.set i .loaded }
  | some .loaded =>
    if 0 < s.updateCount then some { s with procs := s.procs.set i (.sleeping s.now) }
    else some { s with procs := s.procs.set i .slept }
  | some (.sleeping t) =>
    if t + slowwait ≤ s.now then some { s with procs := s.procs.set i .slept } else none
  | some .slept =>
    some { s with updateCount := s.updateCount + 1, procs := s.procs.set i .counted }
  | some .counted => some { s with held := false, procs := s.procs.set i .finished }
  | some .finished => none

/-- One action; `none` if it is not possible. -/
def LoadSt.act (s : LoadSt K) : LoadAct K → Option (LoadSt K)
  | .tick d => some { s with now := s.now + d }
  | .spawn => if s.dead then none else some { s with procs := s.procs ++ [.start] }
  | .step i doc => if s.dead then none else s.stepProc i doc

/-- Executions. -/
def LoadSt.run (s : LoadSt K) : List (LoadAct K) → Option (LoadSt K)
  | [] => some s
  | a :: as => match s.act a with
    | none => none
    | some s' => s'.run as

end J8a

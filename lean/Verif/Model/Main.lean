import Verif.Model.InitLog
/-!
# cmd/j8a/main.go — the command line

Package `flag` from the source as remembered (Go 1.15, `FlagSet.parseOne` and `FlagSet.Parse` with `ExitOnError`). What is
printed is left out.
-/
namespace J8a
open Go

/-- What `FlagSet.parseOne` makes of the first argument. -/
inductive FlagArg where
  /-- no option: parsing stops -/
  | stop
  /-- an error: the process ends with status 2 -/
  | bad
  /-- `ErrHelp`: the process ends with status 0 -/
  | help
  /-- the option c with its value -/
  | value (v : Str)
  /-- the option c; its value is the next argument -/
  | needsValue
deriving DecidableEq, Repr

/-- `parseOne`: the text from the second character of the name on, up to and after the first equals sign. -/
def cutEquals : Str → Str × Option Str
  | [] => ([], none)
  | c :: cs => if c = '=' then ([], some cs) else (c :: (cutEquals cs).1, (cutEquals cs).2)

/-- `parseOne` after the minus signs; main.go:10 defines the option c, a string. -/
def flagNamed : Str → FlagArg
  | [] => .bad
  | c :: cs =>
    if c = '-' ∨ c = '=' then .bad
    else
      let name := c :: (cutEquals cs).1
      if name = ['c'] then
        match (cutEquals cs).2 with
        | some v => .value v
        | none => .needsValue
      else if name = "help".toList ∨ name = ['h'] then .help
      else .bad

/-- `parseOne` on one argument. -/
def flagArg : Str → FlagArg
  | '-' :: '-' :: [] => .stop
  | '-' :: '-' :: name => flagNamed name
  | '-' :: c :: name => flagNamed (c :: name)
  | _ => .stop

/-- What `flag.Parse` does with the process. -/
inductive Parsed where
  | exits (status : Int)
  /-- it goes on; the value of the option c if it was passed (main.go:25-33 `isFlagPassed`) -/
  | goesOn (c : Option Str)
deriving DecidableEq, Repr

/-- main.go:16 `flag.Parse`. `c` is the value so far. -/
def parseFlags (c : Option Str) : List Str → Parsed
  | [] => .goesOn c
  | s :: rest => match flagArg s with
    | .stop => .goesOn c
    | .bad => .exits 2
    | .help => .exits 0
    | .value v => parseFlags (some v) rest
    | .needsValue => match rest with
      | [] => .exits 2
      | v :: rest => parseFlags (some v) rest

/-- main.go:9-23 `main`: the process with the arguments `args`. Either it exits, or it is started with its sources. -/
def mainRun {K : Type} (w : Surroundings) (files : Str → Option Str) (B : Machinery K) (args : List Str) :
    Int ⊕ (Globals × Booted Serving × List Spoken) :=
  match parseFlags none args with
  | .exits n => .inl n
  | .goesOn c => .inr (runBoot w B { flag := c, env := w.getenv "J8ACFG_YML", files := files })

end J8a

import Verif.Go.Str
/-!
# cmd/j8a/main.go, config.go:34-96 — where the configuration comes from

`C` is the type of configurations, `parse` is `Config.parse` (YAML to JSON to `Config`; both errors are
ignored at config.go:93-94, so it always yields a configuration) and `routes` counts the routes.
-/
namespace J8a

/-- What the process sees: the value of the flag `-c` if it was passed, the environment variable
`J8ACFG_YML` (empty if unset) and the files (`none` if the file cannot be opened; a read error after
opening is ignored, config.go:88, and what was read before is the content). -/
structure Sources where
  flag : Option Str := none
  env : Str := []
  files : Str → Option Str := fun _ => none

/-- cmd/j8a/main.go:17-19. -/
def Sources.configFile (s : Sources) : Str := s.flag.getD []

def defaultConfigFile : Str := "j8acfg.yml".toList

variable {C : Type}

/-- config.go:80-90 `readYmlFile`; `none`: the process exits. -/
def readYmlFile (parse : Str → C) (s : Sources) (file : Str) : Option C := (s.files file).map parse

/-- config.go:75-78 `ok`. -/
def configOk (routes : C → Nat) (c : C) : Bool := 0 < routes c

/-- config.go:34-59 `load`; `none`: the process exits. -/
def load (parse : Str → C) (routes : C → Nat) (s : Sources) : Option C :=
  if 0 < s.configFile.length then
    match readYmlFile parse s s.configFile with
    | some c => if configOk routes c then some c else none
    | none => none
  else if 0 < s.env.length then
    if configOk routes (parse s.env) then some (parse s.env) else none
  else
    match readYmlFile parse s defaultConfigFile with
    | some c => if configOk routes c then some c else none
    | none => none

end J8a

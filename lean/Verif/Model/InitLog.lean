import Verif.Go.Time
import Verif.Model.BootLog
import Verif.Model.Logger
import Verif.Model.ServerId
/-!
# logger.go:16-74, time.go:9-19, server.go:58-60 — the start of the process, up to the logger

The variables of the packages j8a and zerolog that `initLogger` sets, and the lines that are logged meanwhile, each
with the variables at that moment. Package time finds the local zone by itself.
-/
namespace J8a
open Go

/-- A time zone: the seconds east of UTC at an instant. -/
abbrev Zone := Int → Int
def utcZone : Zone := fun _ => 0

/-- What the process finds when it starts. -/
structure Surroundings where
  /-- the variables of the environment, `none` if not set -/
  env : Str → Option Str
  /-- `os.Hostname`, the empty string if it fails -/
  osHostname : Str
  /-- the zone that package time loads for a name, if there is one, and the one of /etc/localtime -/
  zoneFile : Str → Option Zone
  localtime : Option Zone

/-- `os.Getenv`. -/
def Surroundings.getenv (w : Surroundings) (name : String) : Str := (w.env name.toList).getD []

/-- The variables that change; the values are those before `main`: server.go:19-22, time.go:9, and of zerolog the
level `DebugLevel` and a logger without fields that writes to os.Stderr. -/
structure Globals where
  level : ZLevel := .debug
  console : Bool := false
  context : List (Str × ZVal) := []
  version : Str := builtVersion
  id : Str := "unknown".toList
  tz : Str := "UTC".toList
deriving DecidableEq

/-- A line together with the variables when it is logged. -/
abbrev Spoken := Globals × ZEvent

/-- The text that is written, to os.Stderr in both cases; nothing if the level is too low. -/
def Globals.write (g : Globals) (quote : Str → Str) (srt : List (Str × ZVal) → List (Str × ZVal)) (time clock : Str)
    (e : ZEvent) : Str :=
  if g.level.should e.level then
    if g.console then e.console quote srt g.context clock else e.json g.context time
  else []

/-- logger.go:24-31 `getHost`. -/
def getHostLogged (w : Surroundings) (g : Globals) : Str × List Spoken :=
  let host := getHost (w.getenv "HOSTNAME") w.osHostname
  (host, [(g, ⟨.debug, [("hostName".toList, .str host)], "hostName determined".toList⟩)])

/-- logger.go:33-41 `getVersion`. -/
def getVersionLogged (w : Surroundings) (g : Globals) : Globals × List Spoken :=
  let osv := w.getenv "VERSION"
  let g := if 0 < osv.length then { g with version := osv } else g
  (g, [(g, ⟨.debug, [("version".toList, .str g.version)], "version determined".toList⟩)])

/-- logger.go:16-22 `initServerID`. -/
def initServerID (w : Surroundings) (g : Globals) : Globals × List Spoken :=
  let h := getHostLogged w g
  let v := getVersionLogged w g
  let g := { v.1 with id := serverId h.1 v.1.version }
  ({ g with context := g.context ++ [("srvId".toList, .str g.id)] },
    h.2 ++ v.2 ++ [(g, ⟨.debug, [("srvID".toList, .str g.id)], "srvID determined".toList⟩)])

/-- time.go:11-19 `initTime`. -/
def initTime (w : Surroundings) (g : Globals) : Globals × List Spoken :=
  let tz := if (w.getenv "TZ").length = 0 then "UTC".toList else w.getenv "TZ"
  ({ g with tz := tz }, [(g, ⟨.debug, [("timeZone".toList, .str tz)], "timeZone determined".toList⟩)])

/-- logger.go:44-74 `initLogger`. -/
def initLogger (w : Surroundings) (g : Globals) : Globals × List Spoken :=
  let g := { g with level := logLevel (w.getenv "LOGLEVEL") }
  let g := if logColor (w.getenv "LOGCOLOR") then { g with console := true } else g
  let s := initServerID w g
  let t := initTime w s.1
  (t.1, s.2 ++ t.2 ++ [(t.1, debugLine ("setting global log level to ".toList ++ toUpper (w.getenv "LOGLEVEL")))])

/-- server.go:58-81 `BootStrap`, from the beginning. -/
def runBoot {K : Type} (w : Surroundings) (B : Machinery K) (s : Sources) : Globals × Booted Serving × List Spoken :=
  let i := initLogger w {}
  let b := bootStrap { B with version := i.1.version } s
  (i.1, b.1, i.2 ++ b.2.map fun e => (i.1, e))

/-- Package time, zoneinfo_unix.go `initLocal`: the zone in which the times of log lines are written. -/
def localZone (w : Surroundings) : Zone :=
  match w.env "TZ".toList with
  | none => w.localtime.getD utcZone
  | some tz => if tz ≠ [] ∧ tz ≠ "UTC".toList then (w.zoneFile tz).getD utcZone else utcZone

/-- zerolog `TimestampFunc` is `time.Now`, `TimeFieldFormat` is RFC 3339: the time in a line of the instant `u`. -/
def timestamp (w : Surroundings) (u : Int) : Str := formatRFC3339 u (localZone w u)

end J8a

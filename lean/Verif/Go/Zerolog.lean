import Verif.Go.Json
/-!
# Package zerolog, version 1.20.0 (go.mod:14)

The JSON encoder (internal/json), the levels, and the console writer, from the source as remembered.
Strings are bytes.
-/
namespace J8a.Go

/-- `appendStringComplex`, a byte below 0x80. The table `noEscapeTable` has the bytes from 0x20 to 0x7e
without quote and backslash. -/
def zAscii (c : Char) : Str :=
  if c = '\\' ∨ c = '"' then ['\\', c]
  else if c.toNat = 8 then ['\\', 'b']
  else if c.toNat = 12 then ['\\', 'f']
  else if c = '\n' then ['\\', 'n']
  else if c = '\r' then ['\\', 'r']
  else if c = '\t' then ['\\', 't']
  else if c.toNat < 0x20 ∨ c.toNat = 0x7f then
    "\\u00".toList ++ [hexDigit (c.toNat / 16), hexDigit (c.toNat % 16)]
  else [c]

/-- `appendStringComplex`; the copy that `AppendString` makes if no byte is outside the table is the same.
The first argument bounds the length. -/
def zEscape : Nat → Str → Str
  | 0, _ => []
  | _, [] => []
  | n + 1, c :: s =>
    match runeSize (c :: s) with
    | none => "\\ufffd".toList ++ zEscape n s
    | some k =>
      if k = 1 then zAscii c ++ zEscape n s
      else (c :: s).take k ++ zEscape n ((c :: s).drop k)

/-- `AppendString`. -/
def zString (s : Str) : Str := '"' :: zEscape s.length s ++ ['"']

/-- The values of fields. -/
inductive ZVal where
  | str (s : Str)
  | int (n : Int)
  | bool (b : Bool)
deriving DecidableEq, Repr

/-- `AppendString`, `AppendInt`, `AppendInt64`, `AppendBool`. -/
def zVal : ZVal → Str
  | .str s => zString s
  | .int n => itoa n
  | .bool true => "true".toList
  | .bool false => "false".toList

/-- `AppendBeginMarker`, then for each field `AppendKey` (a comma unless first, the key as a string, a
colon) and the value, `AppendEndMarker`. -/
def zObject (fields : List (Str × ZVal)) : Str :=
  '{' :: join [','] (fields.map fun f => zString f.1 ++ ':' :: zVal f.2) ++ ['}']

/-- `zerolog.Level`. -/
inductive ZLevel where
  | trace | debug | info | warn | error | fatal
deriving DecidableEq, Repr

/-- The value of the constant. -/
def ZLevel.val : ZLevel → Int
  | .trace => -1
  | .debug => 0
  | .info => 1
  | .warn => 2
  | .error => 3
  | .fatal => 4

/-- `Level.String`. -/
def ZLevel.name : ZLevel → Str
  | .trace => "trace".toList
  | .debug => "debug".toList
  | .info => "info".toList
  | .warn => "warn".toList
  | .error => "error".toList
  | .fatal => "fatal".toList

/-- `Logger.should`: the logger itself has no level here, so the global level decides. -/
def ZLevel.should (globalLevel : ZLevel) (l : ZLevel) : Bool := globalLevel.val ≤ l.val

/-- An event as the program builds it. -/
structure ZEvent where
  level : ZLevel
  fields : List (Str × ZVal)
  /-- the argument of `Msg`, or what `Msgf` formats -/
  msg : Str
deriving DecidableEq, Repr

/-- The members in the order in which they are appended: `newEvent` the level and the context of the
logger, then the fields, `Event.msg` the timestamp (a hook of the logger) and the message, if there is
one. -/
def ZEvent.members (context : List (Str × ZVal)) (time : Str) (e : ZEvent) : List (Str × ZVal) :=
  ("level".toList, .str e.level.name) :: context ++ e.fields ++ [("time".toList, .str time)] ++
    if e.msg = [] then [] else [("message".toList, .str e.msg)]

/-- `Event.write`: the object and a line break. -/
def ZEvent.json (context : List (Str × ZVal)) (time : Str) (e : ZEvent) : Str :=
  zObject (e.members context time) ++ ['\n']

/-! ## console.go -/

/-- `colorize` with colours switched on. -/
def colorize (n : Nat) (s : Str) : Str :=
  "\x1b[".toList ++ natToDec n ++ 'm' :: s ++ "\x1b[0m".toList

/-- `consoleDefaultFormatLevel`. -/
def consoleLevel : ZLevel → Str
  | .trace => colorize 35 "TRC".toList
  | .debug => colorize 33 "DBG".toList
  | .info => colorize 32 "INF".toList
  | .warn => colorize 31 "WRN".toList
  | .error => colorize 31 (colorize 1 "ERR".toList)
  | .fatal => colorize 31 (colorize 1 "FTL".toList)

/-- `needsQuote`. -/
def needsQuote (s : Str) : Bool :=
  s.any fun c => c.toNat < 0x20 || 0x7e < c.toNat || c = ' ' || c = '\\' || c = '"'

/-- A field value: `quote` is `strconv.Quote`. -/
def consoleVal (quote : Str → Str) : ZVal → Str
  | .str s => if needsQuote s then quote s else s
  | .int n => itoa n
  | .bool true => "true".toList
  | .bool false => "false".toList

/-- `ConsoleWriter.Write`: time, level and message, each followed by a space but the last, then the fields,
which `srt` sorts by name. The message is written as it is (`consoleDefaultFormatMessage`). -/
def ZEvent.console (quote : Str → Str) (srt : List (Str × ZVal) → List (Str × ZVal))
    (context : List (Str × ZVal)) (clock : Str) (e : ZEvent) : Str :=
  let fields := (srt (context ++ e.fields)).map fun f =>
    colorize 36 (f.1 ++ ['=']) ++ consoleVal quote f.2
  colorize 90 clock ++ ' ' :: consoleLevel e.level ++ ' ' :: e.msg ++
    (if fields = [] then [] else ' ' :: join [' '] fields) ++ ['\n']

end J8a.Go

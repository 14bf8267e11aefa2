import Verif.Go.Zerolog
import Verif.Model.Iprex
import Verif.Model.Observe
/-!
# logger.go, server.go:36-56 and the events that are logged
-/
namespace J8a
open Go

/-- logger.go:44-57 `initLogger`: the global level, from the variable LOGLEVEL. -/
def logLevel (env : Str) : ZLevel :=
  if toUpper env = "TRACE".toList then .trace
  else if toUpper env = "DEBUG".toList then .debug
  else if toUpper env = "INFO".toList then .info
  else if toUpper env = "WARN".toList then .warn
  else .info

/-- logger.go:59-69: whether lines go through the console writer, from LOGCOLOR. -/
def logColor (env : Str) : Bool :=
  toUpper env = "TRUE".toList || toUpper env = "YES".toList || toUpper env = "Y".toList

/-- What the log of a process depends on. -/
structure Logger where
  /-- the variables LOGLEVEL and LOGCOLOR -/
  level : Str := []
  color : Str := []
  /-- `ID`, put into the context at logger.go:21 -/
  srvId : Str
  /-- `strconv.Quote` -/
  quote : Str → Str
  /-- `sort.Strings` on the field names -/
  srt : List (Str × ZVal) → List (Str × ZVal)

def Logger.context (L : Logger) : List (Str × ZVal) := [("srvId".toList, .str L.srvId)]

/-- What is written for an event at the time `time`, in the two formats (RFC 3339 and `time.Kitchen`). -/
def Logger.write (L : Logger) (time clock : Str) (e : ZEvent) : Str :=
  if (logLevel L.level).should e.level then
    if logColor L.color then e.console L.quote L.srt L.context clock else e.json L.context time
  else []

/-- server.go:36. -/
def tlsHandshakeError : Str := "TLS handshake error".toList

/-- server.go:42-56, `zerologAdapter.Write`: the event for a message of net/http's error log. -/
def adapterEvent (msg : Str) : ZEvent :=
  if contains msg tlsHandshakeError then
    { level := .warn,
      fields := [("netEvt".toList, .str msg), ("dwnReqRemoteAddr".toList, .str (Iprex.extractAddr msg))],
      msg := "TLS handshake error".toList }
  else
    { level := .trace,
      fields := [("netEvt".toList, .str msg), ("dwnReqRemoteAddr".toList, .str (Iprex.extractAddr msg))],
      msg := "undetermined network event".toList }

/-- net/http `conn.serve`, a handshake that failed: `http: TLS handshake error from %s: %v`. Package log
appends the line break. -/
def handshakeMsg (remoteAddr reason : Str) : Str :=
  "http: TLS handshake error from ".toList ++ remoteAddr ++ ": ".toList ++ reason ++ ['\n']

/-- net/http `conn.serve`, a handler that panicked: `http: panic serving %v: %v\n%s`. -/
def panicMsg (remoteAddr err stack : Str) : Str :=
  "http: panic serving ".toList ++ remoteAddr ++ ": ".toList ++ err ++ '\n' :: stack ++ ['\n']

/-- What proxyhandler.go:313-344 `logHandledDownstreamRoundtrip` puts into the line about the last attempt. -/
structure AttemptFields where
  uri : Str
  label : Str
  code : Int
  micros : Int
  abort : Bool
  atmpt : Str

/-- The values proxyhandler.go:313-344 adds to those of `LogLine`. -/
structure AccessFields where
  path : Str
  remoteAddr : Str
  httpVer : Str
  micros : Int
  /-- in TLS mode -/
  tlsVer : Option Str
  up : Option AttemptFields

/-- proxyhandler.go:313-344: the event, in the order of the calls. -/
def accessEvent (l : LogLine) (a : AccessFields) : ZEvent where
  level := match l.level with
    | .warn => .warn
    | .info => .info
  fields :=
    (match l.errMsg with
      | some m => [("dwnResErrMsg".toList, .str m)]
      | none => []) ++
    [("dwnReqPath".toList, .str a.path), ("dwnReqRemoteAddr".toList, .str (Iprex.extractAddr a.remoteAddr)),
     ("dwnReqMethod".toList, .str l.method), ("dwnReqUserAgent".toList, .str l.userAgent),
     ("dwnHttpVer".toList, .str a.httpVer), ("dwnResCode".toList, .int l.code),
     ("dwnResContentEnc".toList, .str l.contentEnc), ("dwnElapsedMicros".toList, .int a.micros),
     ("X-Request-Id".toList, .str l.xrid)] ++
    (match a.tlsVer with
      | some v => [("dwnTlsVer".toList, .str v)]
      | none => []) ++
    (match a.up with
      | some u => [("upReqURI".toList, .str u.uri), ("upLabel".toList, .str u.label),
          ("upAtmptResCode".toList, .int u.code), ("upAtmptElapsedMicros".toList, .int u.micros),
          ("upAtmptAbort".toList, .bool u.abort), ("upAtmpt".toList, .str u.atmpt)]
      | none => [])
  msg := match l.errMsg with
    | some _ => "downstream error response served".toList
    | none => "downstream response served".toList

/-- proxy.go:626-630: the event of `triggerKeyRotationCheck` on a route with a key set. -/
def rotationEvent (kid path jwt xrid : Str) : ZEvent where
  level := .debug
  fields := [("route".toList, .str path), ("jwt".toList, .str jwt), ("X-Request-Id".toList, .str xrid)]
  msg := "unmatched kid [".toList ++ kid ++
    "] on incoming req triggered background key rotation search for route [".toList ++ path ++
    "] jwt [".toList ++ jwt ++ "]".toList

end J8a

import Verif.Model.Decode
import Verif.Model.KeyLog
import Verif.Model.Listen
import Verif.Model.Tls
/-!
# server.go:58-147, config.go:34-134, 243-258 — the start of the gateway, with its log

The boot sequence once more, from the sources of the configuration to the listener, with the lines that are logged and
the three ways in which it can end. Lines of `initLogger` and of the goroutines for statistics and certificates are left
out; so are the fields with seconds of the two lines about derived parameters.
-/
namespace J8a
open Go

variable {K : Type}

/-- How a part of the boot sequence ends. -/
inductive Booted (α : Type) where
  | goes (a : α)
  /-- `log.Fatal` or `os.Exit` -/
  | exits
  /-- a panic that nothing recovers -/
  | crashes
deriving DecidableEq, Repr

/-- With the lines logged so far. -/
abbrev Logged (α : Type) := Booted α × List ZEvent

/-- One part after another. -/
def Logged.then {α β : Type} (x : Logged α) (f : α → Logged β) : Logged β :=
  match x.1 with
  | .goes a => ((f a).1, x.2 ++ (f a).2)
  | .exits => (.exits, x.2)
  | .crashes => (.crashes, x.2)

def goesOn {α : Type} (a : α) : Logged α := (.goes a, [])
def say (e : ZEvent) : Logged Unit := (.goes (), [e])

/-- `log.Fatal().Msg(msg)`, which ends the process. -/
def fatal {α : Type} (msg : Str) : Logged α := (.exits, [⟨.fatal, [], msg⟩])

/-- config.go:61-68 `config.panic`. -/
def refuse {α : Type} (msg : Str) : Logged α := (.exits, [fatalLine msg])
def crash {α : Type} : Logged α := (.crashes, [])

/-- config.go:80-90 `readYmlFile`. -/
def readYmlFileLogged {C : Type} (parse : Str → C) (s : Sources) (file : Str) : Logged C :=
  match s.files file with
  | some text => goesOn (parse text)
  | none => fatal ("unable to load config from ".toList ++ file ++ ", exiting...".toList)

/-- config.go:34-59 `load`. -/
def loadLogged {C : Type} (parse : Str → C) (routes : C → Nat) (s : Sources) : Logged C :=
  let check := fun (origin : Str) (c : C) =>
    if configOk routes c then
      (say (debugLine ("parsed config with ".toList ++ natToDec (routes c) ++ " live routes".toList))).then fun _ => goesOn c
    else refuse ("error loading config from ".toList ++ origin)
  let quoted := fun (name : Str) => '\'' :: name ++ ['\'']
  if 0 < s.configFile.length then
    (say (debugLine ("attempting config from file ".toList ++ quoted s.configFile))).then fun _ =>
      (readYmlFileLogged parse s s.configFile).then (check ("file ".toList ++ quoted s.configFile))
  else if 0 < s.env.length then
    (say (debugLine "attempting config from env J8ACFG_YML".toList)).then fun _ =>
      check ("env ".toList ++ quoted "J8ACFG_YML".toList) (parse s.env)
  else
    (say (debugLine ("attempting config from default file ".toList ++ quoted defaultConfigFile))).then fun _ =>
      (readYmlFileLogged parse s defaultConfigFile).then (check ("default file ".toList ++ quoted defaultConfigFile))

/-- What the start depends on besides the sources of the configuration. -/
structure Machinery (K : Type) where
  yamlToJson : Str → Option JVal
  E : Regexp
  X : X509 K
  hmacKey : Str → K
  T : KeyTexts K
  uuid : Str → Str
  fetch : Str → Str → Option (List (Jwk K))
  srt : List Route → List Route
  parse : Bytes → Option Cert
  verify : Cert → VerifyOptions → Option (List (List Cert))
  keyPair : Str → Str → List Bytes
  now : Nat → Int
  /-- text of the error of `checkCertChain` -/
  chainText : List Bytes → Str
  /-- whether the operating system lets the process listen on a port, and the text of its error -/
  free : Int → Bool
  listenText : Int → Str
  version : Str

/-- config.go:245-254: the loop over the entries. `jwt.Name = name` dereferences an entry that is null. -/
def validateJwtLogged (B : Machinery K) (count : Nat) : List (Str × Option (Jwt K)) → Logged (List (Str × Jwt K))
  | [] => (.goes [], [debugLine ("parsed ".toList ++ natToDec count ++ " jwt configurations".toList)])
  | (_, none) :: _ => crash
  | (n, some j) :: rest =>
    let r := ({ j with name := n } : Jwt K).validateLogged B.X B.hmacKey B.T (B.uuid n) (B.fetch n)
    match r.1 with
    | .panic => (.crashes, r.2)
    | .done _ (some err) => (.exits, r.2 ++ [fatalLine err])
    | .done j' none => Logged.then (.goes (), r.2) fun _ =>
        (validateJwtLogged B count rest).then fun js => goesOn ((n, j') :: js)

/-- config.go:243-258 `validateJwt`. -/
def jwtStage (B : Machinery K) (c : Config (Option (Jwt K))) : Logged (Config (Jwt K)) :=
  (if 0 < c.jwt.length then validateJwtLogged B c.jwt.length c.jwt else goesOn []).then fun js =>
    goesOn { policies := c.policies, routes := c.routes, jwt := js, resources := c.resources, connection := c.connection }

/-- config.go:125-134 `compileRoutePaths`. -/
def pathStage {J : Type} (E : Regexp) (c : Config J) : Logged (Config J) :=
  match c.routes.find? fun r => !E.compiles ('^' :: r.path) with
  | some r => refuse ("config error, illegal route path ".toList ++ r.path)
  | none => goesOn { c with routes := c.routes.map fun r => { r with pathRegex := some ('^' :: r.path) } }

/-- config.go:136-143 `compileRouteTransforms`. -/
def transformStage {J : Type} (c : Config J) : Logged (Config J) :=
  match c.routes.find? fun r => 0 < r.transform.length && !(r.transform.take 1 == ['/']) with
  | some r => refuse ("config error, illegal route transform ".toList ++ r.transform)
  | none => goesOn c

/-- config.go:109-123 `validateRoutes`. -/
def routeStage {J : Type} (srt : List Route → List Route) (c : Config J) : Logged (Config J) :=
  match c.routes.find? fun r => r.hasJwt && (c.jwt.lookup r.jwt).isNone with
  | some r => refuse ("route [".toList ++ addSlash r.path ++ "] jwt [".toList ++ r.jwt ++
      "] not found, check your configuration".toList)
  | none => goesOn { c with routes := srt (c.routes.map fun r => { r with path := addSlash r.path }) }

/-- server.go:62-72: between `load` and `startListening`, with the line of httpclient.go:48-57. -/
def bootLogged (B : Machinery K) (c : Config (Option (Jwt K))) : Logged (Config (Jwt K)) :=
  (jwtStage B c.reApplyResourceSchemes.reApplyResourceNames).then fun c =>
  (pathStage B.E c).then fun c =>
  (transformStage c).then fun c =>
  (routeStage B.srt c).then fun c =>
    let c := c.addDefaultPolicy.setDefaultUpstreamParams.setDefaultDownstreamParams
    let u := c.connection.upstream
    (say ⟨.debug, [("upMaxIdleConns".toList, .int u.poolSize), ("upMaxIdleConnsPerHost".toList, .int u.poolSize),
      ("upTlsInsecureSkipVerify".toList, .bool u.tlsInsecureSkipVerify)], "server derived upstream params".toList⟩).then
      fun _ => goesOn c

/-- server.go:140. -/
def aboutLine (path : Str) : ZEvent := debugLine ("assigned about handler to path ".toList ++ path)

/-- server.go:137-142. -/
def addAboutLogged : List Route → Mux → Logged Mux
  | [], x => goesOn x
  | r :: rs, x =>
    if r.resource = "about".toList then
      match x.handle r.path .about with
      | some x => (say (aboutLine r.path)).then fun _ => addAboutLogged rs x
      | none => crash
    else addAboutLogged rs x

/-- server.go:132-147 `mapPathsToHandler`. -/
def muxStage (routes : List Route) : Logged Mux :=
  (addAboutLogged routes {}).then fun x =>
    match x.handle ['/'] .proxy with
    | some x => (say (debugLine "assigned proxy handler to path /".toList)).then fun _ => goesOn x
    | none => crash

/-- server.go:116, 123. -/
def listeningLine (version mode : Str) (port : Int) : ZEvent :=
  ⟨.info, [], "j8a ".toList ++ version ++ " listening in ".toList ++ mode ++ " mode on port ".toList ++ itoa port ++
    "...".toList⟩

/-- server.go:127-130. -/
def startFailed {α : Type} (port : Int) (text : Str) : Logged α :=
  (.exits, [⟨.fatal, [("error".toList, .str text)], "unable to start j8a on port ".toList ++ itoa port ++
    ", exiting...".toList⟩])

/-- server.go:116-117, 123-124: the line, then the listener. -/
def listenLogged (B : Machinery K) (mode : Str) (port : Int) (s : Serving) : Logged Serving :=
  (say (listeningLine B.version mode port)).then fun _ =>
    if listen port && B.free port then goesOn s else startFailed port (B.listenText port)

/-- server.go:83-130 `startListening`. -/
def startLogged (B : Machinery K) (c : Config (Jwt K)) : Logged Serving :=
  let d := c.connection.downstream
  (say ⟨.debug, [("dwnMaxBodyBytes".toList, .int d.maxBodyBytes)], "server derived downstream params".toList⟩).then fun _ =>
  (muxStage c.routes).then fun _ =>
    if d.isTLSMode then
      match tlsConfig B.parse B.keyPair d.cert d.key with
      | none => fatal ("unable to parse TLS configuration, check your certificate and/or private key. ".toList ++
          "j8a is exiting ...".toList)
      | some chain => match checkCertChain B.parse B.verify B.now chain with
        | .panic => crash
        | .error => startFailed d.port (B.chainText chain)
        | .ok _ => listenLogged B "TLS".toList d.port (.tls d.port)
    else listenLogged B "HTTP".toList d.port (.plain d.port)

/-- server.go:58-81 `BootStrap`. -/
def bootStrap (B : Machinery K) (s : Sources) : Logged Serving :=
  (loadLogged (parseConfig B.yamlToJson) (·.routes.length) s).then fun c =>
  (bootLogged B c).then fun c => startLogged B c

end J8a

import Verif.Go.Num
/-!
# tls.go, server.go:111-120 and 175-212 — certificate chain checks

Parsing and verifying certificates (`crypto/x509`, `crypto/tls`) are parameters.
The cipher suites are in `Model/Handshake.lean`. The text of the report is in `Model/CertReport.lean`.
-/
namespace J8a
open Go

/-- A distinguished name: its common name and everything else. -/
structure Name where
  cn : Str := []
  rest : Str := []
deriving DecidableEq, Repr

/-- `x509.Certificate`, the parts used here. Times are nanoseconds since some epoch. -/
structure Cert where
  issuer : Name := {}
  subject : Name := {}
  isCA : Bool := false
  dnsNames : List Str := []
  notBefore : Int := 0
  notAfter : Int := 0
  serial : Int := 0
deriving DecidableEq, Repr

/-- tls.go:31-39 `TlsLink`; `issued`, `browserValidity` and `totalValidity` are computed in
`Model/CertReport.lean`. -/
structure TlsLink where
  cert : Cert
  remainingValidity : Int
  earliestExpiry : Bool := false
  isCA : Bool
deriving DecidableEq, Repr

/-- `time.Until(t)` at `now`: `Sub` saturates at the bounds of `Duration`. -/
def timeUntil (t now : Int) : Int := max minInt64 (min maxInt64 (t - now))

/-- tls.go:189-204: the loop, from index `i` on. `now i` is the clock when `time.Until` is called for
certificate `i`. Returns the links, the index to mark. -/
def linkLoop (now : Nat → Int) (i : Nat) (links : List TlsLink) (si : Nat) (earliest : Int) :
    List Cert → List TlsLink × Nat
  | [] => (links, si)
  | cert :: rest =>
    let link : TlsLink :=
      { cert, remainingValidity := timeUntil cert.notAfter (now i), isCA := cert.isCA }
    if link.remainingValidity < earliest then
      linkLoop now (i + 1) (links ++ [link]) i link.remainingValidity rest
    else linkLoop now (i + 1) (links ++ [link]) si earliest rest

/-- tls.go:184-207 `parseTlsLinks`; `none` is the index panic of line 205. -/
def parseTlsLinks (now : Nat → Int) (chain : List Cert) : Option (List TlsLink) :=
  let (links, si) := linkLoop now 0 [] 0 maxInt64 chain
  match links[si]? with
  | none => none
  | some l => some (links.set si { l with earliestExpiry := true })

/-- `fmt.Sprintf("%X", n)` of a `*big.Int`. -/
def hexUpper : Int → Str
  | .ofNat n => toUpper (Nat.toDigits 16 n)
  | .negSucc n => '-' :: toUpper (Nat.toDigits 16 (n + 1))

/-- tls.go:113-119: the loop; `none` is the panic of `hex[i : i+2]`. -/
def hexPairs : Str → Option Str
  | [] => some []
  | [_] => none
  | a :: b :: rest =>
    match hexPairs rest with
    | none => none
    | some t => some (if rest = [] then [a, b] else a :: b :: '-' :: t)

/-- tls.go:107-123 `formatSerial`; `none` is a panic. -/
def formatSerial (serial : Int) : Option Str :=
  let hex := hexUpper serial
  let hex := if hex.length = 1 ∨ hex.length = 31 then '0' :: hex else hex
  if 2 < hex.length then hexPairs hex else some hex

/-- tls.go:227-230 `isRoot`. -/
def isRoot (c : Cert) : Bool := c.isCA && c.issuer.cn == c.subject.cn

/-- tls.go:209-225 `splitCertPools`: intermediates and roots; `none` is the nil dereference for
something that is not a certificate. (`AddCert` ignores duplicates; the pools are looked at as sets.) -/
def splitCertPools (parse : Bytes → Option Cert) : List Bytes → Option (List Cert × List Cert)
  | [] => some ([], [])
  | d :: ds =>
    match parse d, splitCertPools parse ds with
    | some c, some (inter, root) =>
      some (if c.isCA then (if isRoot c then (inter, c :: root) else (c :: inter, root))
            else (inter, root))
    | _, _ => none

/-- The parts of `x509.VerifyOptions` that are set; `roots = none` means the system roots. -/
structure VerifyOptions where
  intermediates : Option (List Cert) := none
  roots : Option (List Cert) := none
deriving DecidableEq, Repr

/-- tls.go:96-105 `verifyOptions`. -/
def verifyOptions (inter root : List Cert) : VerifyOptions :=
  { intermediates := if 0 < inter.length then some inter else none
    roots := if 0 < root.length then some root else none }

/-- What `checkCertChain` comes to. -/
inductive ChainCheck
  | panic
  | error
  | ok (links : List TlsLink)
deriving DecidableEq, Repr

/-- tls.go:76-94 `checkCertChain`. `verify` is `Certificate.Verify` (`none`: an error). An error of
an earlier step is overwritten by a later one but never cleared. -/
def checkCertChain (parse : Bytes → Option Cert)
    (verify : Cert → VerifyOptions → Option (List (List Cert))) (now : Nat → Int)
    (chain : List Bytes) : ChainCheck :=
  match chain with
  | [] => .panic
  | d :: _ =>
    match parse d with
    | none => .panic
    | some cert =>
      let err := cert.dnsNames.length = 0
      match splitCertPools parse chain with
      | none => .panic
      | some (inter, root) =>
        match verify cert (verifyOptions inter root) with
        | none => .error
        | some verified =>
          if err then .error
          else match verified with
            | [] => .panic
            | v :: _ =>
              match parseTlsLinks now v with
              | none => .panic
              | some links => .ok links

/-- server.go:175-212 `tlsConfig`: the certificate list of the configuration. `keyPair` is
`tls.X509KeyPair`, which returns no certificates together with an error; `none` is the exit of
line 179. -/
def tlsConfig (parse : Bytes → Option Cert) (keyPair : Str → Str → List Bytes) (cert key : Str) :
    Option (List Bytes) :=
  match keyPair cert key with
  | [] => none
  | d :: ds => if (parse d).isSome then some (d :: ds) else none

/-- server.go:111-130 in TLS mode: `true` when the listener is started, `false` when the process
ends. -/
def startTls (parse : Bytes → Option Cert)
    (verify : Cert → VerifyOptions → Option (List (List Cert))) (keyPair : Str → Str → List Bytes)
    (now : Nat → Int) (cert key : Str) : Bool :=
  match tlsConfig parse keyPair cert key with
  | none => false
  | some chain =>
    match checkCertChain parse verify now chain with
    | .ok _ => true
    | _ => false

/-- tls.go:126 `month`. -/
def month : Int := 30 * 24 * 3600 * 10 ^ 9

/-- What one round of the health check does. -/
inductive HealthReport
  /-- a panic, recovered by line 54-58, which ends the goroutine -/
  | ended
  /-- nothing is logged -/
  | silent
  | debug
  | warn
deriving DecidableEq, Repr

/-- tls.go:125-182 `logCertStats`: all serials are formatted, then one line is logged for every
marked link. -/
def logCertStats (links : List TlsLink) : HealthReport :=
  if links.any (fun l => (formatSerial l.cert.serial).isNone) then .ended
  else match links.find? (·.earliestExpiry) with
    | none => .silent
    | some l => if l.remainingValidity < month then .warn else .debug

/-- tls.go:62-72: one round of `tlsHealthCheck`. The error of `checkCertChain` is dropped and its
links are then empty. -/
def healthRound (parse : Bytes → Option Cert)
    (verify : Cert → VerifyOptions → Option (List (List Cert))) (now : Nat → Int)
    (chain : List Bytes) : HealthReport :=
  match checkCertChain parse verify now chain with
  | .panic => .ended
  | .error => logCertStats []
  | .ok links => logCertStats links

/-- tls.go:53-74 `tlsHealthCheck` as a daemon: what happens in round `r`, round by round.
`verify r` and `now r` are the verification results and the clock of that round. -/
def healthCheck (parse : Bytes → Option Cert)
    (verify : Nat → Cert → VerifyOptions → Option (List (List Cert))) (now : Nat → Nat → Int)
    (chain : List Bytes) : Nat → HealthReport
  | 0 => healthRound parse (verify 0) (now 0) chain
  | r + 1 =>
    match healthCheck parse verify now chain r with
    | .ended => .ended
    | _ => healthRound parse (verify (r + 1)) (now (r + 1)) chain

end J8a

import Verif.Go.Handshake
/-!
# crypto/tls of Go 1.15: what a client agrees to

`makeClientHello`, `pickTLSVersion`, `pickCipherSuite`, `verifyServerCertificate` (handshake_client.go) and
`processServerHello` of handshake_client_tls13.go, from the source as remembered. Whether a chain of
certificates is good for a name now (`x509.Certificate.Verify` with the roots of the system) is a parameter.
Not modelled: resumption, curves, signatures of the handshake (they are taken to be right), client
certificates.
-/
namespace J8a.Go

/-- `tls.Config` of a client, the fields that matter here. Zero means the default. -/
structure ClientTls where
  insecureSkipVerify : Bool := false
  minVersion : Nat := 0
  cipherSuites : List Nat := []
  serverName : List Char := []
deriving DecidableEq, Repr

/-- `suiteDefaultOff` in the table of suites: CBC with SHA-256, and RC4. -/
def suitesDefaultOff : List Nat := [0xc027, 0xc023, 0x003c, 0x0005, 0xc011, 0xc007]

/-- `initDefaultCipherSuites`, without the order, which is only a preference. -/
def defaultSuites : List Nat := (cipherSuites.map Suite.id).filter (!suitesDefaultOff.contains ·)

/-- `Config.supportedVersions`. -/
def ClientTls.versions (c : ClientTls) : List Nat :=
  [tls13, tls12, tls11, tls10].filter (fun v => c.minVersion ≤ v)

/-- `Config.cipherSuites`. -/
def ClientTls.suites (c : ClientTls) : List Nat :=
  if c.cipherSuites = [] then defaultSuites else c.cipherSuites

/-- What the server answers: version, suite, and its certificates. -/
structure ServerChoice (C : Type) where
  version : Nat
  suite : Nat
  chain : C
deriving DecidableEq, Repr

/-- Does the client go on with the answer of the server? -/
def ClientTls.accepts {C : Type} (verify : C → List Char → Bool) (c : ClientTls) (s : ServerChoice C) :
    Bool :=
  (c.insecureSkipVerify || c.serverName != []) && c.versions.contains s.version &&
  (if s.version = tls13 then (suitesTLS13 true).contains s.suite else c.suites.contains s.suite) &&
  (c.insecureSkipVerify || verify s.chain c.serverName)

/-- A connection of `http.Transport`. -/
inductive UpConn (C : Type) where
  | plain
  | tls (s : ServerChoice C)
deriving DecidableEq, Repr

/-- transport.go `roundTrip`, `dialConn`, `addTLS`: TLS for the scheme https, with the host of the URL as
the name unless another one is configured; no connection for schemes other than http and https. `answer` is
what the server at the other end chooses. -/
def dialConn {C : Type} (verify : C → List Char → Bool) (c : ClientTls) (scheme host : List Char)
    (answer : ServerChoice C) : Option (UpConn C) :=
  if scheme = "https".toList then
    let c := if c.serverName = [] then { c with serverName := host } else c
    if c.accepts verify answer then some (.tls answer) else none
  else if scheme = "http".toList then some .plain
  else none

end J8a.Go

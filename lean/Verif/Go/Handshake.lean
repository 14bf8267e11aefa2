/-!
# crypto/tls of Go 1.15: what a server negotiates

`readClientHello`, `processClientHello` and `pickCipherSuite` (handshake_server.go), `processClientHello`
of handshake_server_tls13.go, `ecdheKeyAgreement.generateServerKeyExchange`, from the source as
remembered. Versions, suites and groups are the numbers on the wire. Whether some signature scheme fits
certificate and client is a parameter. Not modelled: resumption, renegotiation, ALPN, client certificates.
-/
namespace J8a.Go

/-- `VersionTLS10` … `VersionTLS13`. -/
def tls10 : Nat := 0x0301
def tls11 : Nat := 0x0302
def tls12 : Nat := 0x0303
def tls13 : Nat := 0x0304

/-- `CurveID`s. -/
def curveP256 : Nat := 23
def curveP384 : Nat := 24
def curveP521 : Nat := 25
def x25519 : Nat := 29

/-- The public key of a certificate that `X509KeyPair` accepts. -/
inductive KeyType where
  | rsa | ecdsa | ed25519
deriving DecidableEq, Repr

/-- An entry of `cipherSuites`: the suites up to TLS 1.2, with the flags `suiteECDHE`, `suiteECSign`. -/
structure Suite where
  id : Nat
  ecdhe : Bool
  ecSign : Bool
deriving DecidableEq, Repr

/-- `cipherSuites` (cipher_suites.go). -/
def cipherSuites : List Suite :=
  [⟨0xcca8, true, false⟩, ⟨0xcca9, true, true⟩, ⟨0xc02f, true, false⟩, ⟨0xc02b, true, true⟩,
   ⟨0xc030, true, false⟩, ⟨0xc02c, true, true⟩, ⟨0xc027, true, false⟩, ⟨0xc013, true, false⟩,
   ⟨0xc023, true, true⟩, ⟨0xc009, true, true⟩, ⟨0xc014, true, false⟩, ⟨0xc00a, true, true⟩,
   ⟨0x009c, false, false⟩, ⟨0x009d, false, false⟩, ⟨0x003c, false, false⟩, ⟨0x002f, false, false⟩,
   ⟨0x0035, false, false⟩, ⟨0xc012, true, false⟩, ⟨0x000a, false, false⟩, ⟨0x0005, false, false⟩,
   ⟨0xc011, true, false⟩, ⟨0xc007, true, true⟩]

/-- `defaultCipherSuitesTLS13()` on a machine with AES instructions; without, the last comes first. -/
def suitesTLS13 (aes : Bool) : List Nat :=
  if aes then [0x1301, 0x1303, 0x1302] else [0x1303, 0x1301, 0x1302]

/-- `tls.Config`, the fields set here. -/
structure TlsConfig where
  minVersion : Nat
  curvePreferences : List Nat
  cipherSuites : List Nat
deriving DecidableEq, Repr

/-- A `clientHello`. -/
structure Hello where
  /-- legacy version -/
  vers : Nat
  /-- extension supported_versions, in the order of the client; empty if absent -/
  supportedVersions : List Nat := []
  suites : List Nat
  curves : List Nat := []
  /-- offers uncompressed points -/
  points : Bool := true
  keyShares : List Nat := []
  /-- offers no compression among the compression methods -/
  noCompression : Bool := true
deriving DecidableEq, Repr

/-- What was agreed on. -/
structure Session where
  version : Nat
  suite : Nat
  group : Nat
deriving DecidableEq, Repr

/-- `supportedVersionsFromMax`. -/
def versionsFromMax (v : Nat) : List Nat := [tls13, tls12, tls11, tls10].filter (· ≤ v)

/-- `Config.supportedVersions`, no maximum set. -/
def TlsConfig.versions (c : TlsConfig) : List Nat :=
  [tls13, tls12, tls11, tls10].filter (c.minVersion ≤ ·)

/-- The versions the client is taken to offer. -/
def Hello.versions (h : Hello) : List Nat :=
  if h.supportedVersions = [] then versionsFromMax h.vers else h.supportedVersions

/-- `Config.mutualVersion`: the first of the peer's that is supported. -/
def TlsConfig.mutualVersion (c : TlsConfig) (h : Hello) : Option Nat :=
  h.versions.find? (c.versions.contains ·)

/-- `serverHandshakeState.cipherSuiteOk`; key exchange by decryption needs an RSA key. -/
def suiteOk (key : KeyType) (ecdheOk : Bool) (s : Suite) : Bool :=
  if s.ecdhe then ecdheOk && (if s.ecSign then key != .rsa else key == .rsa) else key == .rsa

/-- `selectCipherSuite` with the server's preference. -/
def selectSuite (key : KeyType) (ecdheOk : Bool) (ids supported : List Nat) : Option Suite :=
  ids.findSome? fun id => match cipherSuites.find? (·.id == id) with
    | none => none
    | some s => if suiteOk key ecdheOk s && supported.contains id then some s else none

/-- TLS 1.2 and below. `sign` tells whether `selectSignatureScheme` succeeds. The group of suites without
ECDHE is given as 0. -/
def TlsConfig.negotiate12 (c : TlsConfig) (key : KeyType) (sign : Bool) (v : Nat) (h : Hello) :
    Option Session :=
  if !h.noCompression then none
  else
    let ecdheOk := h.curves.any (c.curvePreferences.contains ·) && h.points
    match selectSuite key ecdheOk c.cipherSuites h.suites with
    | none => none
    | some s =>
      if s.ecdhe then
        match h.curves.find? (c.curvePreferences.contains ·) with
        | none => none
        | some g => if sign then some ⟨v, s.id, g⟩ else none
      else some ⟨v, s.id, 0⟩

/-- The group of TLS 1.3: the first preferred one with a key share, else the first preferred one
that is offered (after a HelloRetryRequest). -/
def TlsConfig.group13 (c : TlsConfig) (h : Hello) : Option Nat :=
  match c.curvePreferences.find? (h.keyShares.contains ·) with
  | some g => some g
  | none => c.curvePreferences.find? (h.curves.contains ·)

/-- TLS 1.3; the suites of the configuration are not looked at. -/
def TlsConfig.negotiate13 (c : TlsConfig) (aes sign : Bool) (h : Hello) : Option Session :=
  if !h.noCompression then none
  else match (suitesTLS13 aes).find? (h.suites.contains ·) with
    | none => none
    | some s => match c.group13 h with
      | none => none
      | some g => if sign then some ⟨tls13, s, g⟩ else none

/-- The handshake. -/
def TlsConfig.negotiate (c : TlsConfig) (key : KeyType) (aes : Bool) (sign : Nat → Bool) (h : Hello) :
    Option Session :=
  match c.mutualVersion h with
  | none => none
  | some v => if v = tls13 then c.negotiate13 aes (sign v) h else c.negotiate12 key (sign v) v h

end J8a.Go

import Verif.Go.Handshake
/-!
# net/http of Go 1.15: which protocol a TLS connection speaks

`http2ConfigureServer`, `serverConn.serve` preamble of `http2Server.ServeConn` (h2_bundle.go), `ServeTLS` and
`conn.serve` (server.go), `mutualProtocol` (crypto/tls), from the source as remembered. Of the streams of a connection only the timeouts are modelled.
-/
namespace J8a.Go

/-- The ranges of RFC 7540, appendix A. -/
def badRanges : List (Nat × Nat) :=
  [(0x0000, 0x001b), (0x001e, 0x0046), (0x0067, 0x006d), (0x0084, 0x009d), (0x00a0, 0x00a1), (0x00a4, 0x00a9),
   (0x00ac, 0x00c5), (0x00ff, 0x00ff), (0xc001, 0xc02a), (0xc02d, 0xc02e), (0xc031, 0xc051),
   (0xc054, 0xc055), (0xc058, 0xc05b), (0xc05e, 0xc05f), (0xc062, 0xc06b), (0xc06e, 0xc07b),
   (0xc07e, 0xc07f), (0xc082, 0xc085), (0xc088, 0xc089), (0xc08c, 0xc08f), (0xc092, 0xc09d),
   (0xc0a0, 0xc0a1), (0xc0a4, 0xc0a5), (0xc0a8, 0xc0a9)]

/-- `http2isBadCipher`. -/
def isBadCipher (id : Nat) : Bool := badRanges.any fun r => decide (r.1 ≤ id) && decide (id ≤ r.2)

/-- The loop of `http2ConfigureServer`; `none`: an approved suite comes after one that is not. -/
def checkSuites : (haveRequired sawBad : Bool) → List Nat → Option Bool
  | req, _, [] => some req
  | req, bad, id :: ids =>
    let req := req || id == 0xc02f || id == 0xc02b
    if isBadCipher id then checkSuites req true ids
    else if bad then none
    else checkSuites req bad ids

/-- `http2ConfigureServer`: whether it succeeds. If not `ListenAndServeTLS` returns an error. -/
def configureHttp2 (c : TlsConfig) : Bool := checkSuites false false c.cipherSuites == some true

/-- `NextProtos` after `http2ConfigureServer` and `ServeTLS`, when nothing was set. -/
def nextProtos : List String := ["h2", "http/1.1"]

/-- `mutualProtocol` as the server calls it: the first of its own that the client offers. The client may offer
none at all, or only others; then nothing is negotiated. -/
def mutualProtocol (offered : List String) : String :=
  (nextProtos.find? (offered.contains ·)).getD ""

/-- What is spoken on a connection. -/
inductive Protocol where
  | http1
  | http2
  /-- refused with INADEQUATE_SECURITY -/
  | refused
deriving DecidableEq, Repr

/-- `conn.serve` and the checks of `ServeConn`. -/
def protocol (s : Session) (offered : List String) : Protocol :=
  if mutualProtocol offered = "h2" then
    if s.version < tls12 then .refused
    else if isBadCipher s.suite then .refused
    else .http2
  else .http1

/-! ## Timeouts of a connection -/

/-- A stream: when its headers were read, and when its request was complete. -/
structure H2Stream where
  id : Nat
  opened : Int
  finished : Option Int := none
deriving DecidableEq, Repr

/-- A connection. Times in nanoseconds. -/
structure H2Conn where
  now : Int := 0
  /-- deadline of the next read, if there is one -/
  readDeadline : Option Int
  streams : List H2Stream := []
deriving DecidableEq, Repr

/-- What happens on a connection. -/
inductive H2Act where
  | wait (d : Nat)
  /-- the headers of a request arrive, with a body to follow -/
  | headers (id : Nat)
  /-- a part of the body arrives -/
  | data (id : Nat)
  /-- the last part of the body arrives -/
  | finish (id : Nat)
deriving DecidableEq, Repr

/-- `conn.serve`: the read deadline is set when the connection is accepted. -/
def H2Conn.accept (readTimeout : Int) : H2Conn where
  readDeadline := if readTimeout = 0 then none else some readTimeout

/-- A frame can be read. -/
def H2Conn.readable (c : H2Conn) : Bool :=
  match c.readDeadline with
  | none => true
  | some t => decide (c.now < t)

/-- The timer of `newStream` has not reset the stream (`onWriteTimeout`). -/
def H2Conn.alive (writeTimeout : Int) (c : H2Conn) (s : H2Stream) : Bool :=
  decide (writeTimeout = 0) || decide (c.now < s.opened + writeTimeout)

/-- The stream receives data: it was opened, is not complete and not reset. -/
def H2Conn.open (writeTimeout : Int) (c : H2Conn) (id : Nat) : Bool :=
  c.streams.any fun s => s.id == id && s.finished.isNone && c.alive writeTimeout s

/-- One step. `processHeaders` takes the read deadline away, and does not set another one. -/
def H2Conn.step (readTimeout writeTimeout : Int) (c : H2Conn) : H2Act → Option H2Conn
  | .wait d => some { c with now := c.now + d }
  | .headers id =>
    if c.readable && c.streams.all (fun s => decide (s.id < id)) then
      some { c with readDeadline := if readTimeout = 0 then c.readDeadline else none, streams := ⟨id, c.now, none⟩ :: c.streams }
    else none
  | .data id => if c.readable && c.open writeTimeout id then some c else none
  | .finish id =>
    if c.readable && c.open writeTimeout id then
      some { c with streams := c.streams.map fun s => if s.id = id then { s with finished := some c.now } else s }
    else none

/-- An execution. -/
def H2Conn.run (readTimeout writeTimeout : Int) : H2Conn → List H2Act → Option H2Conn
  | c, [] => some c
  | c, a :: as => (c.step readTimeout writeTimeout a).bind (run readTimeout writeTimeout · as)

end J8a.Go

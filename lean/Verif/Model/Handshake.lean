import Verif.Go.Handshake
import Verif.Model.Tls
/-!
# server.go:194-209 — the TLS parameters of the listener; proxy.go:305-317
-/
namespace J8a
open Go

/-- server.go:195-209, without the certificates (`tlsConfig` of `Model/Tls`). -/
def listenerTls : TlsConfig where
  minVersion := tls12
  curvePreferences := [curveP521, curveP384, curveP256]
  cipherSuites := [0x1302, 0x1301, 0x1303, 0xc030, 0xc02f]

/-- proxy.go:305-317 `parseTlsVersion`; `none` is a connection without TLS. -/
def parseTlsVersion : Option Nat → Str
  | none => "none".toList
  | some v => if v = tls12 then "TLS1.2".toList else if v = tls13 then "TLS1.3".toList
    else "unknown".toList

end J8a

import Verif.Go.ClientTls
import Verif.Model.Config
/-!
# httpclient.go:27-39 — TLS with upstreams
-/
namespace J8a
open Go

/-- httpclient.go:35-37. -/
def upstreamTls (u : Upstream) : ClientTls := { insecureSkipVerify := u.tlsInsecureSkipVerify }

/-- The connection over which a request to `url` goes (proxyhandler.go:155). `url.Parse` turns the scheme to
lower case. -/
def upstreamConn {C : Type} (verify : C → Str → Bool) (u : Upstream) (url : URL)
    (answer : ServerChoice C) : Option (UpConn C) :=
  dialConn verify (upstreamTls u) (toLower url.scheme) url.host answer

end J8a

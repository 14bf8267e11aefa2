import Verif.Go.Md5
import Verif.Go.Json
/-!
# logger.go:13-42 — the server id
-/
namespace J8a
open Go

/-- logger.go:24-31 `getHost`: the variable HOSTNAME, or else what the operating system says. -/
def getHost (hostnameVar osHostname : Str) : Str := if hostnameVar.length = 0 then osHostname else hostnameVar

/-- server.go:19. -/
def builtVersion : Str := "v0.7.2".toList

/-- logger.go:33-41 `getVersion`: the variable VERSION, or else the version built in. -/
def getVersion (versionVar : Str) : Str := if 0 < versionVar.length then versionVar else builtVersion

/-- logger.go:16-20 `initServerID`. -/
def serverId (host version : Str) : Str := (hexEncode (md5 (strBytes (host ++ version)))).take 8

end J8a

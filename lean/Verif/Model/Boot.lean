import Verif.Model.Config
import Verif.Model.Jwt
/-!
# config.go:243-258 — the jwt check of the boot sequence, with the jwt model filled in
-/
namespace J8a
open Go

variable {K : Type}

/-- config.go:245-253, one entry: name it, initialise it, validate it. A panic and an error both end
the process. `uuid n` and `fetch n` are the random part and the key sets seen while entry `n` is
validated. -/
def bootJwt (X : X509 K) (hmacKey : Str → K) (uuid : Str → Str)
    (fetch : Str → Str → Option (List (Jwk K))) (n : Str) (j : Jwt K) : Option (Jwt K) :=
  match ({ j with name := n } : Jwt K).validate X hmacKey (uuid n) (fetch n) with
  | .done j' false => some j'
  | _ => none

end J8a

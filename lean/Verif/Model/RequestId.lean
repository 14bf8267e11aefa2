import Verif.Go.Uuid
import Verif.Model.Handler
/-!
# proxy.go:319-327 — the random part of a request id

`Setup.uuid` is the text of the UUID; here it is made from the bytes of the source of random numbers.
-/
namespace J8a
open Go

variable {K : Type}

/-- proxy.go:323-324: the error of `NewRandom` is dropped; `%s` of a UUID is its `String`. -/
def randomPart (src : Bytes) : Str := uuidString (newRandom src).1

/-- The request is handled while the source of random numbers gives `src`. -/
def Setup.drawing (x : Setup K) (src : Bytes) : Setup K := { x with uuid := randomPart src }

end J8a

import Verif.Model.Request
/-!
# proxy.go:231-282 — how much of a body is taken from the client

The functions of `Model/Request` once more, now counting.
-/
namespace J8a
open Go

/-- Bytes that `ioutil.ReadAll(bufio.NewReader(http.MaxBytesReader(w, body, n)))` takes from the body, as `readAllMax`. -/
def takeAllMax (sz : Nat → Nat) : (fuel : Nat) → (i n : Nat) → Body → Nat
  | 0, _, _, _ => 0
  | fuel + 1, i, n, b =>
    let p := min (sz i + 1) (n + 1)
    let (got, e, rest) := b.read p
    got.length +
      if got.length ≤ n then
        match e with
        | some _ => 0
        | none => takeAllMax sz fuel (i + 1) (n - got.length) rest
      else 0

/-- proxy.go:231-282 `parseRequestBody`: the bytes it takes from the body of the request. It runs before anything is decided
about the request (proxyhandler.go:35-37 in front of 39-75). -/
def bodyTaken (sz : Nat → Nat) (max : Int) (rq : Request) : Nat :=
  if rq.contentLength = 0 then 0
  else if rq.contentLength ≥ max then 0
  else takeAllMax sz rq.body.fuel 0 max.toNat rq.body

end J8a

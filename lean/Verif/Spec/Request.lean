import Verif.Model.Request
import Verif.Spec.Jwt
/-!
# What a request is, and what its token must satisfy
-/
namespace J8a
open Go

/-- All bytes of a body that arrived. -/
def Body.bytes (b : Body) : Bytes := b.pieces.flatten

/-- What net/http guarantees about a parsed request: the body delivers the declared number of bytes
unless it fails, and no more; length -1 stands for an undeclared one (chunked). -/
structure Request.WF (rq : Request) : Prop where
  header : rq.header.WF
  length : -1 ≤ rq.contentLength
  complete : 0 ≤ rq.contentLength → rq.body.ending = .eof →
    (rq.body.bytes.length : Int) = rq.contentLength
  atMost : 0 ≤ rq.contentLength → (rq.body.bytes.length : Int) ≤ rq.contentLength

/-- The methods the gateway proxies. -/
def proxiedMethods : List Str :=
  ["GET", "HEAD", "OPTIONS", "TRACE", "PUT", "DELETE", "POST", "CONNECT"].map String.toList

/-- The request headers the gateway does not pass on. -/
def droppedHeaders : List Str :=
  ["Date", "Content-Length", "Transfer-Encoding", "Server"].map String.toList

/-- The request's body is over the limit as far as its headers tell: it declares a length that is not
below the limit (proxy.go:241). -/
def DeclaredTooLarge (max : Int) (rq : Request) : Prop :=
  rq.contentLength ≠ 0 ∧ max ≤ rq.contentLength

variable {K : Type}

/-- `token` verifies under the configured algorithm with one of the configured keys of the type
that belongs to the algorithm. -/
def Verified (L : Jwx K) (j : Jwt K) (token : Str) : Prop :=
  (j.alg ∈ rsaAlgs ∧ ∃ kp ∈ j.rsaPublic, (L.parseVerify j.alg kp.key token).isSome = true) ∨
  (j.alg ∈ ecAlgs ∧ ∃ kp ∈ j.ecdsaPublic, (L.parseVerify j.alg kp.key token).isSome = true) ∨
  (j.alg ∈ hmacAlgs ∧ ∃ kp ∈ j.secret, (L.parseVerify j.alg kp.key token).isSome = true)

/-- The second field of the Authorization header, the fields being separated by single spaces. -/
def Presents (rq : Request) (token : Str) : Prop :=
  ∃ scheme rest, rq.header.get "Authorization".toList = scheme ++ ' ' :: (token ++ rest) ∧
    ' ' ∉ scheme ∧ ' ' ∉ token ∧ (rest = [] ∨ ∃ t, rest = ' ' :: t)

end J8a

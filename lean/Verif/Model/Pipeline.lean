import Verif.Model.Arrival
import Verif.Model.RespBytes
import Verif.Model.Handler
/-!
# server.go:132-147 — the requests on one connection

`conn.serve` of Go 1.15 reads a request, calls the handler, writes the response and goes on behind the request, unless the
connection ends. The answers stand on the connection in the order of the requests. Told are connections whose requests all
go to the gateway's handler `proxyHandler`.
-/
namespace J8a
open Go

variable {K : Type}

/-- `expectContinueReader.Read`: the response that is written when the handler begins to read a body which the client holds
back. -/
def continueLine : Str := "HTTP/1.1 100 Continue\r\n\r\n".toList

/-- `Request.expectsContinue`, and there is a body. -/
def wantsContinue (rq : Request) : Bool :=
  hasToken (rq.header.get "Expect".toList) "100-continue".toList && rq.contentLength ≠ 0

/-- One turn of the loop in `conn.serve`. -/
structure Turn (K : Type) where
  x : Setup K
  /-- the handler at its end -/
  s : St
  /-- what the handler sent -/
  y : Sent
  c : ReplyConn
  /-- the names in the header map, in their order -/
  keys : List Str
  /-- the client was told to go on -/
  continued : Bool

/-- What is written in this turn. -/
def Turn.bytes (t : Turn K) : Str := (if t.continued then continueLine else []) ++ writeResponse t.c t.keys t.y

/-- The turn begins at `stream`, where a request arrives; the handler has come to its end and has sent one response. (Handlers
that send two are left out, see C50.) -/
structure Turn.Takes (t : Turn K) (stream : Str) (rest : Option Str) : Prop where
  arrives : Arrives stream t.x.rq rest
  reaches : ∃ as, run t.x.env (initial t.x.dec) as = some t.s
  done : t.s.pc = .done
  sent : t.s.sent = [t.y]
  method : t.c.method = t.x.rq.method
  keys : t.keys.Nodup ∧ ∀ k, k ∈ t.keys ↔ t.y.header k ≠ []
  continued : t.continued = true → t.c.modern = true ∧ wantsContinue t.x.rq = true

/-- A client sends `stream`; these turns are taken, and `out` is written, so far. The next turn begins behind the request,
unless the connection ends. -/
inductive Serves : (stream : Str) → List (Turn K) → (out : Str) → Prop
  | idle {stream : Str} : Serves stream [] []
  | last {stream : Str} {rest : Option Str} {t : Turn K} : t.Takes stream rest → Serves stream [t] t.bytes
  | turn {stream next out : Str} {t : Turn K} {ts : List (Turn K)} : t.Takes stream (some next) →
      endsAfter t.c t.y = false → Serves next ts out → Serves stream (t :: ts) (t.bytes ++ out)

end J8a

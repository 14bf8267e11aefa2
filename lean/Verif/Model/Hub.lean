import Verif.Model.Handler
import Verif.Model.UpConn
/-!
# proxyhandler.go:19-178, httpclient.go:26-48 — many requests at a time, and the connections to upstreams they share

`net/http` runs `HandleHTTP` in a goroutine of its own for every request; every attempt calls `Do` of the one client
(proxyhandler.go:155). Requests are executions of `Model/Machine`, connections those of `Model/UpConn`. The keys are those
at the time when the token is checked (C122 is about refreshes at the same time). A response is delivered with its whole
body and the way it ends; in the program the body follows while the handler reads it, from the same connection.
-/
namespace J8a
open Go

variable {K : Type}

/-- A request that is handled: what happened so far, and the state it led to. -/
structure Task (K : Type) where
  x : Setup K
  acts : List Act := []
  s : St
  /-- the responses that `Do` returned, with the attempt -/
  got : List (Nat × WireResp) := []

/-- A connection to an upstream. -/
structure Line where
  /-- transport.go `connectMethodKey`: scheme and address it leads to -/
  key : Str
  c : UpConn := {}
  /-- what was written to it -/
  wrote : Str := []
  /-- the requests that were written, with their bytes; the last one maybe in part -/
  puts : List (Nat × Str) := []
  /-- the last one was not written to its end -/
  cut : Bool := false

/-- The gateway with all its requests. `asks` are the requests that were put on connections, with task and attempt; the tags
of connections are positions in it. -/
structure Hub (K : Type) where
  tasks : List (Task K) := []
  lines : List Line := []
  asks : List (Nat × Nat × UpReq) := []

/-- What is around it. -/
structure Around (K : Type) where
  T : NetLib
  /-- scheme and address of a URI -/
  keyOf : Str → Str
  /-- the requests that may come, with the configuration, keys and time they find -/
  comes : Setup K → Prop

/-- One step. -/
inductive Hub.Step (A : Around K) : Hub K → Hub K → Prop
  /-- a request comes, and the handler decides (proxyhandler.go:33-76) -/
  | accept {g : Hub K} (x : Setup K) : A.comes x →
      Step A g { g with tasks := g.tasks ++ [{ x := x, s := initial x.dec }] }
  /-- a goroutine or timer of a request makes a step; `Do` may fail. `ReadAll` (proxyhandler.go:205) fails if the body breaks
  off; it may also fail if it does not, as when the attempt is cancelled. -/
  | act {g : Hub K} (j : Nat) (t : Task K) (a : Act) (s' : St) : g.tasks[j]? = some t → step t.x.env t.s a = some s' →
      (∀ i r, a ≠ .hgReturn i (some r)) →
      (∀ i, a = .bgRead i none → ∃ w, (i, w) ∈ t.got ∧ w.ending = .eof ∧ (t.s.atmpt i).bg = .reading w.up) →
      Step A g { g with tasks := g.tasks.set j { t with acts := t.acts ++ [a], s := s' } }
  /-- `Do` returns with a response that was read for it -/
  | deliver {g : Hub K} (j : Nat) (t : Task K) (i : Nat) (q : UpReq) (k : Nat) (l : Line) (e : Handed) (s' : St) :
      g.tasks[j]? = some t → g.lines[k]? = some l → e ∈ l.c.log → g.asks[e.tag]? = some (j, i, q) →
      step t.x.env t.s (.hgReturn i (some (decompress A.T q e.w).up)) = some s' →
      Step A g { g with tasks := g.tasks.set j { t with
        acts := t.acts ++ [.hgReturn i (some (decompress A.T q e.w).up)], s := s'
        got := t.got ++ [(i, decompress A.T q e.w)] } }
  /-- a new connection -/
  | dial {g : Hub K} (key : Str) : Step A g { g with lines := g.lines ++ [{ key := key }] }
  /-- `roundTrip`: a request that is waiting in `Do` has got a connection and is written to it, or a part of it is. The names
  of its header come in any order. It may happen more than once (`shouldRetryRequest`). -/
  | ask {g : Hub K} (j : Nat) (t : Task K) (i : Nat) (q : UpReq) (k : Nat) (l : Line) (keys : List Str) (bytes p : Str) :
      g.tasks[j]? = some t → (i, q) ∈ t.s.calls → (t.s.atmpt i).hg = .calling → g.lines[k]? = some l →
      l.key = A.keyOf q.uri → l.c.alive = true → l.c.asking = none →
      (keys.Nodup ∧ ∀ n, n ∈ keys ↔ (credited q).header n ≠ []) → writeRequest keys (credited q) = some bytes → p <+: bytes →
      Step A g { g with
        lines := g.lines.set k { l with
          c := { l.c with asking := some ⟨g.asks.length, q.method, l.c.arrived.length, l.c.pos⟩ }
          wrote := l.wrote ++ p, puts := l.puts ++ [(g.asks.length, bytes)], cut := decide (p ≠ bytes) }
        asks := g.asks ++ [(j, i, q)] }
  /-- something else happens to a connection; one with a request that was not written to its end is not kept -/
  | conn {g : Hub K} (k : Nat) (l : Line) (c' : UpConn) : g.lines[k]? = some l → l.c.Step c' →
      (c'.asking ≠ none → c'.asking = l.c.asking) → (l.cut = true → c'.asking = none → c'.alive = false) →
      Step A g { g with lines := g.lines.set k { l with c := c' } }

/-- Everything that can happen. -/
inductive Hub.Reached (A : Around K) : Hub K → Prop
  | new : Reached A {}
  | step {g g' : Hub K} : Reached A g → Step A g g' → Reached A g'

end J8a

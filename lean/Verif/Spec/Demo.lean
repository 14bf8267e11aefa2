import Verif.Model.Handler
import Verif.Spec.Route
import Verif.Spec.Schedule
/-!
# A small concrete gateway, used in examples and counterexamples
-/
namespace J8a
namespace Demo

def server : Server where
  id := "abc".toList
  version := "v1".toList
  codec := { enc := fun b => 0x1f :: 0x8b :: b, dec := fun b => b.drop 2 }
  uriOk := fun _ => true

/-- Tokens of one letter: `v` is signed by key 1, `m` is malformed, anything else has no valid
signature. -/
def jwx : Jwx Nat where
  signatures := fun t => if t = "m".toList then none else some 1
  parseVerify := fun _ k t => if t = "v".toList ∧ k = 1 then some {} else none
  parse := fun _ => some {}
  kid := fun _ => []
  nbfStrict := false
  skipsEpoch := false

/-- The gateway's own bodies. -/
def json (code : Int) (msg : String) : Bytes :=
  Go.strBytes (statusJson server.id server.version 0 code msg.toList)

def url : URL := { scheme := "http".toList, host := "up".toList, port := 80 }

def route : Route :=
  { path := "/a".toList, pathRegex := some "^/a".toList, resource := "r".toList }

def config : Config (Jwt Nat) where
  routes := [route]
  resources := fun n => if n = "r".toList then some [⟨"r".toList, [], url⟩] else none
  connection :=
    { downstream := { maxBodyBytes := 8, mode := "HTTP".toList }, upstream := { maxAttempts := 2 } }

def request : Request where
  method := "get".toList
  requestURI := "/a/x".toList
  uri := "/a/x".toList
  header := [("Accept".toList, ["*/*".toList])]
  contentLength := 0
  body := {}

/-- The gateway with one route and two attempts. -/
def setup : Setup Nat where
  sv := server
  E := literalEngine
  L := jwx
  c := config
  pick := fun _ => []
  now := 0
  uuid := "u".toList
  sz := fun _ => 511
  rq := request

/-- `main` taking the ready case. -/
abbrev go : Act := .main .complete

/-- The steps from waiting for headers of attempt `i` up to the start of its body goroutine. -/
def headers (i : Nat) (r : UpResp) : List Act :=
  [.hgCall i, .hgReturn i (some r), .hgWrite i, .hgClose i, go, go, go]

/-- The body of attempt `i` arrives. -/
def body (i : Nat) : List Act := [.bgStatus i, .bgRead i none, .bgGzip i, .bgClose i, go]

/-- Attempt `i` gets the response `r`, which is delivered if it may be. -/
def attempt (i : Nat) (r : UpResp) : List Act :=
  [go] ++ headers i r ++ body i ++ List.replicate 15 go

/-- An undisturbed request that succeeds at once. -/
def success (r : UpResp) : List Act := attempt 0 r

/-- Attempt `i` fails at once, and the next one is started. -/
def failed (i : Nat) : List Act :=
  [go, .hgCall i, .hgReturn i none, .hgWrite i, .hgClose i] ++ List.replicate 6 go

/-- The read timer of attempt `i` fires while its upstream is silent, and the next one is started. -/
def silent (i : Nat) : List Act :=
  [go, .hgCall i, .atmptTimer i, .main .atmptAborted] ++ List.replicate 5 go

/-- Attempt `i` receives the headers of `r`, then its read timer fires before its body goroutine has
done anything, and the next one is started. -/
def stuck (i : Nat) (r : UpResp) : List Act :=
  [go] ++ headers i r ++ [.atmptTimer i, .main .atmptAborted] ++ List.replicate 7 go

/-- Some upstream responses. -/
def ok : UpResp :=
  { status := 200, header := [("X".toList, ["ok".toList])], body := [104, 105] }
def broken : UpResp := { status := 503, header := [("X".toList, ["broken".toList])] }

/-- What an observer sees at the end of an execution. -/
structure Seen where
  finished : Bool
  attempts : Nat
  calls : Nat
  sent : List (Int × List Str × Bytes)
deriving DecidableEq, Repr

def seen (s : St) : Seen where
  finished := match s.pc with
    | .done => true
    | _ => false
  attempts := s.n
  calls := s.calls.length
  sent := s.sent.map fun y => (y.status, y.header "X".toList, y.body)

/-- The execution of `setup` under a schedule. -/
def exec (x : Setup Nat) (as : List Act) : Option St := run x.env (initial x.dec) as

/-- Does an execution exist and end in a state with property `p`? -/
def check (x : Setup Nat) (as : List Act) (p : St → Bool) : Bool :=
  match exec x as with
  | none => false
  | some s => p s

theorem of_check {x : Setup Nat} {as : List Act} {p : St → Bool} (h : check x as p = true) :
    ∃ s, exec x as = some s ∧ p s = true := by
  unfold check at h
  split at h
  · cases h
  · exact ⟨_, ‹_›, h⟩

theorem reaches {x : Setup Nat} {as : List Act} {s : St} (h : exec x as = some s) : x.Reaches s :=
  ⟨as, h⟩

theorem one_of_map {α : Type} {f : Sent → α} {l : List Sent} {p : α} (h : l.map f = [p]) :
    ∃ y, l = [y] ∧ f y = p := by
  cases l with
  | nil => cases h
  | cons y l =>
    cases l with
    | nil =>
      simp only [List.map_cons, List.map_nil, List.cons.injEq, and_true] at h
      exact ⟨y, rfl, h⟩
    | cons z l => cases h

theorem seen_one {s : St} {p : Int × List Str × Bytes} (h : (seen s).sent = [p]) :
    ∃ y, s.sent = [y] ∧ (y.status, y.header "X".toList, y.body) = p := one_of_map h

theorem done_of_seen {s : St} (h : (seen s).finished = true) : s.pc = .done := by
  simp only [seen] at h
  split at h
  · assumption
  · cases h

example : (exec setup (success ok)).map seen =
    some ⟨true, 1, 1, [(200, ["ok".toList], [104, 105])]⟩ := by decide +kernel

end Demo
end J8a

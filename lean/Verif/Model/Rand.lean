import Verif.Model.Policy
/-!
# policy.go:30, responses.go:149-152 — the random source shared by label selection and own responses

Both use the functions of package math/rand, that is its one global source. `σ` is the type of states of
that source and the source itself a parameter: nothing is assumed about its numbers. Every call locks the
source, so calls of different requests are interleaved but each is atomic.
-/
namespace J8a.Rand

/-- math/rand's source: `Seed`, `Int` and `Float64` (a float64, see `IsDice`). -/
structure Source (σ : Type) where
  seed : Int → σ
  int : σ → Nat × σ
  float64 : σ → Int × σ

/-- One call to package math/rand by some request. -/
inductive Call where
  /-- policy.go:30 `dice := rand.Float64()`. -/
  | dice
  /-- responses.go:150 `rand.Seed(time.Now().Unix())`. -/
  | seed (second : Int)
  /-- responses.go:151 `rand.Int()`. -/
  | int
deriving DecidableEq, Repr

/-- responses.go:149-152 `randomHuttese`, called for every response of the gateway itself
(server.go:232-234 through responses.go:138) and for every about response (responses.go:114). -/
def randomHuttese (second : Int) : List Call := [.seed second, .int]

variable {σ : Type}

/-- The state of the source after one call. -/
def Source.next (S : Source σ) (s : σ) : Call → σ
  | .dice => (S.float64 s).2
  | .seed t => S.seed t
  | .int => (S.int s).2

/-- The state of the source after a history of calls. -/
def Source.after (S : Source σ) (s : σ) (h : List Call) : σ := h.foldl S.next s

/-- The dice handed out during a history of calls, in order. -/
def Source.dices (S : Source σ) : σ → List Call → List Int
  | _, [] => []
  | s, .dice :: h => (S.float64 s).1 :: Source.dices S (S.float64 s).2 h
  | s, c :: h => Source.dices S (S.next s c) h

/-- What a process starts with: "If Seed is not called, the generator behaves as if seeded by Seed(1)". -/
def Source.fresh (S : Source σ) : σ := S.seed 1

end J8a.Rand

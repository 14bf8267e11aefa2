import Verif.Model.Taken
import Verif.Props.Responses
import Verif.Props.Requests
/-!
# C151 and C152: what a request costs before it is answered
-/
namespace J8a
open Go

variable {K : Type}

/-- Reading takes all bytes there are, but never more than one behind the limit. -/
theorem takeAllMax_eq (sz : Nat → Nat) (fuel i n : Nat) (b : Body)
    (hf : b.bytes.length + b.pieces.length + 1 ≤ fuel) :
    takeAllMax sz fuel i n b ≤ n + 1 ∧
    (b.bytes.length ≤ n → takeAllMax sz fuel i n b = b.bytes.length) ∧
    (n < b.bytes.length → takeAllMax sz fuel i n b = n + 1) := by
  induction fuel generalizing i n b with
  | zero => omega
  | succ fuel ih =>
    obtain ⟨h1, h2, h3, h4, h5⟩ := b.read_spec (min (sz i + 1) (n + 1)) (by omega)
    rw [takeAllMax]
    generalize hr : b.read (min (sz i + 1) (n + 1)) = r at h1 h2 h3 h4 h5
    obtain ⟨got, e, rest⟩ := r
    simp only at h1 h2 h3 h4 h5 ⊢
    have hl : b.bytes.length = got.length + rest.bytes.length := by rw [h2, List.length_append]
    by_cases hg : got.length ≤ n
    · rw [if_pos hg]
      cases e with
      | some e =>
        obtain ⟨-, hrest⟩ := h4 e rfl
        rw [hrest] at hl
        simp only [List.length_nil] at hl
        simp only
        omega
      | none =>
        simp only
        have := ih (i + 1) (n - got.length) rest (by have := h5 rfl; omega)
        omega
    · rw [if_neg hg]
      omega

theorem bodyTaken_eq (sz : Nat → Nat) (max : Int) (rq : Request) :
    (0 ≤ max → bodyTaken sz max rq ≤ max.toNat + 1) ∧
    (rq.contentLength = 0 ∨ max ≤ rq.contentLength → bodyTaken sz max rq = 0) ∧
    (rq.contentLength ≠ 0 → rq.contentLength < max → (rq.body.bytes.length : Int) ≤ max →
      bodyTaken sz max rq = rq.body.bytes.length) := by
  have key := takeAllMax_eq sz rq.body.fuel 0 max.toNat rq.body (by rw [Body.fuel_eq]; omega)
  unfold bodyTaken
  refine ⟨fun h => ?_, fun h => ?_, fun h1 h2 h3 => ?_⟩
  · split
    · omega
    · split
      · omega
      · exact key.1
  · by_cases h0 : rq.contentLength = 0
    · rw [if_pos h0]
    · rw [if_neg h0, if_pos (h.resolve_left h0)]
  · rw [if_neg h1, if_neg (by omega)]
    exact key.2.1 (by omega)

/-! ## C151: bodies in memory -/

/-- C151, in part: of the body of a request, whatever it announces and however it comes, at most one byte more than the
configured limit is taken from the client, and at most the limit is kept. -/
theorem C151_request_partial (x : Setup K) (hl : -1 ≤ x.rq.contentLength) :
    (bodyTaken x.sz x.maxBody x.rq : Int) ≤ max x.maxBody 0 + 1 ∧ (x.pb.body.length : Int) ≤ max x.maxBody 0 := by
  by_cases h0 : 0 ≤ x.maxBody
  · constructor
    · have := (bodyTaken_eq x.sz x.maxBody x.rq).1 h0
      omega
    · have e : x.pb = parseRequestBody x.sz x.maxBody x.rq := rfl
      rw [e, parseRequestBody_eq _ _ _ h0]
      split
      · simp only [List.length_nil]; omega
      · split
        · simp only [List.length_nil]; omega
        · split
          · rename_i h; simp only; omega
          · simp only [List.length_nil]; omega
  · have hle : x.maxBody ≤ x.rq.contentLength := by omega
    constructor
    · rw [(bodyTaken_eq x.sz x.maxBody x.rq).2.1 (.inr hle)]
      omega
    · have e : x.pb.body = [] := by
        show (parseRequestBody x.sz x.maxBody x.rq).body = []
        unfold parseRequestBody
        by_cases hc : x.rq.contentLength = 0
        · rw [if_pos hc]
        · rw [if_neg hc, if_pos hle]
      rw [e]
      simp only [List.length_nil]
      omega

/-- A chunked body that does not end properly, of eleven bytes. -/
def Demo.endless : Request :=
  let b : Body := { pieces := [[1, 2, 3, 4, 5], [6, 7, 8, 9], [10, 11]], ending := .failed }
  { Demo.request with contentLength := -1, body := b }

/-- With a limit of eight, nine bytes are taken and none is kept. -/
example : bodyTaken (fun _ => 2) 8 Demo.endless = 9 ∧ (parseRequestBody (fun _ => 2) 8 Demo.endless).body = [] := by
  decide +kernel

/-- C151 as stated fails: nothing limits the body of a response, which is read as a whole before it is sent. With a limit of
eight bytes, one of twelve is kept. -/
theorem C151_violated : ∃ s v y, Demo.setup.Reaches s ∧ s.pc = .done ∧ s.curA.vResp = some v ∧ s.sent = [y] ∧
    y.body = v.body ∧ Demo.setup.maxBody < v.body.length := by
  obtain ⟨s, hs, hp⟩ := Demo.of_check (x := Demo.setup)
    (as := Demo.success { Demo.ok with body := List.replicate 12 7 })
    (p := fun s => (Demo.seen s).finished && s.curA.vResp == some { Demo.ok with body := List.replicate 12 7 } &&
      (Demo.seen s).sent == [(200, ["ok".toList], List.replicate 12 7)]) (by decide +kernel)
  simp only [Bool.and_eq_true, beq_iff_eq] at hp
  obtain ⟨⟨h1, h2⟩, h3⟩ := hp
  obtain ⟨y, hsent, h3⟩ := Demo.seen_one h3
  simp only [Prod.mk.injEq] at h3
  exact ⟨s, _, y, Demo.reaches hs, Demo.done_of_seen h1, h2, hsent, h3.2.2, by decide⟩

/-! ## C152: bodies of refused requests -/

/-- What the head of a request tells: it is refused without regard to the body. -/
def RefusedByHead (x : Setup K) : Prop :=
  ∀ pb : ParsedBody, ∃ code msg, 400 ≤ code ∧ decision x.E x.L x.c x.pick x.now pb x.rq = .respond code msg

/-- C152, in part: nothing is taken of a body that is announced as too large. -/
theorem C152_announced_partial (x : Setup K) (h : DeclaredTooLarge x.maxBody x.rq) :
    bodyTaken x.sz x.maxBody x.rq = 0 := (bodyTaken_eq x.sz x.maxBody x.rq).2.1 (.inr h.2)

/-- C152 as stated fails: every body within the limit is taken, whatever the head says. -/
theorem C152_violated_always (x : Setup K) (h : ¬ DeclaredTooLarge x.maxBody x.rq) (h0 : x.rq.contentLength ≠ 0)
    (hb : (x.rq.body.bytes.length : Int) ≤ x.maxBody) : bodyTaken x.sz x.maxBody x.rq = x.rq.body.bytes.length :=
  (bodyTaken_eq x.sz x.maxBody x.rq).2.2 h0
    (by unfold DeclaredTooLarge at h; exact Int.not_le.mp (fun hn => h ⟨h0, hn⟩)) hb

/-- The demo gateway with a protected route, and a request with a body of three bytes and no token. -/
def Demo.uninvited : Setup Nat :=
  { Demo.guarded "" with
    rq := { Demo.request with method := "POST".toList, contentLength := 3, body := { pieces := [[1, 2, 3]] } } }

/-- C152 as stated fails: the body of a request without a token is taken, and a client that asks first (`Expect:
100-continue`) is told to send it. The answer is 401 whatever the body is. -/
theorem C152_violated : RefusedByHead Demo.uninvited ∧
    Demo.uninvited.dec = .respond 401 unauthorizedMsg ∧
    bodyTaken Demo.uninvited.sz Demo.uninvited.maxBody Demo.uninvited.rq = 3 := by
  refine ⟨?_, by decide +kernel, by decide +kernel⟩
  intro pb
  have e : decision Demo.uninvited.E Demo.uninvited.L Demo.uninvited.c Demo.uninvited.pick Demo.uninvited.now pb
        Demo.uninvited.rq =
      decision Demo.uninvited.E Demo.uninvited.L Demo.uninvited.c Demo.uninvited.pick Demo.uninvited.now
        { tooLarge := pb.tooLarge } Demo.uninvited.rq := rfl
  rw [e]
  cases pb.tooLarge
  · exact ⟨401, unauthorizedMsg, by decide, by decide +kernel⟩
  · exact ⟨413, "http request entity too large, limit is 8 bytes".toList, by decide, by decide +kernel⟩

/-- Nothing is taken of a body announced as longer than the limit of eight bytes. -/
example : DeclaredTooLarge Demo.setup.maxBody { Demo.request with contentLength := 9 } ∧
    bodyTaken Demo.setup.sz Demo.setup.maxBody
      { Demo.request with contentLength := 9, body := { pieces := [[1, 2, 3], [4, 5, 6, 7, 8, 9]] } } = 0 := by
  constructor
  · exact ⟨by decide, by decide⟩
  · decide +kernel

end J8a

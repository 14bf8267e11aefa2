import Verif.Lemmas.Timed
import Verif.Props.Attempts
/-!
# Properties C96 to C98: how long a client waits

`Model/Timed.lean` says what is assumed of time. The bounds are counted from `t0`, when the body of
the request has been read (proxy.go:215): reading it is not subject to these timeouts.
-/
namespace J8a
open Go

variable {K : Type}

/-- The handler has ended, and has handed one response to net/http unless it panicked. -/
def Answered (s : St) : Prop := s.pc = .done ∧ s.sent.length = 1 ∨ s.pc = .panicked

theorem answered_of_finished {x : Setup K} {s : St} (h : x.Reaches s) (hf : s.pc.finished) :
    Answered s := by
  cases hpc : s.pc <;> simp only [hpc, PC.finished] at hf
  · exact .inl ⟨hpc, (C46_one_response x s h).2 hpc⟩
  · exact .inr hpc

/-- Seconds as nanoseconds. -/
def seconds (n : Int) : Nat := (n * 1000000000).toNat

/-- No overflow of `time.Duration` (292 years). -/
def Fits (n : Int) : Prop := 0 ≤ n ∧ n ≤ 9223372036

theorem secondsDuration_eq {n : Int} (h : Fits n) : (secondsDuration n).toNat = seconds n := by
  obtain ⟨h1, h2⟩ := h
  show ((1000000000 * n + 9223372036854775808) % 18446744073709551616 -
    9223372036854775808).toNat = (n * 1000000000).toNat
  rw [Int.emod_eq_of_lt (by omega) (by omega)]
  omega

/-! ## C96 -/

/-- A timed execution of the request `x`, parsed at `start`, its body read at `t0`, up to `t`. -/
def Setup.ReachesAt (x : Setup K) (start t0 eps : Nat) (t : TSt) : Prop :=
  ∃ as, trun x.env (Pace.ofConfig x.c start eps) (tinitial x.dec t0) as = some t

theorem Setup.ReachesAt.reaches {x : Setup K} {start t0 eps : Nat} {t : TSt}
    (h : x.ReachesAt start t0 eps t) : x.Reaches t.s := by
  obtain ⟨as, h⟩ := h
  exact ⟨_, trun_run h⟩

/-- Whatever upstreams do: when the round trip timeout has passed, and the body has been read, the
handler ends within 31 steps. -/
theorem C96_answered_by (x : Setup K) (start t0 eps : Nat) (t : TSt)
    (h : x.ReachesAt start t0 eps t) (hfit : Fits x.c.connection.downstream.roundTripTimeoutSeconds)
    (hlate : max t0 (start + seconds x.c.connection.downstream.roundTripTimeoutSeconds) + 31 * eps <
      t.now) :
    Answered t.s := by
  refine Classical.byContradiction fun hn => ?_
  have hf : ¬ t.s.pc.finished := fun hf => hn (answered_of_finished h.reaches hf)
  obtain ⟨as, h⟩ := h
  have hb := down_bound h hf
  have hd : (Pace.ofConfig x.c start eps).down =
      start + seconds x.c.connection.downstream.roundTripTimeoutSeconds := by
    rw [← secondsDuration_eq hfit]; rfl
  have he : (Pace.ofConfig x.c start eps).eps = eps := rfl
  rw [hd, he] at hb
  omega

/-- net/http closes the connection for writing `WriteTimeout` after the headers of the request have
been read (server.go:86, 100): a second after the round trip timeout. The response is handed over
before that, if the body arrives in time and the handler is quick. -/
theorem C96_before_write_deadline (x : Setup K) (headers start t0 eps : Nat) (t : TSt)
    (h : x.ReachesAt start t0 eps t) (hfit : Fits x.c.connection.downstream.roundTripTimeoutSeconds)
    (hbody : t0 ≤ start + seconds x.c.connection.downstream.roundTripTimeoutSeconds)
    (hquick : (start - headers) + 31 * eps < seconds 1)
    (hlate : headers + seconds x.c.connection.downstream.roundTripTimeoutSeconds + seconds 1 ≤ t.now) :
    Answered t.s := by
  refine C96_answered_by x start t0 eps t h hfit ?_
  omega

theorem tstep_other {e : Env} {p : Pace} {t : TSt} {a : Act} {s' : St} (h : step e t.s a = some s') :
    ∃ t', tstep e p t (.act a) = some t' ∧ t'.s = s' := by
  simp only [tstep, h]
  exact ⟨_, rfl, rfl⟩

/-- The clock does not stop: either time may pass, or one of the things assumed to happen does. -/
theorem C96_time_passes (x : Setup K) (p : Pace) (t : TSt) :
    mayBe x.env p t (t.now + 1) ∨
    ∃ a t', tstep x.env p t (.act a) = some t' ∧ ((∃ c, a = .main c) ∨
      (a = .dwnTimer ∧ t.s.dwnFired = false ∧ t'.s.dwnFired = true) ∨
      ∃ i, a = .atmptTimer i ∧ (t.s.atmpt i).ctxDone = false ∧ (t'.s.atmpt i).ctxDone = true) := by
  refine Classical.or_iff_not_imp_left.mpr fun hn => ?_
  unfold mayBe at hn
  by_cases h1 : canMove x.env t.s = true
  · obtain ⟨c, s', hs⟩ := canMove_iff.mp h1
    exact ⟨.main c, _, by simp only [tstep, step, hs]; rfl, .inl ⟨c, rfl⟩⟩
  by_cases h2 : t.s.dwnFired = false
  · obtain ⟨t', ht, hs⟩ := tstep_other (e := x.env) (p := p) (t := t) (a := .dwnTimer)
      (s' := { t.s with dwnFired := true }) rfl
    exact ⟨.dwnTimer, t', ht, .inr (.inl ⟨rfl, h2, by rw [hs]⟩)⟩
  by_cases h3 : ∃ i, i < t.s.n ∧ (t.s.atmpt i).hasCancel = true ∧ (t.s.atmpt i).ctxDone = false
  · obtain ⟨i, hi, hc, hd⟩ := h3
    obtain ⟨t', ht, hs⟩ := tstep_other (e := x.env) (p := p) (t := t) (a := .atmptTimer i)
      (s' := t.s.upd i fun a => { a with ctxDone := true }) (by simp [step, stepOther, hi, hc])
    exact ⟨.atmptTimer i, t', ht, .inr (.inr ⟨i, rfl, hd, by rw [hs, upd_atmpt, if_pos rfl]⟩)⟩
  · exact absurd ⟨fun h => absurd h h1, fun h => absurd h h2, fun i hi hc hd =>
      absurd ⟨i, hi, hc, hd⟩ h3⟩ hn

/-! ## C97 -/

theorem attemptLimit_eq (x : Setup K) :
    attemptLimit x.env = (max 1 x.c.connection.upstream.maxAttempts).toNat := by
  have : x.env.maxAttempts = x.c.connection.upstream.maxAttempts := rfl
  unfold attemptLimit
  omega

theorem Still.countInv {e : Env} {s : St} (hs : Still s) : CountInv e s := by
  refine ⟨.inl (by rw [hs.n]; omega), ?_, ?_⟩ <;>
    rcases hs.pc with ⟨c, m, h⟩ | h | h | h <;> rw [h] <;> simp

theorem timed_ok {x : Setup K} {s : St} (h : x.Reaches s) : CountInv x.env s ∧ HasTimer s := by
  rcases going_or_still h with ⟨r, u, l, -, hg⟩ | ⟨-, hs⟩
  · refine ⟨hg.inv.count, fun hw => ⟨hg.inv.pos, ?_⟩⟩
    refine hg.inv.cancel _ (cur_lt hg.inv.pos) fun h => ?_
    rw [h] at hw; exact absurd hw id
  · refine ⟨hs.countInv, fun hw => ?_⟩
    rcases hs.pc with ⟨c, m, h⟩ | h | h | h <;> rw [h] at hw <;> exact absurd hw id

/-- Steps taken so far, and the next one. -/
theorem steps_so_far {x : Setup K} {s : St} (h : x.Reaches s) (hf : ¬ s.pc.finished) :
    stepsLeft x.env (initial x.dec) - stepsLeft x.env s + 1 ≤ 30 * attemptLimit x.env := by
  have h1 : 1 ≤ attemptLimit x.env := by unfold attemptLimit; omega
  have h2 := PC.rank_pos hf
  unfold stepsLeft
  by_cases hd : ∃ r u l, x.dec = .forward r u l
  · obtain ⟨r, u, l, hd⟩ := hd
    have h3 : (initial x.dec).n = 1 ∧ (initial x.dec).pc.rank = 30 := by rw [hd]; exact ⟨rfl, rfl⟩
    rw [h3.1, h3.2]
    omega
  · have hn : ∀ r u l, x.dec ≠ .forward r u l := fun r u l h => hd ⟨r, u, l, h⟩
    have hi := Still.initial hn
    have hs : Still s := by obtain ⟨as, h⟩ := h; exact hi.run h
    have h3 : (initial x.dec).pc.rank ≤ 5 := by
      rcases hi.pc with ⟨c, m, h⟩ | h | h | h <;> rw [h] <;> simp [PC.rank]
    rw [hi.n, hs.n]
    omega

/-- The read timeouts of the attempts that were made bound the time, whatever upstreams do and
whatever the round trip timeout is. -/
theorem C97_answered_by (x : Setup K) (start t0 eps : Nat) (t : TSt)
    (h : x.ReachesAt start t0 eps t) (hfit : Fits x.c.connection.upstream.readTimeoutSeconds)
    (hlate : t0 + t.s.n * seconds x.c.connection.upstream.readTimeoutSeconds +
      30 * (max 1 x.c.connection.upstream.maxAttempts).toNat * eps < t.now) :
    Answered t.s := by
  refine Classical.byContradiction fun hn => ?_
  have hr := h.reaches
  have hf : ¬ t.s.pc.finished := fun hf => hn (answered_of_finished hr hf)
  obtain ⟨as, h⟩ := h
  have hp : (Pace.ofConfig x.c start eps).read =
      seconds x.c.connection.upstream.readTimeoutSeconds := secondsDuration_eq hfit
  have he : (Pace.ofConfig x.c start eps).eps = eps := rfl
  rw [← attemptLimit_eq] at hlate
  have hb := read_bound (fun bs s hs => timed_ok (x := x) ⟨bs, hs⟩) h hf
  rw [hp, he] at hb
  have h2 := Nat.mul_le_mul_right eps (steps_so_far hr hf)
  omega

/-- In terms of the configuration only. -/
theorem C97_answered_by_limit (x : Setup K) (start t0 eps : Nat) (t : TSt)
    (h : x.ReachesAt start t0 eps t) (hfit : Fits x.c.connection.upstream.readTimeoutSeconds)
    (hlate : t0 + (max 1 x.c.connection.upstream.maxAttempts).toNat *
      (seconds x.c.connection.upstream.readTimeoutSeconds + 30 * eps) < t.now) :
    Answered t.s := by
  refine C97_answered_by x start t0 eps t h hfit ?_
  have h1 : t.s.n ≤ (max 1 x.c.connection.upstream.maxAttempts).toNat := by
    have := (C45_attempts_bounded x t.s h.reaches).1
    omega
  have h2 := Nat.mul_le_mul_right (seconds x.c.connection.upstream.readTimeoutSeconds) h1
  rw [Nat.mul_add, ← Nat.mul_assoc, Nat.mul_comm _ 30] at hlate
  omega

/-- A request that must not be repeated waits for one read timeout. -/
theorem C97_one_attempt (x : Setup K) (start t0 eps : Nat) (t : TSt)
    (h : x.ReachesAt start t0 eps t) (hfit : Fits x.c.connection.upstream.readTimeoutSeconds)
    (hm : toUpper x.rq.method ∉
      ["GET", "HEAD", "OPTIONS", "TRACE", "PUT", "DELETE"].map String.toList)
    (hlate : t0 + seconds x.c.connection.upstream.readTimeoutSeconds +
      30 * (max 1 x.c.connection.upstream.maxAttempts).toNat * eps < t.now) :
    Answered t.s := by
  refine C97_answered_by x start t0 eps t h hfit ?_
  have h1 := (C45_attempts_bounded x t.s h.reaches).2.1 hm
  have h2 := Nat.mul_le_mul_right (seconds x.c.connection.upstream.readTimeoutSeconds) h1
  omega

/-! ## C98 -/

/-- The timers have the configured durations, as long as these fit into a `time.Duration`. -/
theorem C98_duration_partial {J : Type} (c : Config J) (start eps : Nat)
    (h1 : Fits c.connection.downstream.roundTripTimeoutSeconds)
    (h2 : Fits c.connection.upstream.readTimeoutSeconds) :
    (Pace.ofConfig c start eps).down =
      start + seconds c.connection.downstream.roundTripTimeoutSeconds ∧
    (Pace.ofConfig c start eps).read = seconds c.connection.upstream.readTimeoutSeconds :=
  ⟨by rw [← secondsDuration_eq h1]; rfl, secondsDuration_eq h2⟩

/-- A longer timeout may end a request at once: 9223372037 seconds is a number that the configuration
accepts, and the product of proxy.go:203 overflows to a negative duration. -/
theorem C98_violated (x : Setup K) (start t0 eps : Nat) (t : TSt)
    (h : x.ReachesAt start t0 eps t)
    (hlong : x.c.connection.downstream.roundTripTimeoutSeconds = 9223372037)
    (hlate : max t0 start + 31 * eps < t.now) : Answered t.s := by
  refine Classical.byContradiction fun hn => ?_
  have hf : ¬ t.s.pc.finished := fun hf => hn (answered_of_finished h.reaches hf)
  obtain ⟨as, h⟩ := h
  have hb := down_bound h hf
  have hd : (Pace.ofConfig x.c start eps).down = start := by
    show start + (secondsDuration x.c.connection.downstream.roundTripTimeoutSeconds).toNat = start
    rw [hlong]
    rfl
  have he : (Pace.ofConfig x.c start eps).eps = eps := rfl
  rw [hd, he] at hb
  omega

/-! ## Examples -/

namespace Demo

/-- `setup` with a round trip timeout and a read timeout in seconds. -/
def timed (roundTrip read : Int) : Setup Nat :=
  { setup with c := { config with connection :=
    { downstream := { config.connection.downstream with roundTripTimeoutSeconds := roundTrip }
      upstream := { config.connection.upstream with readTimeoutSeconds := read } } } }

/-- A timed execution from time 0, with steps of at most a millisecond, and what is seen at its end. -/
def clock (roundTrip read : Int) (as : List TAct) : Option (Nat × Seen) :=
  let x := timed roundTrip read
  (trun x.env (Pace.ofConfig x.c 0 1000000) (tinitial x.dec 0) as).map fun t => (t.now, seen t.s)

/-- Ten seconds. -/
abbrev tenSeconds : TAct := .wait 10000000000

/-- The upstream is silent, and the read timer of attempt `i` ends it. -/
def waits (i : Nat) : List TAct :=
  [.wait 1000000, .act go, .act (.hgCall i), tenSeconds, .act (.atmptTimer i),
    .act (.main .atmptAborted)]

end Demo

/-- Two silent attempts of ten seconds each, then 504, two milliseconds later than that. -/
example : Demo.clock 30 10 (Demo.waits 0 ++ List.replicate 5 (.act Demo.go) ++ Demo.waits 1 ++
    List.replicate 8 (.act Demo.go)) = some (20002000000, ⟨true, 2, 2,
      [(504, [], Demo.json 504 "gateway timeout triggered by upstream attempt")]⟩) := by
  decide +kernel

/-- The read timer does not let the clock pass its deadline. -/
example : Demo.clock 30 10 (Demo.waits 0 |>.take 3 |>.append [Demo.tenSeconds, .wait 1]) = none := by
  decide +kernel

/-- A round trip of five seconds ends the first attempt. -/
example : Demo.clock 5 10 ([.act Demo.go, .act (.hgCall 0), .wait 5000000000, .act .dwnTimer,
    .wait 1000000, .act (.main .dwnAborted)] ++ List.replicate 7 (.act Demo.go)) =
    some (5001000000, ⟨true, 1, 1,
      [(504, [], Demo.json 504 "gateway timeout triggered by downstream event")]⟩) := by
  decide +kernel

/-- A round trip of 9223372037 seconds ends it at once: the clock cannot move before that. -/
example : Demo.clock 9223372037 10 [.act Demo.go, .act (.hgCall 0), .wait 1] = none ∧
    Demo.clock 9223372037 10 ([.act Demo.go, .act (.hgCall 0), .act .dwnTimer,
      .act (.main .dwnAborted)] ++ List.replicate 7 (.act Demo.go)) =
    some (0, ⟨true, 1, 1,
      [(504, [], Demo.json 504 "gateway timeout triggered by downstream event")]⟩) := by
  decide +kernel

end J8a

import Verif.Lemmas.Conns
import Verif.Lemmas.Stats
import Verif.Props.Attempts
import Verif.Props.Requests
/-!
# C112–C115 — connections to upstreams
-/
namespace J8a
open Go

variable {K : Type}

/-! ## C112 -/

/-- C112: whatever the requests and the network do, at most the configured number of connections is idle (none if
it is negative), no connection is open twice or serves two requests, no request has two connections, and every
request has a connection to the upstream it asked for. -/
theorem C112_idle_bounded (u : Upstream) (as : List ConnAct) (s : ConnSt)
    (h : connRun (j8aTransport u.setDefaults) {} as = some s) :
    (s.idle.length : Int) ≤ max 0 u.setDefaults.poolSize ∧
    (s.idle.map Conn.id ++ s.busy.map (·.2.id)).Nodup ∧
    (s.waiting.map Want.w ++ s.busy.map (·.1.w)).Nodup ∧
    ∀ p ∈ s.busy, p.1.key = p.2.key := by
  have hi := (ConnInv.initial (j8aTransport u.setDefaults)).run h
  refine ⟨?_, hi.conns, hi.wants, hi.key⟩
  have h0 : u.setDefaults.poolSize ≠ 0 := by
    unfold Upstream.setDefaults
    dsimp only
    repeat' split
    all_goals simp_all
  by_cases hp : 0 < u.setDefaults.poolSize
  · have := hi.size hp
    simp only [j8aTransport] at this
    omega
  · have := hi.none (show u.setDefaults.poolSize < 0 by omega)
    rw [this]
    simp
    omega

/-- No new connection is made while one to the same upstream is idle. -/
theorem C112_reused (c : TransportCfg) (s t : ConnSt) (key : Str) (x : Conn) (hx : x ∈ s.idle) (hk : x.key = key)
    (h : connStep c s (.want key) = some t) :
    t.dialing = s.dialing ∧ t.waiting = s.waiting ∧
    ∃ y ∈ s.idle, y.key = key ∧ t.busy = (⟨s.next, key⟩, y) :: s.busy ∧ t.idle = s.idle.erase y := by
  simp only [connStep] at h
  split at h
  · rename_i y hy
    cases h
    exact ⟨rfl, rfl, y, List.mem_reverse.1 (List.mem_of_find?_eq_some hy), by simpa using List.find?_some hy, rfl, rfl⟩
  · rename_i hn
    simp only [lastIdle, List.find?_eq_none, List.mem_reverse] at hn
    exact absurd (by simpa using hk) (hn x hx)

/-- Two requests one after the other use one connection; two at once use two, of which one stays. -/
example : (connRun (j8aTransport { poolSize := 1 }) {} [.want ['a'], .dialed 0, .finish 1, .want ['a']]).map
      (fun s => (s.idle, s.busy.map Prod.snd, s.dialing)) = some ([], [⟨1, ['a']⟩], []) ∧
    (connRun (j8aTransport { poolSize := 1 }) {}
      [.want ['a'], .want ['a'], .dialed 0, .dialed 1, .finish 2, .finish 3]).map
      (fun s => (s.idle, s.busy, s.dialing)) = some ([⟨2, ['a']⟩], [], []) := by decide +kernel

/-! ## C113 -/

/-- C113, the part that holds: there are at most as many connections as the pool size and the requests under way
together, so when no request is under way the pool size is the limit. Missing: a limit while requests are under way
(`C113_violated_always`). -/
theorem C113_at_rest_partial (u : Upstream) (as : List ConnAct) (s : ConnSt)
    (h : connRun (j8aTransport u.setDefaults) {} as = some s) :
    ((s.idle.length + s.busy.length : Nat) : Int) ≤ max 0 u.setDefaults.poolSize + (s.wants.length : Int) ∧
    (s.busy = [] → (s.conns.length : Int) ≤ max 0 u.setDefaults.poolSize) := by
  have := (C112_idle_bounded u as s h).1
  constructor
  · simp only [ConnSt.wants, List.length_append, List.length_map]
    omega
  · intro hb
    simp only [ConnSt.conns, hb, List.length_append, List.length_map, List.length_nil]
    omega

theorem flood (c : TransportCfg) (key : Str) : ∀ n : Nat, ∃ as s, connRun c {} as = some s ∧ s.busy.length = n ∧
    s.idle = [] ∧ s.waiting = [] ∧ s.dialing = [] ∧ s.next = 2 * n := by
  have happ : ∀ (as bs : List ConnAct) (s t : ConnSt), connRun c s as = some t →
      connRun c s (as ++ bs) = connRun c t bs := by
    intro as bs
    induction as with
    | nil => intro s t h; cases h; rfl
    | cons a as ih =>
      intro s t h
      simp only [List.cons_append, connRun] at h ⊢
      split at h
      · cases h
      · exact ih _ _ h
  intro n
  induction n with
  | zero => exact ⟨[], {}, rfl, rfl, rfl, rfl, rfl, rfl⟩
  | succ n ih =>
    obtain ⟨as, s, h1, h2, h3, h4, h5, h6⟩ := ih
    refine ⟨as ++ [.want key, .dialed s.next],
      { s with busy := (⟨s.next, key⟩, ⟨s.next + 1, key⟩) :: s.busy, next := s.next + 1 + 1 }, ?_, ?_, h3, h4, h5, ?_⟩
    · rw [happ as _ _ _ h1]
      simp [connRun, connStep, lastIdle, h3, h4, h5]
    · simp [h2]
    · simp only; omega

/-- C113 fails for every pool size: any number of requests at once have as many connections to one upstream. -/
theorem C113_violated_always (u : Upstream) (key : Str) (n : Nat) :
    ∃ as s, connRun (j8aTransport u.setDefaults) {} as = some s ∧ s.busy.length = n ∧
      ∀ p ∈ s.busy, p.2.key = p.1.key := by
  obtain ⟨as, s, h1, h2, -⟩ := flood (j8aTransport u.setDefaults) key n
  exact ⟨as, s, h1, h2, fun p hp => ((C112_idle_bounded u as s h1).2.2.2 p hp).symm⟩

/-- C113 fails: three connections with a pool size of one. -/
theorem C113_violated : ∃ as s, connRun (j8aTransport ({ poolSize := 1 } : Upstream).setDefaults) {} as = some s ∧
    s.conns.length = 3 :=
  ⟨[.want ['a'], .want ['a'], .want ['a'], .dialed 0, .dialed 1, .dialed 2], _, rfl, rfl⟩

/-! ## C114 -/

theorem roundTrip_le (q : UpReq) (ends : Nat → TryEnd) (last : Option TryEnd) (idle : Nat) :
    (roundTrip q ends last idle).1 ≤ idle + 1 ∧
    (isReplayable q = false → (roundTrip q ends last idle).1 ≤ 1) := by
  have hw : ∀ e : TryEnd, e.written ≤ 1 := by intro e; cases e <;> simp [TryEnd.written]
  induction idle with
  | zero =>
    unfold roundTrip
    split
    · simp
    · simp
    · rename_i e _; have := hw e; exact ⟨by simpa using this, fun _ => this⟩
  | succ idle ih =>
    unfold roundTrip
    split
    · simp
    · have h1 := hw (ends idle)
      split
      · rename_i hr
        refine ⟨by dsimp only; omega, fun hn => ?_⟩
        have : (ends idle).written = 0 := by
          revert hr
          cases ends idle <;> simp [shouldRetry, TryEnd.written, hn]
        dsimp only
        have := ih.2 hn
        omega
      · exact ⟨by dsimp only; omega, fun _ => h1⟩

/-- C114, the parts that hold: one attempt puts the request on the wire at most once for each idle connection to the
upstream and once more, and requests with other methods than GET, HEAD, OPTIONS and TRACE at most as often as there are
attempts, exactly once for POST and the like, unless the client sends `Idempotency-Key` or `X-Idempotency-Key`.
Missing: the same limit for all requests (`C114_violated_always`). -/
theorem C114_sent_partial (x : Setup K) (s : St) (h : x.Reaches s) (hw : x.rq.header.WF)
    (ends : Nat → Nat → TryEnd) (last : Nat → Option TryEnd) (idle : Nat → Nat) :
    (∀ p ∈ s.calls, (roundTrip p.2 (ends p.1) (last p.1) (idle p.1)).1 ≤ idle p.1 + 1) ∧
    (toUpper x.rq.method ∉ ["GET", "HEAD", "OPTIONS", "TRACE"].map String.toList →
      x.rq.header.values "Idempotency-Key".toList = [] → x.rq.header.values "X-Idempotency-Key".toList = [] →
      ((s.calls.map fun p => (roundTrip p.2 (ends p.1) (last p.1) (idle p.1)).1).sum : Int) ≤
        max 1 x.c.connection.upstream.maxAttempts ∧
      (toUpper x.rq.method ∉ ["PUT", "DELETE"].map String.toList →
        (s.calls.map fun p => (roundTrip p.2 (ends p.1) (last p.1) (idle p.1)).1).sum ≤ 1)) := by
  refine ⟨fun p _ => (roundTrip_le p.2 _ _ _).1, fun hm h1 h2 => ?_⟩
  obtain ⟨k1, k2, k3⟩ := C45_attempts_bounded x s h
  have hle : (s.calls.map fun p => (roundTrip p.2 (ends p.1) (last p.1) (idle p.1)).1).sum ≤ s.calls.length := by
    have : ∀ l : List (Nat × UpReq), (∀ p ∈ l, p ∈ s.calls) →
        (l.map fun p => (roundTrip p.2 (ends p.1) (last p.1) (idle p.1)).1).sum ≤ l.length := by
      intro l
      induction l with
      | nil => simp
      | cons p l ih =>
        intro hl
        have hp := hl p (by simp)
        have hr : isReplayable p.2 = false := by
          have e1 := C34_headers x s h hw p hp "Idempotency-Key".toList (by decide)
          have e2 := C34_headers x s h hw p hp "X-Idempotency-Key".toList (by decide)
          rw [h1, ite_self] at e1
          rw [h2, ite_self] at e2
          obtain ⟨r, u, l, -, hq⟩ := calls_of_reaches h hp
          have e3 : p.2.method = toUpper x.rq.method := by rw [hq]; rfl
          unfold isReplayable
          rw [e1, e2, e3]
          simpa using hm
        have := (roundTrip_le p.2 (ends p.1) (last p.1) (idle p.1)).2 hr
        have := ih fun q hq => hl q (by simp [hq])
        simp only [List.map_cons, List.sum_cons, List.length_cons]
        omega
    exact this s.calls fun _ h => h
  refine ⟨by omega, fun hm' => ?_⟩
  have := k2 (by simp only [List.map_cons, List.map_nil, List.mem_cons, List.not_mem_nil, or_false] at hm hm' ⊢; simp_all)
  omega

/-- C114 fails for every request that counts as replayable, and every number of idle connections: if each of them
breaks when the upstream has read the request, one attempt sends it on each of them, and once more. -/
theorem C114_violated_always (q : UpReq) (hq : isReplayable q = true) (idle : Nat) :
    (roundTrip q (fun _ => .readFailed) (some .readFailed) idle).1 = idle + 1 := by
  induction idle with
  | zero => rfl
  | succ n ih =>
    unfold roundTrip
    simp only [shouldRetry, hq, Bool.and_self, if_true, TryEnd.written, ih]
    omega

/-- A POST with an idempotency key. -/
def keyedPost : Request := { Demo.request with
  method := "POST".toList
  header := [("Idempotency-Key".toList, ["k".toList])] }

/-- C114 fails: a POST with a key, of which the gateway makes one attempt, is sent three times. -/
theorem C114_violated : ∃ (x : Setup Nat) (s : St) (p : Nat × UpReq), x.Reaches s ∧ s.pc = .done ∧
    x.rq.method = "POST".toList ∧ s.calls = [p] ∧
    (roundTrip p.2 (fun _ => .readFailed) (some (.resp { status := 200 })) 2).1 = 3 := by
  obtain ⟨s, hs, hp⟩ := Demo.of_check
    (x := { Demo.setup with rq := keyedPost })
    (as := Demo.success Demo.ok)
    (p := fun s => (Demo.seen s).finished && s.calls.map (fun p =>
      (roundTrip p.2 (fun _ => .readFailed) (some (.resp { status := 200 })) 2).1) == [3]) (by decide +kernel)
  simp only [Bool.and_eq_true, beq_iff_eq] at hp
  obtain ⟨h1, h2⟩ := hp
  obtain ⟨y, hy, h3⟩ := List.map_eq_singleton_iff.1 h2
  exact ⟨_, s, y, Demo.reaches hs, Demo.done_of_seen h1, rfl, hy, h3⟩

/-- A PUT is sent once where a GET is sent three times, and a GET that was not read by the upstream is sent once. -/
example : let q : UpReq := { method := "PUT".toList, uri := "http://h/".toList, header := Hdr.empty, body := [1] }
    (roundTrip q (fun _ => .readFailed) (some (.resp { status := 200 })) 2).1 = 1 ∧
    (roundTrip { q with method := "GET".toList } (fun _ => .readFailed) (some (.resp { status := 200 })) 2).1 = 3 ∧
    roundTrip q (fun _ => .nothingWritten) (some (.resp { status := 200 })) 2 = (1, some { status := 200 }) := by
  decide +kernel

/-! ## C115 -/

/-- After how many probes without an answer a platform gives a connection up. -/
def probes (goos : Str) : Nat :=
  (([("windows", 5), ("darwin", 8), ("freebsd", 8), ("openbsd", 8)].map fun (p : String × Nat) =>
    (p.1.toList, p.2)).lookup goos).getD 9

theorem keepAlive_close (P n c : Nat) (hP : 2 ^ 60 ≤ P) (hn : n < 2 ^ 22) (hc : c = 5 ∨ c = 8 ∨ c = 9) (s st rm rw : Nat)
    (h1 : c * s ≤ n * P ∧ n * P < c * s + c) (hst : st ≤ 1)
    (h2 : 2 ^ 53 * rm ≤ 2 ^ 53 * (2 * s + st) + (2 * s + st) ∧ 2 ^ 53 * (2 * s + st) ≤ 2 ^ 53 * rm + (2 * s + st))
    (h3 : 2 ^ 53 * rw ≤ 2 ^ 53 * (rm / 2 * 1000000000) + rm / 2 * 1000000000 ∧
      2 ^ 53 * (rm / 2 * 1000000000) ≤ 2 ^ 53 * rw + rm / 2 * 1000000000) :
    c * (rw / P) ≤ n * 1000000000 ∧ n * 1000000000 ≤ c * (rw / P) + c := by
  have hN : n * P ≤ (2 ^ 22 - 1) * P := Nat.mul_le_mul_right P (by omega)
  have hk := Nat.div_add_mod rw P
  have hk' := Nat.mod_lt rw (show 0 < P by omega)
  rw [Nat.mul_comm] at hk
  generalize rw / P = k at *
  generalize rw % P = r at *
  have e1 : ∀ d : Nat, d * k * P = d * (k * P) := fun d => Nat.mul_assoc d k P
  have e2 : n * 1000000000 * P = 1000000000 * (n * P) := by
    rw [Nat.mul_comm n, Nat.mul_assoc]
  generalize hkP : k * P = kP at *
  generalize hNP : n * P = N at *
  constructor
  · refine Nat.le_of_lt_succ (Nat.lt_of_mul_lt_mul_right (a := P) ?_)
    rw [e1, Nat.succ_mul, e2]
    rcases hc with rfl | rfl | rfl <;> omega
  · refine Nat.le_of_lt_succ (Nat.lt_of_mul_lt_mul_right (a := P) ?_)
    rw [e2, Nat.succ_eq_add_one, Nat.add_mul (c * k + c), Nat.add_mul (c * k), e1]
    rcases hc with rfl | rfl | rfl <;> omega

/-- Any number of probes of 5, 8 or 9 that is configured takes the idle timeout. -/
theorem keepAlive_total (idle : Nat) (h : idle < 2 ^ 22) (c : Nat) (hc : c = 5 ∨ c = 8 ∨ c = 9) :
    c * keepAliveNanos idle c ≤ idle * 1000000000 ∧ idle * 1000000000 ≤ c * keepAliveNanos idle c + c := by
  unfold keepAliveNanos GoFloat.divNat
  dsimp only
  rw [F64.roundNat_small (Nat.lt_trans h (by decide))]
  have hP : ∀ e, 60 ≤ e → 2 ^ 60 ≤ 2 ^ e := fun e he => Nat.pow_le_pow_right (by decide) he
  have hP := hP 1074 (by decide)
  generalize 2 ^ 1074 = P at hP
  refine keepAlive_close P idle c hP h hc _ _ _ _ ⟨Nat.mul_div_le _ _, ?_⟩ ?_
    (F64.roundNat_error (2 * (idle * P / c) + if idle * P % c = 0 then 0 else 1))
    (F64.roundNat_error _)
  · have := Nat.div_add_mod (idle * P) c
    have := Nat.mod_lt (idle * P) (show 0 < c by omega)
    omega
  · split <;> omega

/-- C115, the part that holds: unless the variable `OS` names something else than the platform, the probes of a
platform together take the idle timeout, up to at most nine nanoseconds less. Missing: other values of `OS`
(`C115_violated_always`). -/
theorem C115_probes_partial (idle : Nat) (h : idle < 2 ^ 22) (env goos : Str) (he : env = [] ∨ env = goos) :
    let total := probes goos * keepAliveNanos idle (tcpKeepCnt env goos)
    total ≤ idle * 1000000000 ∧ idle * 1000000000 ≤ total + 9 := by
  have hc : tcpKeepCnt env goos = probes goos ∧ (probes goos = 5 ∨ probes goos = 8 ∨ probes goos = 9) := by
    have : (if env.length = 0 then goos else env) = goos := by
      rcases he with rfl | rfl
      · rfl
      · split <;> first | rfl | simp_all
    unfold tcpKeepCnt probes
    rw [this]
    simp only [List.map_cons, List.map_nil, List.lookup_cons, List.lookup_nil]
    by_cases h1 : goos = "windows".toList
    · subst h1; decide
    by_cases h2 : goos = "darwin".toList
    · subst h2; decide
    by_cases h3 : goos = "freebsd".toList
    · subst h3; decide
    by_cases h4 : goos = "openbsd".toList
    · subst h4; decide
    rw [if_neg h1, if_neg (by rintro (h | h | h) <;> contradiction), beq_eq_false_iff_ne.2 h1,
      beq_eq_false_iff_ne.2 h2, beq_eq_false_iff_ne.2 h3, beq_eq_false_iff_ne.2 h4]
    decide
  rw [hc.1]
  obtain ⟨-, hc⟩ := hc
  generalize probes goos = c at hc
  have := keepAlive_total idle h c hc
  dsimp only
  omega

/-- C115 fails on every Windows with its usual environment, in which `OS` is `Windows_NT`: connections are given up
after five ninths of the idle timeout. -/
theorem C115_violated_always (idle : Nat) (h : idle < 2 ^ 22) :
    9 * (probes "windows".toList * keepAliveNanos idle (tcpKeepCnt "Windows_NT".toList "windows".toList)) ≤
      5 * (idle * 1000000000) := by
  have := keepAlive_total idle h 9 (by simp)
  rw [show probes "windows".toList = 5 from rfl,
    show tcpKeepCnt "Windows_NT".toList "windows".toList = 9 from rfl]
  omega

/-- C115 fails: with the default of 120 seconds they are given up after less than 67. -/
theorem C115_violated : probes "windows".toList *
    keepAliveNanos 120 (tcpKeepCnt "Windows_NT".toList "windows".toList) < 67000000000 := by
  have := C115_violated_always 120 (by decide)
  omega

example : tcpKeepCnt [] "linux".toList = 9 ∧ tcpKeepCnt "windows".toList "windows".toList = 5 ∧
    probes "windows".toList = 5 := by decide

end J8a

import Verif.Lemmas.Calendar
import Verif.Model.InitLog
import Verif.Props.Logger
import Verif.Props.BootLog
/-!
# The start of the logger: C159, C160, C161
-/
namespace J8a
open Go Calendar

variable {K : Type}

/-! ## C159 log lines name the server -/

/-- The name of the host and the version, as documented at logger.go:13: from the environment if given there. -/
def Surroundings.IsHost (w : Surroundings) (host : Str) : Prop :=
  (∃ v, w.env "HOSTNAME".toList = some v ∧ v ≠ [] ∧ host = v) ∨
  ((∀ v, w.env "HOSTNAME".toList = some v → v = []) ∧ host = w.osHostname)
def Surroundings.IsVersion (w : Surroundings) (version : Str) : Prop :=
  (∃ v, w.env "VERSION".toList = some v ∧ v ≠ [] ∧ version = v) ∨
  ((∀ v, w.env "VERSION".toList = some v → v = []) ∧ version = "v0.7.2".toList)

/-- Eight digits of the hash of both. -/
def Surroundings.IsId (w : Surroundings) (id : Str) : Prop :=
  ∃ host version, w.IsHost host ∧ w.IsVersion version ∧ id = (hexEncode (md5 (strBytes (host ++ version)))).take 8

/-- The line has the server id among its fields. -/
def Spoken.names (l : Spoken) (id : Str) : Prop :=
  ∀ time, ("srvId".toList, ZVal.str id) ∈ l.2.members l.1.context time

/-- The line is written. -/
def Spoken.written (l : Spoken) : Prop := ∀ quote srt time clock, l.1.write quote srt time clock l.2 ≠ []
def Spoken.silent (l : Spoken) : Prop := ∀ quote srt time clock, l.1.write quote srt time clock l.2 = []

theorem Globals.write_should (g : Globals) (quote srt time clock) (e : ZEvent) :
    (g.level.should e.level = true → g.write quote srt time clock e ≠ []) ∧
    (g.level.should e.level = false → g.write quote srt time clock e = []) := by
  unfold Globals.write
  constructor
  · intro h
    rw [if_pos h]
    split
    · unfold ZEvent.console; simp
    · unfold ZEvent.json; simp
  · intro h
    rw [if_neg (by rw [h]; simp)]

theorem Spoken.written_iff (l : Spoken) : l.written ↔ l.1.level.should l.2.level = true := by
  constructor
  · intro h
    cases hs : l.1.level.should l.2.level with
    | true => rfl
    | false => exact absurd ((l.1.write_should id id [] [] l.2).2 hs) (h id id [] [])
  · intro h quote srt time clock
    exact (l.1.write_should quote srt time clock l.2).1 h

theorem Spoken.silent_iff (l : Spoken) : l.silent ↔ l.1.level.should l.2.level = false := by
  constructor
  · intro h
    cases hs : l.1.level.should l.2.level with
    | false => rfl
    | true => exact absurd (h id id [] []) ((l.1.write_should id id [] [] l.2).1 hs)
  · intro h quote srt time clock
    exact (l.1.write_should quote srt time clock l.2).2 h

theorem isHost_getHost (w : Surroundings) : w.IsHost (getHost (w.getenv "HOSTNAME") w.osHostname) := by
  unfold Surroundings.IsHost getHost Surroundings.getenv
  cases h : w.env "HOSTNAME".toList with
  | none => exact .inr ⟨by simp, rfl⟩
  | some v =>
    cases v with
    | nil => exact .inr ⟨by intro v hv; cases hv; rfl, rfl⟩
    | cons c v => exact .inl ⟨c :: v, rfl, by simp, rfl⟩

theorem isVersion_getVersion (w : Surroundings) : w.IsVersion (getVersion (w.getenv "VERSION")) := by
  unfold Surroundings.IsVersion getVersion Surroundings.getenv
  cases h : w.env "VERSION".toList with
  | none => exact .inr ⟨by simp, rfl⟩
  | some v =>
    cases v with
    | nil => exact .inr ⟨by intro v hv; cases hv; rfl, rfl⟩
    | cons c v => exact .inl ⟨c :: v, rfl, by simp, rfl⟩

/-- The variables after `initLogger`. -/
def afterInit (w : Surroundings) : Globals where
  level := logLevel (w.getenv "LOGLEVEL")
  console := logColor (w.getenv "LOGCOLOR")
  context := [("srvId".toList, .str (serverId (getHost (w.getenv "HOSTNAME") w.osHostname) (getVersion (w.getenv "VERSION"))))]
  version := getVersion (w.getenv "VERSION")
  id := serverId (getHost (w.getenv "HOSTNAME") w.osHostname) (getVersion (w.getenv "VERSION"))
  tz := if (w.getenv "TZ").length = 0 then "UTC".toList else w.getenv "TZ"

theorem initLogger_globals (w : Surroundings) : (initLogger w {}).1 = afterInit w := by
  unfold initLogger initServerID initTime getVersionLogged getHostLogged afterInit getVersion
  dsimp only
  cases hc : logColor (w.getenv "LOGCOLOR") <;> by_cases hv : 0 < (w.getenv "VERSION").length <;>
    simp [hv]

/-- The lines of `initLogger`. -/
theorem initLogger_lines (w : Surroundings) : ∃ g1 g2 g3 g4 : Globals,
    (initLogger w {}).2 =
      [(g1, ⟨.debug, [("hostName".toList, .str (getHost (w.getenv "HOSTNAME") w.osHostname))], "hostName determined".toList⟩),
       (g2, ⟨.debug, [("version".toList, .str (getVersion (w.getenv "VERSION")))], "version determined".toList⟩),
       (g3, ⟨.debug, [("srvID".toList, .str (afterInit w).id)], "srvID determined".toList⟩),
       (g4, ⟨.debug, [("timeZone".toList, .str (afterInit w).tz)], "timeZone determined".toList⟩),
       (afterInit w, debugLine ("setting global log level to ".toList ++ toUpper (w.getenv "LOGLEVEL")))] ∧
    (∀ g ∈ [g1, g2, g3], g.context = []) ∧ g4.context = (afterInit w).context ∧
    ∀ g ∈ [g1, g2, g3, g4], g.level = (afterInit w).level ∧ g.console = (afterInit w).console := by
  let g1 : Globals := ⟨(afterInit w).level, (afterInit w).console, [], builtVersion, "unknown".toList, "UTC".toList⟩
  let g2 : Globals := ⟨(afterInit w).level, (afterInit w).console, [], (afterInit w).version, "unknown".toList, "UTC".toList⟩
  let g3 : Globals := ⟨(afterInit w).level, (afterInit w).console, [], (afterInit w).version, (afterInit w).id, "UTC".toList⟩
  let g4 : Globals := ⟨(afterInit w).level, (afterInit w).console, (afterInit w).context, (afterInit w).version,
    (afterInit w).id, "UTC".toList⟩
  refine ⟨g1, g2, g3, g4, ?_, by simp [g1, g2, g3], rfl, by simp [g1, g2, g3, g4]⟩
  have h := initLogger_globals w
  unfold initLogger at h ⊢
  dsimp only at h ⊢
  rw [h]
  unfold initServerID initTime getVersionLogged getHostLogged
  dsimp only
  simp only [g1, g2, g3, g4, afterInit, getVersion]
  cases hc : logColor (w.getenv "LOGCOLOR") <;> by_cases hv : 0 < (w.getenv "VERSION").length <;> simp [hv]

theorem afterInit_isId (w : Surroundings) : w.IsId (afterInit w).id :=
  ⟨_, _, isHost_getHost w, isVersion_getVersion w, rfl⟩

theorem runBoot_lines (w : Surroundings) (B : Machinery K) (s : Sources) : (runBoot w B s).1 = afterInit w ∧
    (runBoot w B s).2.2 = (initLogger w {}).2 ++
      (bootStrap { B with version := (afterInit w).version } s).2.map fun e => (afterInit w, e) := by
  unfold runBoot
  dsimp only
  rw [initLogger_globals w]
  exact ⟨rfl, rfl⟩

theorem names_context {l : Spoken} {id : Str} (h : l.1.context = [("srvId".toList, .str id)]) : l.names id := by
  intro time
  unfold ZEvent.members
  rw [h]
  simp

/-- No line of a start is written below LOGLEVEL, so with any value but TRACE and DEBUG all lines name the server. What
is missing: the level DEBUG and below, see `C159_violated_always`. -/
theorem C159_quiet_partial (w : Surroundings) (B : Machinery K) (s : Sources)
    (hl : ∀ v, w.env "LOGLEVEL".toList = some v → v.map Char.toUpper ≠ "TRACE".toList ∧
      v.map Char.toUpper ≠ "DEBUG".toList) :
    ∃ id, w.IsId id ∧ ∀ l ∈ (runBoot w B s).2.2, l.silent ∨ l.names id := by
  refine ⟨_, afterInit_isId w, ?_⟩
  rw [(runBoot_lines w B s).2]
  have hlevel : (afterInit w).level.should .debug = false := by
    have : (afterInit w).level = .info ∨ (afterInit w).level = .warn := by
      unfold afterInit Surroundings.getenv logLevel toUpper
      dsimp only
      cases hv : w.env "LOGLEVEL".toList with
      | none => exact .inl (by decide)
      | some v =>
        obtain ⟨h1, h2⟩ := hl v hv
        dsimp only [Option.getD]
        rw [if_neg h1, if_neg h2]
        repeat' split
        all_goals simp
    rcases this with h | h <;> rw [h] <;> decide
  intro l hmem
  rcases List.mem_append.1 hmem with hmem | hmem
  · left
    rw [Spoken.silent_iff]
    obtain ⟨g1, g2, g3, g4, he, -, -, hg⟩ := initLogger_lines w
    rw [he] at hmem
    simp only [List.mem_cons, List.not_mem_nil, or_false, forall_eq_or_imp, forall_eq] at hmem hg
    obtain ⟨⟨h1, -⟩, ⟨h2, -⟩, ⟨h3, -⟩, h4, -⟩ := hg
    rcases hmem with rfl | rfl | rfl | rfl | rfl
    · dsimp only; rw [h1]; exact hlevel
    · dsimp only; rw [h2]; exact hlevel
    · dsimp only; rw [h3]; exact hlevel
    · dsimp only; rw [h4]; exact hlevel
    · exact hlevel
  · right
    obtain ⟨e, -, rfl⟩ := List.mem_map.1 hmem
    exact names_context rfl

/-- At every level, all lines but the first three name the server, and after the start every line does: the logger is
the one of the properties C117 to C119. -/
theorem C159_after_partial (w : Surroundings) (B : Machinery K) (s : Sources) :
    ∃ id, w.IsId id ∧ (∀ l ∈ (runBoot w B s).2.2.drop 3, l.names id) ∧ (runBoot w B s).1.id = id ∧
      w.IsVersion (runBoot w B s).1.version ∧
      ∀ quote srt time clock e, (runBoot w B s).1.write quote srt time clock e =
        Logger.write ⟨(w.env "LOGLEVEL".toList).getD [], (w.env "LOGCOLOR".toList).getD [], id, quote, srt⟩ time clock e := by
  obtain ⟨h1, h2⟩ := runBoot_lines w B s
  refine ⟨_, afterInit_isId w, ?_, by rw [h1], by rw [h1]; exact isVersion_getVersion w, ?_⟩
  · rw [h2]
    obtain ⟨g1, g2, g3, g4, he, -, h4, -⟩ := initLogger_lines w
    rw [he]
    simp only [List.cons_append, List.nil_append, List.drop_succ_cons, List.drop_zero]
    intro l hl
    rcases List.mem_cons.1 hl with rfl | hl
    · exact names_context h4
    · rcases List.mem_cons.1 hl with rfl | hl
      · exact names_context rfl
      · obtain ⟨e, -, rfl⟩ := List.mem_map.1 hl
        exact names_context rfl
  · intro quote srt time clock e
    rw [h1]
    rfl

theorem no_srvId {key : Str} (hk : "srvId".toList ≠ key) (v : ZVal) (msg time : Str) :
    "srvId".toList ∉ (ZEvent.members [] time ⟨.debug, [(key, v)], msg⟩).map Prod.fst := by
  have h1 : "srvId".toList ≠ "level".toList := by decide
  have h2 : "srvId".toList ≠ "time".toList := by decide
  have h3 : "srvId".toList ≠ "message".toList := by decide
  unfold ZEvent.members
  intro h
  simp only [List.map_cons, List.cons_append, List.nil_append, List.mem_cons, h1, hk, h2, false_or] at h
  split at h
  · exact absurd h (by simp)
  · rcases List.mem_cons.1 h with h | h
    · exact h3 h
    · exact absurd h (by simp)

/-- C159 fails at the levels TRACE and DEBUG: the first three lines of every start are written, and none has a field
`srvId`. -/
theorem C159_violated_always (w : Surroundings) (B : Machinery K) (s : Sources) (v : Str)
    (hv : w.env "LOGLEVEL".toList = some v)
    (hl : v.map Char.toUpper = "TRACE".toList ∨ v.map Char.toUpper = "DEBUG".toList) :
    ((runBoot w B s).2.2.take 3).length = 3 ∧
    ∀ l ∈ (runBoot w B s).2.2.take 3, l.written ∧ ∀ time, "srvId".toList ∉ (l.2.members l.1.context time).map Prod.fst := by
  obtain ⟨h1, h2⟩ := runBoot_lines w B s
  rw [h2]
  obtain ⟨g1, g2, g3, g4, he, hc, -, hg⟩ := initLogger_lines w
  rw [he]
  have hlevel : (afterInit w).level.should .debug = true := by
    have : (afterInit w).level = .trace ∨ (afterInit w).level = .debug := by
      unfold afterInit Surroundings.getenv logLevel toUpper
      dsimp only
      rw [hv]
      dsimp only [Option.getD]
      rcases hl with h | h
      · exact .inl (if_pos h)
      · rw [if_neg (by rw [h]; decide), if_pos h]; exact .inr rfl
    rcases this with h | h <;> rw [h] <;> decide
  simp only [List.cons_append, List.nil_append, List.take_succ_cons, List.take_zero, List.mem_cons, List.not_mem_nil,
    or_false, forall_eq_or_imp, forall_eq] at hc hg ⊢
  obtain ⟨⟨l1, -⟩, ⟨l2, -⟩, ⟨l3, -⟩, -⟩ := hg
  obtain ⟨c1, c2, c3⟩ := hc
  simp only [Spoken.written_iff, l1, l2, l3, c1, c2, c3]
  exact ⟨rfl, ⟨hlevel, no_srvId (by decide) _ _⟩, ⟨hlevel, no_srvId (by decide) _ _⟩, ⟨hlevel, no_srvId (by decide) _ _⟩⟩

/-! ## C160 LOGLEVEL decides which lines are written -/

/-- The levels of the ReadMe. -/
def documented : List (String × ZLevel) := [("TRACE", .trace), ("DEBUG", .debug), ("INFO", .info), ("WARN", .warn)]

/-- How severe the lines are. -/
def severities : List ZLevel := [.trace, .debug, .info, .warn, .error, .fatal]
def severity (l : ZLevel) : Nat := severities.idxOf l

/-- The variable names the level, in capitals or not. -/
def Surroundings.asks (w : Surroundings) (name : String) : Prop :=
  ∃ v, w.env "LOGLEVEL".toList = some v ∧ v.map Char.toUpper = name.toList

theorem severity_should (g l : ZLevel) : g.should l = true ↔ severity g ≤ severity l := by
  cases g <;> cases l <;> decide

/-- The level is the one asked for, or INFO; a line is written if and only if it is at least as severe. -/
theorem C160_level (w : Surroundings) (B : Machinery K) (s : Sources) : ∃ level,
    ((∃ name, (name, level) ∈ documented ∧ w.asks name) ∨
      (level = .info ∧ ∀ name l, (name, l) ∈ documented → ¬ w.asks name)) ∧
    (∀ l ∈ (runBoot w B s).2.2, (severity level ≤ severity l.2.level → l.written) ∧
      (severity l.2.level < severity level → l.silent)) ∧
    ∀ e quote srt time clock, (runBoot w B s).1.write quote srt time clock e ≠ [] ↔ severity level ≤ severity e.level := by
  obtain ⟨h1, h2⟩ := runBoot_lines w B s
  refine ⟨(afterInit w).level, ?_, ?_, ?_⟩
  · unfold afterInit Surroundings.getenv logLevel toUpper
    dsimp only
    cases hv : w.env "LOGLEVEL".toList with
    | none =>
      refine .inr ⟨by decide, fun name l _ ⟨v, h, _⟩ => ?_⟩
      rw [hv] at h; cases h
    | some v =>
      dsimp only [Option.getD]
      by_cases g1 : v.map Char.toUpper = "TRACE".toList
      · rw [if_pos g1]; exact .inl ⟨"TRACE", by decide, v, hv, g1⟩
      rw [if_neg g1]
      by_cases g2 : v.map Char.toUpper = "DEBUG".toList
      · rw [if_pos g2]; exact .inl ⟨"DEBUG", by decide, v, hv, g2⟩
      rw [if_neg g2]
      by_cases g3 : v.map Char.toUpper = "INFO".toList
      · rw [if_pos g3]; exact .inl ⟨"INFO", by decide, v, hv, g3⟩
      rw [if_neg g3]
      by_cases g4 : v.map Char.toUpper = "WARN".toList
      · rw [if_pos g4]; exact .inl ⟨"WARN", by decide, v, hv, g4⟩
      rw [if_neg g4]
      refine .inr ⟨rfl, fun name l hm ⟨v', h, h'⟩ => ?_⟩
      rw [hv] at h
      cases h
      simp only [documented, List.mem_cons, List.not_mem_nil, or_false, Prod.mk.injEq] at hm
      rcases hm with ⟨rfl, -⟩ | ⟨rfl, -⟩ | ⟨rfl, -⟩ | ⟨rfl, -⟩
      · exact g1 h'
      · exact g2 h'
      · exact g3 h'
      · exact g4 h'
  · have hg : ∀ l ∈ (runBoot w B s).2.2, l.1.level = (afterInit w).level := by
      rw [h2]
      obtain ⟨g1, g2, g3, g4, he, -, -, hg⟩ := initLogger_lines w
      rw [he]
      intro l hl
      rcases List.mem_append.1 hl with hl | hl
      · simp only [List.mem_cons, List.not_mem_nil, or_false, forall_eq_or_imp, forall_eq] at hl hg
        obtain ⟨⟨h1, -⟩, ⟨h2, -⟩, ⟨h3, -⟩, h4, -⟩ := hg
        rcases hl with rfl | rfl | rfl | rfl | rfl
        · exact h1
        · exact h2
        · exact h3
        · exact h4
        · rfl
      · obtain ⟨e, -, rfl⟩ := List.mem_map.1 hl
        rfl
    intro l hl
    rw [Spoken.written_iff, Spoken.silent_iff, hg l hl, severity_should]
    refine ⟨fun h => h, fun h => ?_⟩
    cases hs : (afterInit w).level.should l.2.level with
    | false => rfl
    | true => exact absurd ((severity_should _ _).1 hs) (by omega)
  · intro e quote srt time clock
    rw [h1, ← severity_should]
    have := (afterInit w).write_should quote srt time clock e
    constructor
    · intro h
      cases hs : (afterInit w).level.should e.level with
      | true => rfl
      | false => exact absurd (this.2 hs) h
    · exact this.1

/-- A written line about the level names the level in force, in capitals; there is one in every start, and it is written
at the levels TRACE and DEBUG. -/
theorem C160_told (w : Surroundings) (B : Machinery K) (s : Sources) :
    ∃ l ∈ (runBoot w B s).2.2, (∃ rest, l.2.msg = "setting global log level to ".toList ++ rest ∧ l.2.fields = [] ∧
        (l.written → rest = (runBoot w B s).1.level.name.map Char.toUpper)) ∧
      (l.written ↔ w.asks "TRACE" ∨ w.asks "DEBUG") := by
  obtain ⟨h1, h2⟩ := runBoot_lines w B s
  obtain ⟨g1, g2, g3, g4, he, -, -, hg⟩ := initLogger_lines w
  refine ⟨(afterInit w, debugLine ("setting global log level to ".toList ++ toUpper (w.getenv "LOGLEVEL"))), ?_,
    ⟨toUpper (w.getenv "LOGLEVEL"), rfl, rfl, ?_⟩, ?_⟩
  · rw [h2, he]
    simp
  · rw [Spoken.written_iff, h1]
    intro h
    dsimp only [debugLine] at h
    unfold afterInit logLevel at h ⊢
    dsimp only at h ⊢
    by_cases g1 : toUpper (w.getenv "LOGLEVEL") = "TRACE".toList
    · rw [if_pos g1, g1]; decide
    rw [if_neg g1] at h ⊢
    by_cases g2 : toUpper (w.getenv "LOGLEVEL") = "DEBUG".toList
    · rw [if_pos g2, g2]; decide
    rw [if_neg g2] at h
    exfalso
    repeat' split at h
    all_goals exact absurd h (by decide)
  · rw [Spoken.written_iff]
    dsimp only [debugLine]
    unfold afterInit logLevel Surroundings.asks
    dsimp only
    have hask : ∀ name : String, name.toList ≠ [] → ((∃ v, w.env "LOGLEVEL".toList = some v ∧ v.map Char.toUpper = name.toList) ↔
        toUpper (w.getenv "LOGLEVEL") = name.toList) := by
      intro name hn
      unfold Surroundings.getenv toUpper
      cases hv : w.env "LOGLEVEL".toList with
      | none => simp [Ne.symm hn]
      | some v => simp
    rw [hask "TRACE" (by decide), hask "DEBUG" (by decide)]
    by_cases g1 : toUpper (w.getenv "LOGLEVEL") = "TRACE".toList
    · rw [if_pos g1]; exact ⟨fun _ => .inl g1, fun _ => by decide⟩
    rw [if_neg g1]
    by_cases g2 : toUpper (w.getenv "LOGLEVEL") = "DEBUG".toList
    · rw [if_pos g2]; exact ⟨fun _ => .inr g2, fun _ => by decide⟩
    rw [if_neg g2]
    constructor
    · intro h
      repeat' split at h
      all_goals exact absurd h (by decide)
    · rintro (h | h)
      · exact absurd h g1
      · exact absurd h g2

/-! ## C161 the time zone of the log -/

/-- The zone that a name stands for on this machine. -/
def Surroundings.IsZone (w : Surroundings) (name : Str) (z : Zone) : Prop :=
  (name = "UTC".toList ∧ ∀ u, z u = 0) ∨ (name ≠ "UTC".toList ∧ w.zoneFile name = some z)

/-- The name of the zone in the log of a start. -/
theorem C161_told (w : Surroundings) (B : Machinery K) (s : Sources) :
    ∃ name, (∃ l ∈ (runBoot w B s).2.2, l.2 = ⟨.debug, [("timeZone".toList, .str name)], "timeZone determined".toList⟩) ∧
      (∀ l ∈ (initLogger w {}).2, ∀ v, ("timeZone".toList, v) ∈ l.2.fields → v = .str name) ∧
      ((∃ v, w.env "TZ".toList = some v ∧ v ≠ [] ∧ name = v) ∨
        ((∀ v, w.env "TZ".toList = some v → v = []) ∧ name = "UTC".toList)) := by
  obtain ⟨h1, h2⟩ := runBoot_lines w B s
  obtain ⟨g1, g2, g3, g4, he, -, -, hg⟩ := initLogger_lines w
  refine ⟨(afterInit w).tz, ⟨(g4, _), ?_, rfl⟩, ?_, ?_⟩
  · rw [h2, he]
    simp
  · rw [he]
    intro l hl v hv
    simp only [List.mem_cons, List.not_mem_nil, or_false] at hl
    rcases hl with rfl | rfl | rfl | rfl | rfl
    · simp at hv
    · simp at hv
    · simp at hv
    · simpa using hv
    · simp [debugLine] at hv
  · unfold afterInit Surroundings.getenv
    dsimp only
    cases hv : w.env "TZ".toList with
    | none => exact .inr ⟨by simp, rfl⟩
    | some v =>
      cases v with
      | nil => exact .inr ⟨by intro v hv; cases hv; rfl, rfl⟩
      | cons c v => exact .inl ⟨c :: v, rfl, by simp, rfl⟩

/-- The variable TZ names a zone that the machine knows, or it is not set and the machine runs on UTC. -/
def Surroundings.zoneKnown (w : Surroundings) : Prop :=
  (∃ v, w.env "TZ".toList = some v ∧ (v = [] ∨ v = "UTC".toList ∨ ∃ z, w.zoneFile v = some z)) ∨
  (w.env "TZ".toList = none ∧ ∀ z, w.localtime = some z → ∀ u, z u = 0)

/-- The zone that the log names is the one of its times if and only if `zoneKnown`. What is missing: all other
machines. -/
theorem C161_partial (w : Surroundings) (B : Machinery K) (s : Sources) :
    w.IsZone (runBoot w B s).1.tz (localZone w) ↔ w.zoneKnown := by
  rw [(runBoot_lines w B s).1]
  unfold afterInit Surroundings.IsZone Surroundings.zoneKnown localZone Surroundings.getenv
  dsimp only
  cases hv : w.env "TZ".toList with
  | none =>
    dsimp only [Option.getD]
    rw [if_pos List.length_nil]
    cases hz : w.localtime with
    | none => exact ⟨fun _ => .inr ⟨rfl, by simp⟩, fun _ => .inl ⟨rfl, fun _ => rfl⟩⟩
    | some z =>
      constructor
      · rintro (⟨-, h⟩ | ⟨h, -⟩)
        · exact .inr ⟨rfl, by intro z' hz'; cases hz'; exact h⟩
        · exact absurd rfl h
      · rintro (⟨v, h, -⟩ | ⟨-, h⟩)
        · cases h
        · exact .inl ⟨rfl, h z rfl⟩
  | some v =>
    dsimp only [Option.getD]
    by_cases h0 : v = []
    · rw [h0, if_pos List.length_nil, if_neg (by simp)]
      exact ⟨fun _ => .inl ⟨[], rfl, .inl rfl⟩, fun _ => .inl ⟨rfl, fun _ => rfl⟩⟩
    · rw [if_neg (by intro h; exact h0 (List.length_eq_zero_iff.1 h))]
      by_cases h1 : v = "UTC".toList
      · rw [if_neg (by simp [h1])]
        exact ⟨fun _ => .inl ⟨v, rfl, .inr (.inl h1)⟩, fun _ => .inl ⟨h1, fun _ => rfl⟩⟩
      · rw [if_pos ⟨h0, h1⟩]
        cases hz : w.zoneFile v with
        | none =>
          constructor
          · rintro (⟨h, -⟩ | ⟨-, h⟩)
            · exact absurd h h1
            · cases h
          · rintro (⟨v', h, h'⟩ | ⟨h, -⟩)
            · cases h
              rcases h' with h' | h' | ⟨z, h'⟩
              · exact absurd h' h0
              · exact absurd h' h1
              · rw [hz] at h'; cases h'
            · cases h
        | some z => exact ⟨fun _ => .inl ⟨v, rfl, .inr (.inr ⟨z, hz⟩)⟩, fun _ => .inr ⟨h1, rfl⟩⟩

/-- Whatever the zone, the time in a line stands for the instant of the line. -/
theorem C161_instant (w : Surroundings) (u : Int) (h0 : 0 ≤ u + localZone w u + toEpoch)
    (h1 : u + localZone w u + toEpoch ≤ lastSecond) (hz : localZone w u % 60 = 0) (hz1 : -86400 < localZone w u)
    (hz2 : localZone w u < 86400) : readRFC3339 (timestamp w u) = some u :=
  readRFC3339_format h0 h1 hz hz1 hz2

/-- A machine in Berlin in winter: TZ is not set, or it has a name that the machine does not know. -/
def exPlace (vars : List (String × String)) : Surroundings where
  env n := (vars.lookup (String.ofList n)).map String.toList
  osHostname := "box".toList
  zoneFile n := if n = "Europe/Berlin".toList then some fun _ => 3600 else none
  localtime := some fun _ => 3600

/-- C161 fails: the log says UTC and the times are those of Berlin; the log says the name and the times are in UTC. -/
theorem C161_violated (B : Machinery K) (s : Sources) :
    (runBoot (exPlace []) B s).1.tz = "UTC".toList ∧
    timestamp (exPlace []) 1605520800 = "2020-11-16T11:00:00+01:00".toList ∧
    ¬ (exPlace []).IsZone (runBoot (exPlace []) B s).1.tz (localZone (exPlace [])) ∧
    (runBoot (exPlace [("TZ", "Europe/Berlim")]) B s).1.tz = "Europe/Berlim".toList ∧
    timestamp (exPlace [("TZ", "Europe/Berlim")]) 1605520800 = "2020-11-16T10:00:00Z".toList := by
  rw [C161_partial]
  refine ⟨by rw [(runBoot_lines _ B s).1]; decide +kernel, by decide +kernel, ?_,
    by rw [(runBoot_lines _ B s).1]; decide +kernel, by decide +kernel⟩
  rintro (⟨v, h, -⟩ | ⟨-, h⟩)
  · have h0 : (exPlace []).env "TZ".toList = none := by decide +kernel
    rw [h0] at h; cases h
  · have := h (fun _ => 3600) rfl 0
    revert this; decide

/-- With the variable set, the names and the times agree. -/
example : timestamp (exPlace [("TZ", "Europe/Berlin")]) 1605520800 = "2020-11-16T11:00:00+01:00".toList ∧
    (afterInit (exPlace [("TZ", "Europe/Berlin")])).tz = "Europe/Berlin".toList ∧
    timestamp (exPlace [("TZ", "")]) 1605520800 = "2020-11-16T10:00:00Z".toList ∧
    (exPlace [("TZ", "Europe/Berlin")]).zoneKnown ∧ readRFC3339 (timestamp (exPlace []) 1605520800) = some 1605520800 := by
  refine ⟨by decide +kernel, by decide +kernel, by decide +kernel, ?_, by decide +kernel⟩
  exact .inl ⟨"Europe/Berlin".toList, by decide +kernel, .inr (.inr ⟨fun _ => 3600, by dsimp only [exPlace]; rw [if_pos rfl]⟩)⟩

/-- The lines of a start at the level DEBUG, and those at the level WARN. -/
example : ((initLogger (exPlace [("LOGLEVEL", "debug"), ("VERSION", "11.2"), ("HOSTNAME", "gw")]) {}).2.map fun l =>
      String.ofList (l.1.write id id "T".toList [] l.2)) =
    ["{\"level\":\"debug\",\"hostName\":\"gw\",\"time\":\"T\",\"message\":\"hostName determined\"}\n",
     "{\"level\":\"debug\",\"version\":\"11.2\",\"time\":\"T\",\"message\":\"version determined\"}\n",
     "{\"level\":\"debug\",\"srvID\":\"e7fecb43\",\"time\":\"T\",\"message\":\"srvID determined\"}\n",
     "{\"level\":\"debug\",\"srvId\":\"e7fecb43\",\"timeZone\":\"UTC\",\"time\":\"T\",\"message\":\"timeZone determined\"}\n",
     "{\"level\":\"debug\",\"srvId\":\"e7fecb43\",\"time\":\"T\",\"message\":\"setting global log level to DEBUG\"}\n"] := by
  decide +kernel

example : (exPlace [("LOGLEVEL", "Warn")]).asks "WARN" ∧ (afterInit (exPlace [("LOGLEVEL", "Warn")])).level = .warn ∧
    (afterInit (exPlace [("LOGLEVEL", "error")])).level = .info ∧
    ∀ l ∈ (initLogger (exPlace [("LOGLEVEL", "Warn")]) {}).2, l.1.write id id "T".toList [] l.2 = [] := by
  refine ⟨⟨"Warn".toList, by decide +kernel, by decide +kernel⟩, by decide +kernel, by decide +kernel, by decide +kernel⟩

/-- The start of C157's examples, from the beginning: with VERSION the line about the listener has that version. -/
example : ((runBoot (exPlace [("VERSION", "v9")])
      (exMachinery (exDoc [exRoute "/" "r" []] (.obj []) (.obj []))) { env := "…".toList }).2.2.filter fun l =>
        l.1.write id id [] [] l.2 ≠ []).map (fun l => String.ofList l.2.msg) =
    ["j8a v9 listening in HTTP mode on port 8080..."] := by decide +kernel

end J8a

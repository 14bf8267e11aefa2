import Verif.Model.Main
import Verif.Props.InitLog
/-!
# C164: the command line
-/
namespace J8a
open Go

variable {K : Type}

/-! ## What is asked for -/

/-- The arguments are options `-c`, and these are the values they give. -/
inductive Names : List Str → List Str → Prop
  | nil : Names [] []
  | apart {s : Str} (f : Str) {args fs : List Str} : s ∈ ["-c".toList, "--c".toList] → Names args fs →
      Names (s :: f :: args) (f :: fs)
  | joined {s : Str} (f : Str) {args fs : List Str} : s ∈ ["-c=".toList, "--c=".toList] → Names args fs →
      Names ((s ++ f) :: args) (f :: fs)

/-- The argument is no option. -/
def NoOption (s : Str) : Prop := s.head? ≠ some '-' ∨ s = "-".toList ∨ s = "--".toList

/-- The argument asks for help. -/
def AsksHelp (s : Str) : Prop :=
  ∃ o ∈ ["-h".toList, "--h".toList, "-help".toList, "--help".toList], s = o ∨ ∃ v, s = o ++ '=' :: v

/-! ## Single arguments -/

theorem cutEquals_none {cs n : Str} : cutEquals cs = (n, none) ↔ '=' ∉ cs ∧ n = cs := by
  induction cs generalizing n with
  | nil => simp [cutEquals, eq_comm]
  | cons c cs ih =>
    unfold cutEquals
    by_cases h : c = '='
    · simp [h]
    · rw [if_neg h]
      constructor
      · intro he
        simp only [Prod.mk.injEq] at he
        obtain ⟨h1, h2⟩ := ih.1 (Prod.ext rfl he.2 : cutEquals cs = ((cutEquals cs).1, none))
        exact ⟨by simp [h1, Ne.symm h], by rw [← he.1, h2]⟩
      · rintro ⟨h1, rfl⟩
        rw [ih.2 ⟨fun h' => h1 (List.mem_cons_of_mem _ h'), rfl⟩]

theorem cutEquals_some {cs n v : Str} : cutEquals cs = (n, some v) ↔ cs = n ++ '=' :: v ∧ '=' ∉ n := by
  induction cs generalizing n with
  | nil => simp [cutEquals]
  | cons c cs ih =>
    unfold cutEquals
    by_cases h : c = '='
    · subst h
      simp only [if_true, Prod.mk.injEq, Option.some.injEq]
      constructor
      · rintro ⟨rfl, rfl⟩; simp
      · rintro ⟨h1, h2⟩
        cases n with
        | nil => simpa using h1
        | cons d n =>
          simp only [List.cons_append, List.cons.injEq] at h1
          rw [← h1.1] at h2
          simp at h2
    · rw [if_neg h]
      constructor
      · intro he
        simp only [Prod.mk.injEq] at he
        obtain ⟨h1, h2⟩ := ih.1 (Prod.ext rfl he.2 : cutEquals cs = ((cutEquals cs).1, some v))
        rw [← he.1]
        exact ⟨by rw [List.cons_append, ← h1], by simp [h2, Ne.symm h]⟩
      · rintro ⟨h1, h2⟩
        cases n with
        | nil => simp only [List.nil_append, List.cons.injEq] at h1; exact absurd h1.1 h
        | cons d n =>
          simp only [List.cons_append, List.cons.injEq] at h1
          rw [ih.2 ⟨h1.2, fun h' => h2 (List.mem_cons_of_mem _ h')⟩, h1.1]

theorem flagNamed_value {s v : Str} : flagNamed s = .value v ↔ s = "c=".toList ++ v := by
  constructor
  · intro h
    cases s with
    | nil => cases h
    | cons c cs =>
      rw [flagNamed] at h
      split at h
      · cases h
      · dsimp only at h
        split at h
        · rename_i hn
          simp only [List.cons.injEq] at hn
          split at h
          · rename_i v' hv
            cases h
            obtain ⟨h1, -⟩ := cutEquals_some.1 (Prod.ext hn.2 hv : cutEquals cs = ([], some v))
            rw [hn.1, h1]; rfl
          · cases h
        · split at h <;> cases h
  · rintro rfl
    have : cutEquals ('=' :: v) = ([], some v) := cutEquals_some.2 ⟨rfl, by simp⟩
    show flagNamed ('c' :: '=' :: v) = _
    rw [flagNamed]
    simp [this]

theorem flagNamed_needs {s : Str} : flagNamed s = .needsValue ↔ s = "c".toList := by
  constructor
  · intro h
    cases s with
    | nil => cases h
    | cons c cs =>
      rw [flagNamed] at h
      split at h
      · cases h
      · dsimp only at h
        split at h
        · rename_i hn
          simp only [List.cons.injEq] at hn
          split at h
          · cases h
          · rename_i hv
            obtain ⟨-, h1⟩ := cutEquals_none.1 (Prod.ext hn.2 hv : cutEquals cs = ([], none))
            rw [hn.1, ← h1]; rfl
        · split at h <;> cases h
  · rintro rfl; decide

theorem flagNamed_stop {s : Str} : flagNamed s ≠ .stop := by
  intro h
  cases s with
  | nil => cases h
  | cons c cs =>
    rw [flagNamed] at h
    split at h
    · cases h
    · dsimp only at h
      split at h
      · split at h <;> cases h
      · split at h <;> cases h

theorem flagNamed_help {s : Str} : flagNamed s = .help ↔
    ∃ o ∈ ["h".toList, "help".toList], s = o ∨ ∃ v, s = o ++ '=' :: v := by
  constructor
  · intro h
    cases s with
    | nil => cases h
    | cons c cs =>
      rw [flagNamed] at h
      split at h
      · cases h
      · dsimp only at h
        split at h
        · split at h <;> cases h
        · split at h
          · rename_i hh
            refine ⟨c :: (cutEquals cs).1, by rcases hh with hh | hh <;> rw [hh] <;> decide, ?_⟩
            cases hv : (cutEquals cs).2 with
            | none =>
              have := (cutEquals_none.1 (Prod.ext rfl hv : cutEquals cs = ((cutEquals cs).1, none))).2
              rw [this]; exact .inl rfl
            | some v =>
              have := (cutEquals_some.1 (Prod.ext rfl hv : cutEquals cs = ((cutEquals cs).1, some v))).1
              exact .inr ⟨v, by rw [List.cons_append, ← this]⟩
          · cases h
  · rintro ⟨o, ho, hs⟩
    simp only [List.mem_cons, List.not_mem_nil, or_false] at ho
    rcases ho with rfl | rfl
    · rcases hs with rfl | ⟨v, rfl⟩
      · decide
      · have : cutEquals ('=' :: v) = ([], some v) := cutEquals_some.2 ⟨rfl, by simp⟩
        show flagNamed ('h' :: '=' :: v) = _
        rw [flagNamed]
        simp [this]
    · rcases hs with rfl | ⟨v, rfl⟩
      · decide
      · have : cutEquals ("elp".toList ++ '=' :: v) = ("elp".toList, some v) := cutEquals_some.2 ⟨rfl, by decide⟩
        show flagNamed ('h' :: ("elp".toList ++ '=' :: v)) = _
        rw [flagNamed]
        rw [this]
        simp

/-- An argument is no option, or one or two minus signs and a name. -/
theorem flagArg_cases (s : Str) : NoOption s ∧ flagArg s = .stop ∨
    ¬ NoOption s ∧ ∃ name, (s = '-' :: name ∨ s = '-' :: '-' :: name) ∧ flagArg s = flagNamed name ∧
      (s = '-' :: name → name.head? ≠ some '-') := by
  match s with
  | [] => exact .inl ⟨.inl (by simp), rfl⟩
  | [a] =>
    by_cases h : a = '-'
    · subst h; exact .inl ⟨.inr (.inl rfl), rfl⟩
    · refine .inl ⟨.inl (by simpa using h), ?_⟩
      unfold flagArg
      split <;> simp_all
  | a :: b :: cs =>
    by_cases h : a = '-'
    · subst h
      by_cases hb : b = '-'
      · subst hb
        cases cs with
        | nil => exact .inl ⟨.inr (.inr rfl), rfl⟩
        | cons c cs =>
          refine .inr ⟨?_, c :: cs, .inr rfl, rfl, fun h => ?_⟩
          · rintro (h | h | h)
            · simp at h
            · revert h; simp
            · revert h; simp
          · have := congrArg List.length h
            simp at this
      · refine .inr ⟨?_, b :: cs, .inl rfl, ?_, fun _ => by simpa using hb⟩
        · rintro (h | h | h)
          · simp at h
          · revert h; simp
          · revert h; simp [hb]
        · unfold flagArg
          split <;> simp_all
    · refine .inl ⟨.inl (by simpa using h), ?_⟩
      unfold flagArg
      split <;> simp_all

theorem flagArg_stop {s : Str} : flagArg s = .stop ↔ NoOption s := by
  rcases flagArg_cases s with ⟨h, h'⟩ | ⟨h, name, -, h', -⟩
  · exact ⟨fun _ => h, fun _ => h'⟩
  · exact ⟨fun g => absurd (h' ▸ g) flagNamed_stop, fun g => absurd g h⟩

theorem flagArg_of {name : Str} (h : name ≠ []) (hh : name.head? ≠ some '-') :
    flagArg ('-' :: name) = flagNamed name ∧ flagArg ('-' :: '-' :: name) = flagNamed name := by
  cases name with
  | nil => exact absurd rfl h
  | cons c cs =>
    have hc : c ≠ '-' := by simpa using hh
    constructor
    · unfold flagArg
      split <;> simp_all
    · rfl

theorem flagArg_value {s v : Str} : flagArg s = .value v ↔ ∃ o ∈ ["-c=".toList, "--c=".toList], s = o ++ v := by
  constructor
  · intro h
    rcases flagArg_cases s with ⟨-, h'⟩ | ⟨-, name, hs, h', -⟩
    · rw [h'] at h; cases h
    · rw [h'] at h
      have := flagNamed_value.1 h
      subst this
      rcases hs with rfl | rfl
      · exact ⟨"-c=".toList, by simp, rfl⟩
      · exact ⟨"--c=".toList, by simp, rfl⟩
  · rintro ⟨o, ho, rfl⟩
    have := flagArg_of (name := "c=".toList ++ v) (by simp) (by simp)
    simp only [List.mem_cons, List.not_mem_nil, or_false] at ho
    rcases ho with rfl | rfl
    · exact this.1.trans (flagNamed_value.2 rfl)
    · exact this.2.trans (flagNamed_value.2 rfl)

theorem flagArg_needs {s : Str} : flagArg s = .needsValue ↔ s ∈ ["-c".toList, "--c".toList] := by
  constructor
  · intro h
    rcases flagArg_cases s with ⟨-, h'⟩ | ⟨-, name, hs, h', -⟩
    · rw [h'] at h; cases h
    · rw [h'] at h
      have := flagNamed_needs.1 h
      subst this
      rcases hs with rfl | rfl <;> decide
  · intro h
    simp only [List.mem_cons, List.not_mem_nil, or_false] at h
    rcases h with rfl | rfl <;> decide

theorem flagArg_help {s : Str} : flagArg s = .help ↔ AsksHelp s := by
  constructor
  · intro h
    rcases flagArg_cases s with ⟨-, h'⟩ | ⟨-, name, hs, h', -⟩
    · rw [h'] at h; cases h
    · rw [h'] at h
      obtain ⟨o, ho, hn⟩ := flagNamed_help.1 h
      simp only [List.mem_cons, List.not_mem_nil, or_false] at ho
      have key : ∀ p : Str, s = p ++ name → (p ++ o) ∈ ["-h".toList, "--h".toList, "-help".toList, "--help".toList] →
          AsksHelp s := by
        intro p hp ho
        refine ⟨p ++ o, ho, ?_⟩
        rcases hn with rfl | ⟨v, rfl⟩
        · exact .inl hp
        · exact .inr ⟨v, by rw [hp, List.append_assoc]⟩
      rcases hs with hs | hs
      · exact key ['-'] hs (by rcases ho with rfl | rfl <;> decide)
      · exact key ['-', '-'] hs (by rcases ho with rfl | rfl <;> decide)
  · rintro ⟨o, ho, hs⟩
    have key : ∀ name : Str, (∃ o ∈ ["h".toList, "help".toList], name = o ∨ ∃ v, name = o ++ '=' :: v) →
        flagArg ('-' :: name) = .help ∧ flagArg ('-' :: '-' :: name) = .help := by
      intro name hn
      have h1 : name ≠ [] ∧ name.head? ≠ some '-' := by
        obtain ⟨o, ho, hn⟩ := hn
        simp only [List.mem_cons, List.not_mem_nil, or_false] at ho
        rcases ho with rfl | rfl <;> rcases hn with rfl | ⟨v, rfl⟩ <;> simp
      have := flagArg_of h1.1 h1.2
      rw [flagNamed_help.2 hn] at this
      exact this
    simp only [List.mem_cons, List.not_mem_nil, or_false] at ho
    rcases ho with rfl | rfl | rfl | rfl
    · rcases hs with rfl | ⟨v, rfl⟩
      · exact (key _ ⟨"h".toList, by simp, .inl rfl⟩).1
      · exact (key _ ⟨"h".toList, by simp, .inr ⟨v, rfl⟩⟩).1
    · rcases hs with rfl | ⟨v, rfl⟩
      · exact (key _ ⟨"h".toList, by simp, .inl rfl⟩).2
      · exact (key _ ⟨"h".toList, by simp, .inr ⟨v, rfl⟩⟩).2
    · rcases hs with rfl | ⟨v, rfl⟩
      · exact (key _ ⟨"help".toList, by simp, .inl rfl⟩).1
      · exact (key _ ⟨"help".toList, by simp, .inr ⟨v, rfl⟩⟩).1
    · rcases hs with rfl | ⟨v, rfl⟩
      · exact (key _ ⟨"help".toList, by simp, .inl rfl⟩).2
      · exact (key _ ⟨"help".toList, by simp, .inr ⟨v, rfl⟩⟩).2

/-! ## All of them -/

/-- How parsing ends: with these arguments used up and those left. -/
inductive Ends : List Str → Parsed → Option Str → Prop
  | all (c) : Ends [] (.goesOn c) c
  | stop {s rest} (c) : NoOption s → Ends (s :: rest) (.goesOn c) c
  | help {s rest} (c) : AsksHelp s → Ends (s :: rest) (.exits 0) c
  | short {s} (c) : s ∈ ["-c".toList, "--c".toList] → Ends [s] (.exits 2) c
  | bad {s rest} (c) : ¬ NoOption s → ¬ AsksHelp s → s ∉ ["-c".toList, "--c".toList] →
      (∀ v, ∀ o ∈ ["-c=".toList, "--c=".toList], s ≠ o ++ v) → Ends (s :: rest) (.exits 2) c

theorem getLast?_cons_or {f : Str} {fs : List Str} {c : Option Str} : ((f :: fs).getLast?).or c = (fs.getLast?).or (some f) := by
  cases fs with
  | nil => simp
  | cons a fs =>
    rw [List.getLast?_cons_cons]
    cases h : (a :: fs).getLast? with
    | none => simp at h
    | some b => rfl

theorem parseFlags_ends (c : Option Str) (args : List Str) : ∃ pre post fs, args = pre ++ post ∧ Names pre fs ∧
    Ends post (parseFlags c args) ((fs.getLast?).or c) := by
  match args with
  | [] => exact ⟨[], [], [], rfl, .nil, .all _⟩
  | s :: rest =>
    unfold parseFlags
    cases h : flagArg s with
    | stop => exact ⟨[], _, [], rfl, .nil, .stop _ (flagArg_stop.1 h)⟩
    | help => exact ⟨[], _, [], rfl, .nil, .help _ (flagArg_help.1 h)⟩
    | bad =>
      refine ⟨[], _, [], rfl, .nil, .bad _ (fun g => ?_) (fun g => ?_) (fun g => ?_) (fun v o ho g => ?_)⟩
      · rw [flagArg_stop.2 g] at h; cases h
      · rw [flagArg_help.2 g] at h; cases h
      · rw [flagArg_needs.2 g] at h; cases h
      · rw [flagArg_value.2 ⟨o, ho, g⟩] at h; cases h
    | value v =>
      obtain ⟨o, ho, rfl⟩ := flagArg_value.1 h
      obtain ⟨pre, post, fs, h1, h2, h3⟩ := parseFlags_ends (some v) rest
      exact ⟨_ :: pre, post, v :: fs, by rw [h1]; rfl, .joined v ho h2, by rw [getLast?_cons_or]; exact h3⟩
    | needsValue =>
      have ho := flagArg_needs.1 h
      cases rest with
      | nil => exact ⟨[], _, [], rfl, .nil, .short _ ho⟩
      | cons v rest =>
        obtain ⟨pre, post, fs, h1, h2, h3⟩ := parseFlags_ends (some v) rest
        exact ⟨s :: v :: pre, post, v :: fs, by rw [h1]; rfl, .apart v ho h2, by rw [getLast?_cons_or]; exact h3⟩
termination_by args.length

theorem parseFlags_value {c : Option Str} {s v : Str} {rest : List Str} (h : flagArg s = .value v) :
    parseFlags c (s :: rest) = parseFlags (some v) rest := by
  rw [parseFlags.eq_def]
  simp only [h]

theorem parseFlags_needs {c : Option Str} {s v : Str} {rest : List Str} (h : flagArg s = .needsValue) :
    parseFlags c (s :: v :: rest) = parseFlags (some v) rest := by
  rw [parseFlags.eq_def]
  simp only [h]

theorem parseFlags_names {args fs : List Str} (h : Names args fs) : ∀ (c : Option Str) (post : List Str),
    parseFlags c (args ++ post) = parseFlags ((fs.getLast?).or c) post := by
  induction h with
  | nil => intro c post; rfl
  | apart f ho _ ih =>
    intro c post
    rw [getLast?_cons_or, ← ih]
    simp only [List.cons_append]
    exact parseFlags_needs (flagArg_needs.2 ho)
  | joined f ho _ ih =>
    intro c post
    rw [getLast?_cons_or, ← ih]
    simp only [List.cons_append]
    exact parseFlags_value (flagArg_value.2 ⟨_, ho, rfl⟩)

theorem loadLogged_file {C : Type} {parse : Str → C} {routes : C → Nat} {s s' : Sources} {f : Str} (h : s.flag = some f)
    (h' : s'.flag = some f) (hne : f ≠ []) (heq : s'.files f = s.files f) :
    loadLogged parse routes s' = loadLogged parse routes s := by
  have hl : 0 < f.length := List.length_pos_iff.2 hne
  unfold loadLogged readYmlFileLogged Sources.configFile
  simp only [h, h', Option.getD_some, hl, if_true, heq]

theorem loadLogged_env {C : Type} {parse : Str → C} {routes : C → Nat} {s s' : Sources} (h : s.flag = none)
    (h' : s'.flag = none) (hne : s.env ≠ []) (heq : s'.env = s.env) :
    loadLogged parse routes s' = loadLogged parse routes s := by
  have hl : 0 < s.env.length := List.length_pos_iff.2 hne
  unfold loadLogged readYmlFileLogged Sources.configFile
  simp only [h, h', Option.getD_none, List.length_nil, Nat.lt_irrefl, if_false, hl, if_true, heq]

theorem loadLogged_empty {C : Type} {parse : Str → C} {routes : C → Nat} (s : Sources) :
    loadLogged parse routes { s with flag := some [] } = loadLogged parse routes { s with flag := none } := by
  unfold loadLogged readYmlFileLogged Sources.configFile
  simp only [Option.getD_some, Option.getD_none]

theorem runBoot_load {w w' : Surroundings} (hi : initLogger w' {} = initLogger w {}) (B : Machinery K) {s s' : Sources}
    (h : ∀ y, loadLogged (parseConfig (K := K) y) (·.routes.length) s' = loadLogged (parseConfig y) (·.routes.length) s) :
    runBoot w' B s' = runBoot w B s := by
  unfold runBoot bootStrap
  simp only [hi, h]

/-! ## C164 -/

/-- C164: options `-c` are understood, and the last one names the file. -/
theorem C164_named (w : Surroundings) (files : Str → Option Str) (B : Machinery K) (args fs : List Str) (h : Names args fs) :
    mainRun w files B args =
      .inr (runBoot w B { flag := fs.getLast?, env := w.getenv "J8ACFG_YML", files := files }) := by
  have := parseFlags_names h none []
  rw [List.append_nil] at this
  unfold mainRun
  rw [this]
  simp [parseFlags]

/-- The process ends before it starts: with status 0 if help is asked for where an option could be, with 2 if something
else than `-c` is, or a value is missing. -/
theorem C164_exits (w : Surroundings) (files : Str → Option Str) (B : Machinery K) (args : List Str) (n : Int) :
    mainRun w files B args = .inl n ↔ ∃ pre fs s rest, args = pre ++ s :: rest ∧ Names pre fs ∧ ¬ NoOption s ∧
      ((n = 0 ∧ AsksHelp s) ∨ (n = 2 ∧ ¬ AsksHelp s ∧ (∀ v, ∀ o ∈ ["-c=".toList, "--c=".toList], s ≠ o ++ v) ∧
        (s ∈ ["-c".toList, "--c".toList] → rest = []))) := by
  have hsome : ∀ {s : Str}, s ∈ ["-c".toList, "--c".toList] → ¬ NoOption s ∧ ¬ AsksHelp s ∧
      ∀ v, ∀ o ∈ ["-c=".toList, "--c=".toList], s ≠ o ++ v := by
    intro s hs
    have h := flagArg_needs.2 hs
    refine ⟨fun g => ?_, fun g => ?_, fun v o ho g => ?_⟩
    · rw [flagArg_stop.2 g] at h; cases h
    · rw [flagArg_help.2 g] at h; cases h
    · rw [flagArg_value.2 ⟨o, ho, g⟩] at h; cases h
  have hno : ∀ {s : Str}, AsksHelp s → ¬ NoOption s := by
    intro s hs g
    have h := flagArg_help.2 hs
    rw [flagArg_stop.2 g] at h; cases h
  constructor
  · intro h
    unfold mainRun at h
    obtain ⟨pre, post, fs, h1, h2, h3⟩ := parseFlags_ends none args
    cases hp : parseFlags none args with
    | goesOn c => rw [hp] at h; cases h
    | exits m =>
      rw [hp] at h h3
      cases h
      cases h3 with
      | help _ g => exact ⟨pre, fs, _, _, h1, h2, hno g, .inl ⟨rfl, g⟩⟩
      | short _ g => exact ⟨pre, fs, _, _, h1, h2, (hsome g).1, .inr ⟨rfl, (hsome g).2.1, (hsome g).2.2, fun _ => rfl⟩⟩
      | bad _ g1 g2 g3 g4 => exact ⟨pre, fs, _, _, h1, h2, g1, .inr ⟨rfl, g2, g4, fun g => absurd g g3⟩⟩
  · rintro ⟨pre, fs, s, rest, rfl, h2, h3, h4⟩
    have hp := parseFlags_names h2 none (s :: rest)
    have : parseFlags ((fs.getLast?).or none) (s :: rest) = .exits n := by
      rw [parseFlags.eq_def]
      dsimp only
      rcases h4 with ⟨rfl, g⟩ | ⟨rfl, g1, g2, g3⟩
      · rw [flagArg_help.2 g]
      · cases h : flagArg s with
        | stop => exact absurd (flagArg_stop.1 h) h3
        | help => exact absurd (flagArg_help.1 h) g1
        | bad => rfl
        | value v => obtain ⟨o, ho, g⟩ := flagArg_value.1 h; exact absurd g (g2 v o ho)
        | needsValue => rw [g3 (flagArg_needs.1 h)]
    rw [this] at hp
    unfold mainRun
    rw [hp]

/-- C164 (part): a process that starts was given options `-c` only, up to an argument that is no option, and starts as the
last of them says. Full statement: `post = []`. Missing: what follows an argument that is no option is ignored
(`C164_violated`). -/
theorem C164_started_partial (w : Surroundings) (files : Str → Option Str) (B : Machinery K) (args : List Str)
    (b : Globals × Booted Serving × List Spoken) (h : mainRun w files B args = .inr b) :
    ∃ pre post fs, args = pre ++ post ∧ Names pre fs ∧ (∀ s rest, post = s :: rest → NoOption s) ∧
      b = runBoot w B { flag := fs.getLast?, env := w.getenv "J8ACFG_YML", files := files } := by
  obtain ⟨pre, post, fs, h1, h2, h3⟩ := parseFlags_ends none args
  unfold mainRun at h
  cases hp : parseFlags none args with
  | exits m => rw [hp] at h; cases h
  | goesOn c =>
    rw [hp] at h h3
    simp only [Option.or_none] at h3
    cases h
    cases h3 with
    | all => exact ⟨pre, [], fs, h1, h2, (fun s rest h => by cases h), rfl⟩
    | stop _ g => exact ⟨pre, _, fs, h1, h2, (fun s rest h => by cases h; exact g), rfl⟩

/-- C164: if a file is named, neither another file nor the variable has any influence. -/
theorem C164_file_alone (w : Surroundings) (files files' : Str → Option Str) (B : Machinery K) (args fs : List Str)
    (h : Names args fs) (f : Str) (hf : fs.getLast? = some f) (hne : f ≠ []) (heq : files' f = files f)
    (v : Option Str) :
    mainRun { w with env := fun n => if n = "J8ACFG_YML".toList then v else w.env n } files' B args =
      mainRun w files B args := by
  refine (C164_named _ _ _ _ _ h).trans (.trans ?_ (C164_named _ _ _ _ _ h).symm)
  have hi : initLogger { w with env := fun n => if n = "J8ACFG_YML".toList then v else w.env n } {} = initLogger w {} := by
    have g : ∀ n : String, n.toList ≠ "J8ACFG_YML".toList →
        Surroundings.getenv { w with env := fun n => if n = "J8ACFG_YML".toList then v else w.env n } n = w.getenv n := by
      intro n hn
      simp only [Surroundings.getenv, if_neg hn]
    simp only [initLogger, initServerID, initTime, getHostLogged, getVersionLogged, g "LOGLEVEL" (by decide),
      g "LOGCOLOR" (by decide), g "HOSTNAME" (by decide), g "VERSION" (by decide), g "TZ" (by decide)]
  exact congrArg _ (runBoot_load hi B fun y => loadLogged_file hf hf hne heq)

/-- C164: without an option, and with the variable, no file has any influence. -/
theorem C164_variable_alone (w : Surroundings) (files files' : Str → Option Str) (B : Machinery K)
    (he : w.getenv "J8ACFG_YML" ≠ []) : mainRun w files' B [] = mainRun w files B [] := by
  refine (C164_named _ _ _ _ _ .nil).trans (.trans ?_ (C164_named _ _ _ _ _ .nil).symm)
  exact congrArg _ (runBoot_load rfl B fun y => loadLogged_env rfl rfl he rfl)

/-! ## Examples -/

example : Names ["-c".toList, "a.yml".toList, "--c=b.yml".toList] ["a.yml".toList, "b.yml".toList] :=
  .apart _ (by simp) (.joined (s := "--c=".toList) "b.yml".toList (by simp) .nil)

example : parseFlags none ["-c".toList, "a.yml".toList, "--c=b.yml".toList] = .goesOn (some "b.yml".toList) ∧
    parseFlags none ["-help".toList] = .exits 0 ∧ parseFlags none ["-c".toList] = .exits 2 ∧
    parseFlags none ["-v".toList] = .exits 2 ∧ parseFlags none ["-c".toList, "-h".toList] = .goesOn (some "-h".toList) := by
  decide +kernel

/-- C164 fails: a file that is named without `-c` is ignored, and so are options behind it. The gateway starts with the
default file. -/
theorem C164_violated (w : Surroundings) (files : Str → Option Str) (B : Machinery K) (more : List Str) :
    mainRun w files B ("other.yml".toList :: more) = mainRun w files B [] ∧
    ∀ fs, ¬ Names ("other.yml".toList :: more) fs := by
  constructor
  · have : parseFlags none ("other.yml".toList :: more) = .goesOn none := by
      rw [parseFlags.eq_def]
      simp only [show flagArg "other.yml".toList = .stop from by decide]
    unfold mainRun
    rw [this]
    rfl
  · intro fs h
    generalize he : "other.yml".toList :: more = args at h
    cases h with
    | nil => cases he
    | apart f ho _ =>
      simp only [List.cons.injEq] at he
      rw [← he.1] at ho
      revert ho; decide
    | joined f ho _ =>
      simp only [List.cons.injEq] at he
      simp only [List.mem_cons, List.not_mem_nil, or_false] at ho
      rcases ho with rfl | rfl
      · have := congrArg List.head? he.1; revert this; simp
      · have := congrArg List.head? he.1; revert this; simp

/-- C164 fails: the option with an empty value names a file that is not there, and the gateway starts with another. -/
theorem C164_violated_empty (w : Surroundings) (files : Str → Option Str) (B : Machinery K) :
    Names ["-c=".toList] [[]] ∧ mainRun w files B ["-c=".toList] = mainRun w files B [] := by
  have h : Names ["-c=".toList] [[]] := .joined (s := "-c=".toList) [] (by simp) .nil
  refine ⟨h, ?_⟩
  refine (C164_named _ _ _ _ _ h).trans (.trans ?_ (C164_named _ _ _ _ _ .nil).symm)
  exact congrArg _ (runBoot_load rfl B fun y => loadLogged_empty { env := w.getenv "J8ACFG_YML", files := files })

end J8a

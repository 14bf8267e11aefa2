import Verif.Lemmas.BootLog
import Verif.Model.Logger
import Verif.Props.Decode
import Verif.Props.Server
import Verif.Props.Start
import Verif.Props.Tls
/-!
# The log of a start: C156, C157, C158
-/
namespace J8a
open Go

variable {K : Type}

/-! ## C156 a start that fails says why in the log -/

/-- The source of the configuration: how it is called, its name, and its text if it can be read. -/
inductive Origin (s : Sources) : Str → Str → Option Str → Prop
  | file (name : Str) : name ≠ [] → s.flag = some name → Origin s "file".toList name (s.files name)
  | env : (s.flag = none ∨ s.flag = some []) → s.env ≠ [] → Origin s "env".toList "J8ACFG_YML".toList (some s.env)
  | fallback : (s.flag = none ∨ s.flag = some []) → s.env = [] →
      Origin s "default file".toList "j8acfg.yml".toList (s.files "j8acfg.yml".toList)

/-- `c` is what the sources say. -/
def Sources.Say (s : Sources) (y : Str → Option JVal) (c : Config (Option (Jwt K))) : Prop :=
  ∃ kind name text, Origin s kind name (some text) ∧ c = parseConfig y text ∧ 0 < c.routes.length

/-- TLS was asked for. -/
def Downstream.wantsTls (d : Downstream) : Prop := d.mode.map Char.toUpper = "TLS".toList

/-- The port to listen on. -/
def Downstream.wantedPort (d : Downstream) (port : Int) : Prop :=
  (d.port ≠ 0 ∧ port = d.port) ∨ (d.port = 0 ∧ d.wantsTls ∧ port = 443) ∨ (d.port = 0 ∧ ¬ d.wantsTls ∧ port = 8080)

/-- A reason not to start, and the fatal line that gives it: its text and its field `error`. -/
inductive Reason (B : Machinery K) (s : Sources) : Str → List (Str × ZVal) → Prop
  | unreadable {kind name : Str} : Origin s kind name none →
      Reason B s ("unable to load config from ".toList ++ name ++ ", exiting...".toList) []
  | noRoutes {kind name text : Str} : Origin s kind name (some text) →
      (parseConfig (K := K) B.yamlToJson text).routes = [] →
      Reason B s ("error loading config from ".toList ++ kind ++ " '".toList ++ name ++ "' exiting...".toList) []
  | jwt {c : Config (Option (Jwt K))} {n err : Str} {j j' : Jwt K} {ls : List ZEvent} : s.Say B.yamlToJson c →
      (n, some j) ∈ c.jwt → err ≠ [] →
      ({ j with name := n } : Jwt K).validateLogged B.X B.hmacKey B.T (B.uuid n) (B.fetch n) = (.done j' (some err), ls) →
      Reason B s (err ++ " exiting...".toList) []
  /-- an error without text, which only a library could return -/
  | untold {c : Config (Option (Jwt K))} {n : Str} {j j' : Jwt K} {ls : List ZEvent} : s.Say B.yamlToJson c →
      (n, some j) ∈ c.jwt →
      ({ j with name := n } : Jwt K).validateLogged B.X B.hmacKey B.T (B.uuid n) (B.fetch n) = (.done j' (some []), ls) →
      Reason B s "error loading config. exiting...".toList []
  | path {c : Config (Option (Jwt K))} {r : Route} : s.Say B.yamlToJson c → r ∈ c.routes →
      B.E.compiles ('^' :: r.path) = false →
      Reason B s ("config error, illegal route path ".toList ++ r.path ++ " exiting...".toList) []
  | transform {c : Config (Option (Jwt K))} {r : Route} : s.Say B.yamlToJson c → r ∈ c.routes →
      r.transform ≠ [] → r.transform.head? ≠ some '/' →
      Reason B s ("config error, illegal route transform ".toList ++ r.transform ++ " exiting...".toList) []
  | noJwt {c : Config (Option (Jwt K))} {r : Route} : s.Say B.yamlToJson c → r ∈ c.routes →
      r.jwt ≠ [] → r.jwt ∉ c.jwt.map Prod.fst →
      Reason B s ("route [".toList ++ withSlash r.path ++ "] jwt [".toList ++ r.jwt ++
        "] not found, check your configuration exiting...".toList) []
  | keyPair {c : Config (Option (Jwt K))} : s.Say B.yamlToJson c → c.connection.downstream.wantsTls →
      (∀ chain, B.keyPair c.connection.downstream.cert c.connection.downstream.key = chain →
        ∀ d ∈ chain.head?, B.parse d = none) →
      Reason B s ("unable to parse TLS configuration, check your certificate and/or private key. ".toList ++
        "j8a is exiting ...".toList) []
  | chain {c : Config (Option (Jwt K))} {port : Int} : s.Say B.yamlToJson c → c.connection.downstream.wantsTls →
      c.connection.downstream.wantedPort port →
      checkCertChain B.parse B.verify B.now
        (B.keyPair c.connection.downstream.cert c.connection.downstream.key) = .error →
      Reason B s ("unable to start j8a on port ".toList ++ itoa port ++ ", exiting...".toList)
        [("error".toList, .str (B.chainText (B.keyPair c.connection.downstream.cert c.connection.downstream.key)))]
  | port {c : Config (Option (Jwt K))} {port : Int} : s.Say B.yamlToJson c →
      c.connection.downstream.wantedPort port → (port < 0 ∨ 65535 < port ∨ B.free port = false) →
      Reason B s ("unable to start j8a on port ".toList ++ itoa port ++ ", exiting...".toList)
        [("error".toList, .str (B.listenText port))]

/-- What makes the process crash. -/
inductive Crash (B : Machinery K) (s : Sources) : Prop
  | nullJwt {c : Config (Option (Jwt K))} {n : Str} : s.Say B.yamlToJson c → (n, none) ∈ c.jwt → Crash B s
  | jwt {c : Config (Option (Jwt K))} {n : Str} {j : Jwt K} : s.Say B.yamlToJson c → (n, some j) ∈ c.jwt →
      Jwt.validate B.X B.hmacKey (B.uuid n) (B.fetch n) { j with name := n } = .panic → Crash B s
  | about {c : Config (Option (Jwt K))} : s.Say B.yamlToJson c →
      ¬ (((aboutPaths c.routes).map withSlash).Nodup ∧ [] ∉ aboutPaths c.routes ∧ ['/'] ∉ aboutPaths c.routes) →
      Crash B s
  | chain {c : Config (Option (Jwt K))} : s.Say B.yamlToJson c → c.connection.downstream.wantsTls →
      checkCertChain B.parse B.verify B.now
        (B.keyPair c.connection.downstream.cert c.connection.downstream.key) = .panic → Crash B s

theorem fatalLine_eq {msg : Str} (h : msg ≠ []) : fatalLine msg = ⟨.fatal, [], msg ++ " exiting...".toList⟩ := by
  unfold fatalLine
  rw [if_neg (by intro h'; exact h (List.length_eq_zero_iff.1 h'))]

abbrev GivesReason (B : Machinery K) (s : Sources) (f : ZEvent) : Prop := Reason B s f.msg f.fields

theorem loadLogged_ends (B : Machinery K) (s : Sources) {C : Prop} :
    (loadLogged (parseConfig (K := K) B.yamlToJson) (·.routes.length) s).Ends (GivesReason B s) C := by
  have hcheck : ∀ (kind name text : Str), Origin s kind name (some text) →
      (if configOk (fun c : Config (Option (Jwt K)) => c.routes.length) (parseConfig B.yamlToJson text) then
        (say (debugLine ("parsed config with ".toList ++ natToDec (parseConfig (K := K) B.yamlToJson text).routes.length ++
          " live routes".toList))).then fun _ => goesOn (parseConfig (K := K) B.yamlToJson text)
      else refuse ("error loading config from ".toList ++ (kind ++ ' ' :: '\'' :: name ++ ['\'']))).Ends (GivesReason B s) C := by
    intro kind name text ho
    split
    · exact (Logged.Ends.say (by intro h; cases h)).then fun _ _ => .goesOn _
    · rename_i h
      unfold refuse
      rw [fatalLine_eq (by simp)]
      refine Logged.Ends.exit rfl ?_
      have hr : (parseConfig (K := K) B.yamlToJson text).routes = [] := by
        simp only [configOk, decide_eq_true_eq] at h
        exact List.length_eq_zero_iff.1 (by omega)
      have := Reason.noRoutes (B := B) ho hr
      unfold GivesReason
      dsimp only
      rw [show " '".toList = [' ', '\''] from rfl, show "' exiting...".toList = '\'' :: " exiting...".toList from rfl] at this
      simpa using this
  have hfile : ∀ (kind name : Str), Origin s kind name (s.files name) →
      ((readYmlFileLogged (parseConfig (K := K) B.yamlToJson) s name).then fun c =>
        if configOk (fun c : Config (Option (Jwt K)) => c.routes.length) c then
          (say (debugLine ("parsed config with ".toList ++ natToDec c.routes.length ++ " live routes".toList))).then fun _ => goesOn c
        else refuse ("error loading config from ".toList ++ (kind ++ ' ' :: '\'' :: name ++ ['\'']))).Ends (GivesReason B s) C := by
    intro kind name ho
    unfold readYmlFileLogged
    cases ht : s.files name with
    | none =>
      rw [ht] at ho
      exact Logged.Ends.exit rfl (Reason.unreadable ho)
    | some text =>
      rw [ht] at ho
      exact (Logged.Ends.goesOn _).then fun a ha => by cases ha; exact hcheck kind name text ho
  unfold loadLogged
  dsimp only
  by_cases h : 0 < s.configFile.length
  · rw [if_pos h]
    refine (Logged.Ends.say (by intro h; cases h)).then fun _ _ => ?_
    have : s.flag = some s.configFile := by
      unfold Sources.configFile at h ⊢
      cases hf : s.flag with
      | none => rw [hf] at h; exact absurd h (by simp)
      | some n => rfl
    refine hfile "file".toList _ (.file _ ?_ this)
    intro h'; rw [h'] at h; exact absurd h (by simp)
  · rw [if_neg h]
    have hflag : s.flag = none ∨ s.flag = some [] := by
      unfold Sources.configFile at h
      cases hf : s.flag with
      | none => exact .inl rfl
      | some n =>
        rw [hf] at h
        cases n with
        | nil => exact .inr rfl
        | cons _ _ => exact absurd (by simp) h
    by_cases h2 : 0 < s.env.length
    · rw [if_pos h2]
      refine (Logged.Ends.say (by intro h; cases h)).then fun _ _ => ?_
      exact hcheck "env".toList _ _ (.env hflag (by intro h'; rw [h'] at h2; exact absurd h2 (by simp)))
    · rw [if_neg h2]
      refine (Logged.Ends.say (by intro h; cases h)).then fun _ _ => ?_
      exact hfile "default file".toList _ (.fallback hflag (List.length_eq_zero_iff.1 (by omega)))

/-- `load` gives what the sources say. -/
theorem loadLogged_goes (B : Machinery K) (s : Sources) {c : Config (Option (Jwt K))}
    (h : (loadLogged (parseConfig B.yamlToJson) (·.routes.length) s).1 = .goes c) : s.Say B.yamlToJson c := by
  have := (loadLogged_some? (parseConfig (K := K) B.yamlToJson) (fun c : Config (Option (Jwt K)) => c.routes.length) s).1
  rw [Booted.some?_eq.2 h] at this
  obtain ⟨text, ho, hc, hr⟩ := (C64_precedence _ _ s c).1 this.symm
  generalize ht : some text = t at ho
  cases ho with
  | file name h1 h2 => exact ⟨"file".toList, name, text, by rw [ht]; exact .file name h1 h2, hc, hr⟩
  | env h1 h2 => cases ht; exact ⟨_, _, _, .env h1 h2, hc, hr⟩
  | fallback h1 h2 => exact ⟨"default file".toList, _, text, by rw [ht]; exact .fallback h1 h2, hc, hr⟩

theorem validateJwtLogged_ends (B : Machinery K) (s : Sources) (c : Config (Option (Jwt K))) (hc : s.Say B.yamlToJson c)
    (count : Nat) : ∀ es : List (Str × Option (Jwt K)), (∀ e ∈ es, e ∈ c.jwt) →
    (validateJwtLogged B count es).Ends (GivesReason B s) (Crash B s) := by
  intro es
  induction es with
  | nil => intro _; exact NoFatal.one (by intro h; cases h)
  | cons e es ih =>
    intro hmem
    obtain ⟨n, oj⟩ := e
    cases oj with
    | none => exact ⟨NoFatal.nil, .nullJwt hc (hmem (n, none) (by simp))⟩
    | some j =>
      have hcalm := validateLogged_calm B.X B.hmacKey B.T (B.uuid n) (B.fetch n) { j with name := n }
      have hout := validateLogged_outcome B.X B.hmacKey B.T (B.uuid n) (B.fetch n) { j with name := n }
      simp only [validateJwtLogged]
      obtain ⟨r, hr⟩ : ∃ r, Jwt.validateLogged B.X B.hmacKey B.T (B.uuid n) (B.fetch n) { j with name := n } = r := ⟨_, rfl⟩
      rw [hr] at hcalm hout ⊢
      obtain ⟨a, ls⟩ := r
      cases a with
      | panic => exact ⟨hcalm, .jwt hc (hmem _ (by simp)) hout.symm⟩
      | done j' err =>
        cases err with
        | some err =>
          refine ⟨ls, _, rfl, hcalm, rfl, ?_⟩
          by_cases he : err = []
          · subst he; exact .untold hc (hmem _ (by simp)) hr
          · rw [fatalLine_eq he]; exact .jwt hc (hmem _ (by simp)) he hr
        | none =>
          refine Logged.Ends.then hcalm fun _ _ => ?_
          exact (ih fun e he => hmem e (List.mem_cons_of_mem _ he)).then fun js _ => .goesOn _

theorem mapM_names (B : Machinery K) : ∀ (es : List (Str × Option (Jwt K))) (js : List (Str × Jwt K)),
    (es.mapM fun (e : Str × Option (Jwt K)) => e.2.map fun j => (e.1, j)).bind
      (fun js => js.mapM fun (n, j) => (B.validate n j).map fun j' => (n, j')) = some js →
    js.map Prod.fst = es.map Prod.fst := by
  intro es
  induction es with
  | nil => intro js h; cases h; rfl
  | cons e es ih =>
    intro js h
    obtain ⟨n, oj⟩ := e
    cases oj with
    | none => cases h
    | some j =>
      rw [List.mapM_cons] at h
      simp only [Option.map_some, Option.bind_eq_bind, Option.bind_some] at h
      cases hm : es.mapM fun (e : Str × Option (Jwt K)) => e.2.map fun j => (e.1, j) with
      | none => rw [hm] at h; cases h
      | some js' =>
        rw [hm] at h
        simp only [Option.bind_some, Option.pure_def, List.mapM_cons, Option.bind_eq_bind] at h
        cases hb : B.validate n j with
        | none => rw [hb] at h; cases h
        | some j' =>
          rw [hb] at h
          simp only [Option.map_some, Option.bind_some] at h
          cases hr : js'.mapM fun (n, j) => (B.validate n j).map fun j' => (n, j') with
          | none => rw [hr] at h; cases h
          | some js'' =>
            rw [hr] at h
            cases h
            simp only [List.map_cons]
            rw [ih js'' (by rw [hm]; exact hr)]

theorem jwtStage_goes (B : Machinery K) {c : Config (Option (Jwt K))} {c1 : Config (Jwt K)}
    (h : (jwtStage B c).1 = .goes c1) : c1.routes = c.routes ∧ c1.jwt.map Prod.fst = c.jwt.map Prod.fst ∧
      c1.connection = c.connection := by
  obtain ⟨js, hjs, h⟩ := Logged.then_goes h
  cases h
  refine ⟨rfl, ?_, rfl⟩
  by_cases hl : 0 < c.jwt.length
  · rw [if_pos hl] at hjs
    have := validateJwtLogged_some? B c.jwt.length c.jwt
    rw [Booted.some?_eq.2 hjs] at this
    exact mapM_names B _ _ this.symm
  · rw [if_neg hl] at hjs
    cases hjs
    rw [List.length_eq_zero_iff.mp (show c.jwt.length = 0 by omega)]
    rfl

theorem lookup_none_iff {J : Type} (js : List (Str × J)) (n : Str) : (js.lookup n).isNone = true ↔ n ∉ js.map Prod.fst := by
  induction js with
  | nil => simp
  | cons e js ih =>
    obtain ⟨m, j⟩ := e
    rw [List.lookup_cons]
    by_cases h : n = m
    · simp [h]
    · rw [show (n == m) = false from by simpa using h]
      simp only [ih, List.map_cons, List.mem_cons, h, false_or]

theorem bootLogged_ends (B : Machinery K) (s : Sources) (c : Config (Option (Jwt K))) (hc : s.Say B.yamlToJson c) :
    (bootLogged B c).Ends (GivesReason B s) (Crash B s) := by
  unfold bootLogged
  have hj : (jwtStage B c.reApplyResourceSchemes.reApplyResourceNames).Ends (GivesReason B s) (Crash B s) := by
    refine Logged.Ends.then ?_ fun _ _ => .goesOn _
    split
    · exact validateJwtLogged_ends B s c hc _ _ fun e he => he
    · exact .goesOn _
  refine hj.then fun c1 h1 => ?_
  obtain ⟨hr1, hn1, -⟩ := jwtStage_goes B h1
  replace hr1 : c1.routes = c.routes := hr1
  replace hn1 : c1.jwt.map Prod.fst = c.jwt.map Prod.fst := hn1
  have hp : (pathStage B.E c1).Ends (GivesReason B s) (Crash B s) := by
    unfold pathStage
    cases hf : c1.routes.find? fun r => !B.E.compiles ('^' :: r.path) with
    | none => exact .goesOn _
    | some r =>
      dsimp only [refuse]
      rw [fatalLine_eq (by simp)]
      have := List.find?_some hf
      exact .exit rfl (.path hc (hr1 ▸ List.mem_of_find?_eq_some hf) (by simpa using this))
  refine hp.then fun c2 h2 => ?_
  have hr2 : c2.routes = c.routes.map (fun r => { r with pathRegex := some ('^' :: r.path) }) ∧ c2.jwt = c1.jwt := by
    unfold pathStage at h2
    split at h2
    · cases h2
    · cases h2; exact ⟨by rw [← hr1], rfl⟩
  have ht : (transformStage c2).Ends (GivesReason B s) (Crash B s) := by
    unfold transformStage
    cases hf : c2.routes.find? fun r => 0 < r.transform.length && !(r.transform.take 1 == ['/']) with
    | none => exact .goesOn _
    | some r =>
      dsimp only [refuse]
      rw [fatalLine_eq (by simp)]
      have hp := List.find?_some hf
      have hm := List.mem_of_find?_eq_some hf
      rw [hr2.1, List.mem_map] at hm
      obtain ⟨r0, hm, rfl⟩ := hm
      dsimp only at hp ⊢
      rw [Bool.and_eq_true, decide_eq_true_eq, Bool.not_eq_true', beq_eq_false_iff_ne] at hp
      refine .exit rfl (Reason.transform hc hm (by intro h; rw [h] at hp; simp at hp) ?_)
      intro h
      apply hp.2
      cases hq : r0.transform with
      | nil => rw [hq] at h; cases h
      | cons a t => rw [hq] at h; cases h; rfl
  refine ht.then fun c3 h3 => ?_
  have h32 : c3 = c2 := by
    unfold transformStage at h3
    split at h3
    · cases h3
    · cases h3; rfl
  subst h32
  have hv : (routeStage B.srt c3).Ends (GivesReason B s) (Crash B s) := by
    unfold routeStage
    cases hf : c3.routes.find? fun r => r.hasJwt && (c3.jwt.lookup r.jwt).isNone with
    | none => exact .goesOn _
    | some r =>
      dsimp only [refuse]
      rw [fatalLine_eq (by simp)]
      have hp := List.find?_some hf
      have hm := List.mem_of_find?_eq_some hf
      rw [hr2.1, List.mem_map] at hm
      obtain ⟨r0, hm, rfl⟩ := hm
      dsimp only at hp ⊢
      rw [Bool.and_eq_true, lookup_none_iff, hr2.2, hn1] at hp
      have hj : r0.jwt ≠ [] := by
        have := hp.1
        unfold Route.hasJwt at this
        intro h
        dsimp only at this
        rw [h] at this
        exact absurd this (by decide)
      have := Reason.noJwt (B := B) hc hm hj hp.2
      unfold GivesReason Logged.Ends
      refine ⟨[], _, rfl, NoFatal.nil, rfl, ?_⟩
      rw [addSlash_eq]
      rw [show "] not found, check your configuration exiting...".toList =
        "] not found, check your configuration".toList ++ " exiting...".toList from rfl] at this
      simpa only [List.append_assoc] using this
  refine hv.then fun c4 _ => ?_
  exact (Logged.Ends.say (by intro h; cases h)).then fun _ _ => .goesOn _

/-- What the configuration is after a boot. -/
theorem bootLogged_goes (B : Machinery K) (c : Config (Option (Jwt K))) {c' : Config (Jwt K)}
    (h : (bootLogged B c).1 = .goes c') :
    c'.routes = B.srt (c.routes.map fun r => { r with pathRegex := some ('^' :: r.path), path := addSlash r.path }) ∧
    c'.connection = ⟨c.connection.downstream.setDefaults, c.connection.upstream.setDefaults⟩ := by
  have := bootLogged_some? B c
  rw [Booted.some?_eq.2 h] at this
  obtain ⟨cp, hcp, hb⟩ := Option.bind_eq_some_iff.1 this.symm
  obtain ⟨-, -, -, -, hr, -, -, hc⟩ := boot_elim hb
  unfold Config.jwtPresent at hcp
  rw [Option.map_eq_some_iff] at hcp
  obtain ⟨js, -, rfl⟩ := hcp
  exact ⟨hr, hc⟩

theorem wantedPort_setDefaults (d : Downstream) : d.wantedPort d.setDefaults.port := by
  obtain ⟨-, -, -, -, -, hp, -⟩ := C10_downstream_defaults d
  unfold Downstream.wantedPort Downstream.wantsTls
  rw [hp]
  by_cases h0 : d.port = 0
  · rw [if_pos h0]
    by_cases ht : d.mode.map Char.toUpper = "TLS".toList
    · rw [if_pos ht]; exact .inr (.inl ⟨h0, ht, rfl⟩)
    · rw [if_neg ht]; exact .inr (.inr ⟨h0, ht, rfl⟩)
  · rw [if_neg h0]; exact .inl ⟨h0, rfl⟩

theorem wantedPort_det {d : Downstream} {p q : Int} (hp : d.wantedPort p) (hq : d.wantedPort q) : p = q := by
  rcases hp with ⟨h1, h2⟩ | ⟨h1, h2, h3⟩ | ⟨h1, h2, h3⟩ <;> rcases hq with ⟨g1, g2⟩ | ⟨g1, g2, g3⟩ | ⟨g1, g2, g3⟩ <;>
    first | exact absurd h1 g1 | exact absurd g1 h1 | exact absurd h2 g2 | exact absurd g2 h2 | omega

theorem about_booted (srt) (hs : IsRouteSort srt) (routes : List Route)
    (h : mapPathsToHandler (srt (routes.map fun r =>
      { r with pathRegex := some ('^' :: r.path), path := addSlash r.path })) = none) :
    ¬ (((aboutPaths routes).map withSlash).Nodup ∧ [] ∉ aboutPaths routes ∧ ['/'] ∉ aboutPaths routes) := by
  rintro ⟨ha, hb, hc⟩
  have hperm := aboutPaths_booted srt hs routes
  have hm := mapPathsToHandler_isSome (srt (routes.map fun r =>
      { r with pathRegex := some ('^' :: r.path), path := addSlash r.path }))
  rw [hperm.nodup_iff, hperm.mem_iff, hperm.mem_iff, h] at hm
  have : (none : Option Mux).isSome = true := hm.2 ⟨ha, ?_, ?_⟩
  · cases this
  · rw [List.mem_map]; rintro ⟨p, -, hp⟩; exact withSlash_ne_nil p hp
  · rw [List.mem_map]
    rintro ⟨p, hp, he⟩
    rcases (withSlash_root p).1 he with rfl | rfl
    · exact hb hp
    · exact hc hp

theorem startLogged_ends (B : Machinery K) (hs : IsRouteSort B.srt) (s : Sources) (c : Config (Option (Jwt K)))
    (hc : s.Say B.yamlToJson c) {c' : Config (Jwt K)} (h : (bootLogged B c).1 = .goes c') :
    (startLogged B c').Ends (GivesReason B s) (Crash B s) := by
  obtain ⟨hr, hcon⟩ := bootLogged_goes B c h
  unfold startLogged
  dsimp only
  refine (Logged.Ends.say (by intro h; cases h)).then fun _ _ => ?_
  refine (muxStage_ends _ fun hm => .about hc (about_booted B.srt hs c.routes (hr ▸ hm))).then fun _ _ => ?_
  rw [hcon]
  dsimp only
  have ht := isTLSMode_setDefaults c.connection.downstream
  have hport := wantedPort_setDefaults c.connection.downstream
  obtain ⟨-, -, -, -, -, -, hcert, hkey⟩ := C10_downstream_defaults c.connection.downstream
  have hl : ∀ mode sv, (listenLogged B mode c.connection.downstream.setDefaults.port sv).Ends (GivesReason B s) (Crash B s) := by
    intro mode sv
    unfold listenLogged
    refine (Logged.Ends.say (by intro h; cases h)).then fun _ _ => ?_
    split
    · exact .goesOn _
    · rename_i hn
      refine .exit rfl (.port hc hport ?_)
      unfold listen at hn
      simp only [Bool.and_eq_true, decide_eq_true_eq] at hn
      cases hf : B.free c.connection.downstream.setDefaults.port with
      | false => exact .inr (.inr rfl)
      | true =>
        rw [hf] at hn
        by_cases h0 : c.connection.downstream.setDefaults.port < 0
        · exact .inl h0
        · right; left
          simp only [and_true] at hn
          omega
  by_cases hm : c.connection.downstream.setDefaults.isTLSMode = true
  · rw [if_pos hm, hcert, hkey]
    have htls : c.connection.downstream.wantsTls := ht.1 hm
    unfold tlsConfig
    cases hk : B.keyPair c.connection.downstream.cert c.connection.downstream.key with
    | nil =>
      exact .exit rfl (.keyPair hc htls fun chain hch d hd => by rw [← hch, hk] at hd; cases hd)
    | cons d ds =>
      dsimp only
      cases hd : B.parse d with
      | none =>
        refine .exit rfl (.keyPair hc htls fun chain hch d' hd' => ?_)
        rw [← hch, hk] at hd'
        cases hd'; exact hd
      | some cert =>
        rw [if_pos (show (some cert).isSome = true from rfl)]
        dsimp only
        obtain ⟨k, hch⟩ : ∃ k, checkCertChain B.parse B.verify B.now (d :: ds) = k := ⟨_, rfl⟩
        rw [hch]
        cases k with
        | panic => exact ⟨NoFatal.nil, .chain hc htls (by rw [hk]; exact hch)⟩
        | error =>
          have := Reason.chain (B := B) hc htls hport (by rw [hk]; exact hch)
          rw [hk] at this
          exact .exit rfl this
        | ok links => exact hl _ _
  · rw [if_neg hm]
    exact hl _ _

theorem bootStrap_ends (B : Machinery K) (hs : IsRouteSort B.srt) (s : Sources) :
    (bootStrap B s).Ends (GivesReason B s) (Crash B s) := by
  unfold bootStrap
  refine (loadLogged_ends B s).then fun c hc => ?_
  have hsay := loadLogged_goes B s hc
  exact (bootLogged_ends B s c hsay).then fun c' hc' => startLogged_ends B hs s c hsay hc'

/-- The line is written whatever LOGLEVEL is. -/
def AlwaysWritten (e : ZEvent) : Prop := ∀ (L : Logger) (time clock : Str), L.write time clock e =
  if logColor L.color then e.console L.quote L.srt L.context clock else e.json L.context time

theorem fatal_written {e : ZEvent} (h : e.level = .fatal) : AlwaysWritten e := by
  intro L time clock
  unfold Logger.write
  rw [if_pos]
  rw [h]
  unfold logLevel
  repeat' split
  all_goals decide

/-- C156, part: when the process exits, the last line and no other is fatal, it is written whatever LOGLEVEL is, and it
gives a reason that is true. When the gateway starts there is no fatal line. A third end, a crash, is possible only for
the causes that `Crash` lists. -/
theorem C156_partial (B : Machinery K) (hs : IsRouteSort B.srt) (s : Sources) :
    ((bootStrap B s).1 = .exits → ∃ ls f, (bootStrap B s).2 = ls ++ [f] ∧ (∀ e ∈ ls, e.level ≠ .fatal) ∧
      f.level = .fatal ∧ AlwaysWritten f ∧ Reason B s f.msg f.fields) ∧
    (∀ sv, (bootStrap B s).1 = .goes sv → ∀ e ∈ (bootStrap B s).2, e.level ≠ .fatal) ∧
    (¬ Crash B s → (bootStrap B s).1 ≠ .crashes) := by
  have h := bootStrap_ends B hs s
  generalize bootStrap B s = x at h
  obtain ⟨b, ls⟩ := x
  cases b with
  | goes sv => exact ⟨fun h => (nomatch h), fun _ _ => h, fun _ h => (nomatch h)⟩
  | crashes => exact ⟨fun h => (nomatch h), fun _ h => (nomatch h), fun hn => absurd h.2 hn⟩
  | exits =>
    obtain ⟨ls', f, h1, h2, h3, h4⟩ := h
    exact ⟨fun _ => ⟨ls', f, h1, h2, h3, fatal_written h3, h4⟩, fun _ h => (nomatch h), fun _ h => (nomatch h)⟩

/-- C156 fails: when the process crashes, no fatal line was written. -/
theorem C156_violated_always (B : Machinery K) (hs : IsRouteSort B.srt) (s : Sources)
    (h : (bootStrap B s).1 = .crashes) : ∀ e ∈ (bootStrap B s).2, e.level ≠ .fatal := by
  have h' := bootStrap_ends B hs s
  unfold Logged.Ends at h'
  rw [h] at h'
  exact h'.1

/-- A gateway for the examples, with the document `v`. The key pair `k` is good, with `2` for a key the chain has a
second block that is no certificate; port 81 is taken. -/
def exMachinery (v : JVal) : Machinery Nat where
  yamlToJson _ := some v
  E := literalEngine
  X := exX509
  hmacKey _ := 7
  T := ⟨fun _ => "bad".toList, fun _ => "raw".toList, fun _ => "refused".toList⟩
  uuid _ := "u".toList
  fetch _ _ := none
  srt := exSort
  parse d := match d with
    | [1] => some demoLeaf
    | _ => none
  verify c _ := some [[c]]
  keyPair _ key := if key = "k".toList then [[1]] else if key = "2".toList then [[1], [9]] else []
  now _ := 0
  chainText _ := "chain".toList
  free p := p != 81
  listenText _ := "in use".toList
  version := "v1".toList

def exRoute (path resource : String) (more : List (Str × JVal)) : JVal :=
  .obj ([("path".toList, jstr path), ("resource".toList, jstr resource)] ++ more)
def exDoc (routes : List JVal) (jwt downstream : JVal) : JVal :=
  .obj [("routes".toList, .arr routes), ("jwt".toList, jwt),
    ("connection".toList, .obj [("downstream".toList, downstream)])]
def exStart (v : JVal) : Logged Serving := bootStrap (exMachinery v) { env := "…".toList }

/-- C156 fails: a jwt entry that is null, a key that is a bad certificate, the about paths `about` and `/about`, a
certificate chain whose second block is no certificate. -/
theorem C156_violated : ∀ v ∈ [
      exDoc [exRoute "/" "r" []] (.obj [("a".toList, .null)]) (.obj []),
      exDoc [exRoute "/" "r" []] (.obj [("a".toList, .obj [("alg".toList, jstr "RS256"), ("key".toList, jstr "cx")])]) (.obj []),
      exDoc [exRoute "about" "about" [], exRoute "/about" "about" []] (.obj []) (.obj []),
      exDoc [exRoute "/" "r" []] (.obj []) (.obj [("mode".toList, jstr "TLS"), ("key".toList, jstr "2")])],
    (exStart v).1 = .crashes ∧ ∀ e ∈ (exStart v).2, e.level = .debug := by
  simp only [List.mem_cons, List.not_mem_nil, or_false, forall_eq_or_imp, forall_eq]
  refine ⟨⟨?_, ?_⟩, ⟨?_, ?_⟩, ⟨?_, ?_⟩, ⟨?_, ?_⟩⟩ <;> decide +kernel

/-- Starts that fail and say why: no routes, a key that is no PEM block, a transform without slash, a jwt that is missing, a key pair that is refused, a port that is taken, a port that is none. -/
example : ([exDoc [] (.obj []) (.obj []),
      exDoc [exRoute "/" "r" []] (.obj [("a".toList, .obj [("alg".toList, jstr "RS256"), ("key".toList, jstr "x")])]) (.obj []),
      exDoc [exRoute "/" "r" [("transform".toList, jstr "t")]] (.obj []) (.obj []),
      exDoc [exRoute "x" "r" [("jwt".toList, jstr "j")]] (.obj []) (.obj []),
      exDoc [exRoute "/" "r" []] (.obj []) (.obj [("mode".toList, jstr "tls"), ("key".toList, jstr "x")]),
      exDoc [exRoute "/" "r" []] (.obj []) (.obj [("port".toList, jnat 81)]),
      exDoc [exRoute "/" "r" []] (.obj []) (.obj [("port".toList, jnat 70000)])].map fun v =>
        ((exStart v).1, (exStart v).2.getLast?.map fun e => (String.ofList e.msg, e.fields.length))) =
    [(.exits, some ("error loading config from env 'J8ACFG_YML' exiting...", 0)),
     (.exits, some ("jwt key [a] only type PUBLIC KEY or CERTIFICATE allowed but found additional or invalid data, check your PEM block exiting...", 0)),
     (.exits, some ("config error, illegal route transform t exiting...", 0)),
     (.exits, some ("route [/x] jwt [j] not found, check your configuration exiting...", 0)),
     (.exits, some ("unable to parse TLS configuration, check your certificate and/or private key. j8a is exiting ...", 0)),
     (.exits, some ("unable to start j8a on port 81, exiting...", 1)),
     (.exits, some ("unable to start j8a on port 70000, exiting...", 1))] := by decide +kernel

/-- A start that succeeds, and all its lines. -/
example : (exStart (exDoc [exRoute "/" "r" [], exRoute "about" "about" []] (.obj []) (.obj []))).1 = .goes (.plain 8080) ∧
    ((exStart (exDoc [exRoute "/" "r" [], exRoute "about" "about" []] (.obj []) (.obj []))).2.map fun e => String.ofList e.msg) =
    ["attempting config from env J8ACFG_YML", "parsed config with 2 live routes", "server derived upstream params",
     "server derived downstream params", "assigned about handler to path /about", "assigned proxy handler to path /",
     "j8a v1 listening in HTTP mode on port 8080..."] := by decide +kernel

end J8a

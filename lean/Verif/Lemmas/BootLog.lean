import Verif.Lemmas.KeyLog
import Verif.Lemmas.Mux
import Verif.Model.BootLog
/-!
# The boot sequence with its log (`Model/BootLog.lean`)
-/
namespace J8a
open Go

variable {K : Type}

/-! ## It does what the boot sequence without log does -/

/-- Without the lines, and without the difference between the two ways not to go on. -/
def Booted.some? {α : Type} : Booted α → Option α
  | .goes a => some a
  | _ => none

theorem Logged.then_some? {α β : Type} (x : Logged α) (f : α → Logged β) :
    (x.then f).1.some? = x.1.some?.bind fun a => (f a).1.some? := by
  obtain ⟨a, ls⟩ := x
  cases a <;> rfl

theorem Logged.then_goes {α β : Type} {x : Logged α} {f : α → Logged β} {b : β} (h : (x.then f).1 = .goes b) :
    ∃ a, x.1 = .goes a ∧ (f a).1 = .goes b := by
  obtain ⟨a, ls⟩ := x
  cases a with
  | goes a => exact ⟨a, rfl, h⟩
  | exits => cases h
  | crashes => cases h

theorem Logged.then_crashes {α β : Type} {x : Logged α} {f : α → Logged β} (h : (x.then f).1 = .crashes) :
    x.1 = .crashes ∨ ∃ a, x.1 = .goes a ∧ (f a).1 = .crashes := by
  obtain ⟨a, ls⟩ := x
  cases a with
  | goes a => exact .inr ⟨a, rfl, h⟩
  | exits => cases h
  | crashes => exact .inl rfl

theorem Booted.some?_eq {α : Type} {x : Booted α} {a : α} : x.some? = some a ↔ x = .goes a := by
  cases x <;> simp [Booted.some?]

theorem loadLogged_some? {C : Type} (parse : Str → C) (routes : C → Nat) (s : Sources) :
    (loadLogged parse routes s).1.some? = load parse routes s ∧ (loadLogged parse routes s).1 ≠ .crashes := by
  unfold loadLogged load readYmlFileLogged readYmlFile
  dsimp only
  by_cases h : 0 < s.configFile.length
  · rw [if_pos h, if_pos h]
    cases s.files s.configFile with
    | none => exact ⟨rfl, by intro h; cases h⟩
    | some t =>
      simp only [Logged.then, say, goesOn, Option.map_some]
      by_cases hc : configOk routes (parse t) = true
      · simp [hc, Booted.some?]
      · simp [hc, Booted.some?, refuse]
  · rw [if_neg h, if_neg h]
    by_cases h2 : 0 < s.env.length
    · rw [if_pos h2, if_pos h2]
      simp only [Logged.then, say, goesOn]
      by_cases hc : configOk routes (parse s.env) = true
      · simp [hc, Booted.some?]
      · simp [hc, Booted.some?, refuse]
    · rw [if_neg h2, if_neg h2]
      cases s.files defaultConfigFile with
      | none => exact ⟨rfl, by intro h; cases h⟩
      | some t =>
        simp only [Logged.then, say, goesOn, Option.map_some]
        by_cases hc : configOk routes (parse t) = true
        · simp [hc, Booted.some?]
        · simp [hc, Booted.some?, refuse]

/-- The check of one jwt entry in `boot`. -/
abbrev Machinery.validate (B : Machinery K) : Str → Jwt K → Option (Jwt K) := bootJwt B.X B.hmacKey B.uuid B.fetch

theorem bootJwt_logged (B : Machinery K) (n : Str) (j : Jwt K) :
    B.validate n j = match (({ j with name := n } : Jwt K).validateLogged B.X B.hmacKey B.T (B.uuid n) (B.fetch n)).1 with
      | .done j' none => some j'
      | _ => none := by
  unfold Machinery.validate bootJwt
  rw [← validateLogged_outcome B.X B.hmacKey B.T]
  generalize (Jwt.validateLogged B.X B.hmacKey B.T (B.uuid n) (B.fetch n) { j with name := n }).1 = r
  cases r with
  | panic => rfl
  | done j e => cases e <;> rfl

theorem validateJwtLogged_some? (B : Machinery K) (count : Nat) : ∀ es : List (Str × Option (Jwt K)),
    (validateJwtLogged B count es).1.some? = (es.mapM fun (e : Str × Option (Jwt K)) => e.2.map fun j => (e.1, j)).bind
      fun js => js.mapM fun (n, j) => (B.validate n j).map fun j' => (n, j') := by
  intro es
  induction es with
  | nil => rfl
  | cons e es ih =>
    obtain ⟨n, oj⟩ := e
    cases oj with
    | none => rfl
    | some j =>
      have hb := bootJwt_logged B n j
      simp only [validateJwtLogged]
      rw [List.mapM_cons]
      simp only [Option.map_some, Option.bind_eq_bind, Option.bind_some]
      revert hb
      generalize Jwt.validateLogged B.X B.hmacKey B.T (B.uuid n) (B.fetch n) { j with name := n } = r
      obtain ⟨a, ls⟩ := r
      intro hb
      cases a with
      | panic =>
        dsimp only at hb ⊢
        cases es.mapM fun (e : Str × Option (Jwt K)) => e.2.map fun j => (e.1, j) with
        | none => rfl
        | some js =>
          simp only [Option.bind_some, Option.pure_def, List.mapM_cons, hb, Option.map_none, Option.bind_eq_bind,
            Option.bind_none]
          rfl
      | done j' err =>
        cases err with
        | some _ =>
          dsimp only at hb ⊢
          cases es.mapM fun (e : Str × Option (Jwt K)) => e.2.map fun j => (e.1, j) with
          | none => rfl
          | some js =>
            simp only [Option.bind_some, Option.pure_def, List.mapM_cons, hb, Option.map_none, Option.bind_eq_bind,
              Option.bind_none]
            rfl
        | none =>
          dsimp only at hb ⊢
          rw [Logged.then_some?, show (Booted.goes ()).some? = some () from rfl, Option.bind_some, Logged.then_some?, ih]
          cases es.mapM fun (e : Str × Option (Jwt K)) => e.2.map fun j => (e.1, j) with
          | none => rfl
          | some js =>
            simp only [Option.bind_some, Option.pure_def, List.mapM_cons, hb, Option.map_some, Option.bind_eq_bind]
            rfl

theorem jwtStage_some? (B : Machinery K) (c : Config (Option (Jwt K))) :
    (jwtStage B c).1.some? = c.jwtPresent.bind (Config.validateJwt B.validate) := by
  unfold jwtStage Config.jwtPresent Config.validateJwt
  rw [Logged.then_some?]
  by_cases h : 0 < c.jwt.length
  · rw [if_pos h, validateJwtLogged_some?]
    cases c.jwt.mapM fun (e : Str × Option (Jwt K)) => e.2.map fun j => (e.1, j) with
    | none => rfl
    | some js =>
      simp only [Option.bind_some, Option.map_some]
      cases js.mapM fun (n, j) => (B.validate n j).map fun j' => (n, j') <;> rfl
  · rw [if_neg h]
    have : c.jwt = [] := List.length_eq_zero_iff.mp (by omega)
    rw [this]
    rfl

theorem find?_none_all {α : Type} (p : α → Bool) (l : List α) : l.find? p = none ↔ (l.all fun x => !p x) = true := by
  simp [List.find?_eq_none]

theorem pathStage_some? {J : Type} (E : Regexp) (c : Config J) :
    (pathStage E c).1.some? = c.compileRoutePaths E ∧ (pathStage E c).1 ≠ .crashes := by
  unfold pathStage Config.compileRoutePaths
  cases hf : c.routes.find? fun r => !E.compiles ('^' :: r.path) with
  | none =>
    have := (find?_none_all _ _).1 hf
    simp only [Bool.not_not] at this
    rw [if_pos this]
    exact ⟨rfl, by intro h; cases h⟩
  | some r =>
    have : ¬ (c.routes.all fun r => E.compiles ('^' :: r.path)) = true := by
      intro h
      have := (find?_none_all (fun r : Route => !E.compiles ('^' :: r.path)) c.routes).2 (by simpa using h)
      rw [hf] at this; cases this
    rw [if_neg this]
    exact ⟨rfl, by intro h; cases h⟩

theorem transformStage_some? {J : Type} (c : Config J) :
    (transformStage c).1.some? = c.compileRouteTransforms ∧ (transformStage c).1 ≠ .crashes := by
  unfold transformStage Config.compileRouteTransforms
  cases hf : c.routes.find? fun r => 0 < r.transform.length && !(r.transform.take 1 == ['/']) with
  | none =>
    rw [if_pos ((find?_none_all _ _).1 hf)]
    exact ⟨rfl, by intro h; cases h⟩
  | some r =>
    rw [if_neg (fun h => by have := (find?_none_all _ _).2 h; rw [hf] at this; cases this)]
    exact ⟨rfl, by intro h; cases h⟩

theorem routeStage_some? {J : Type} (srt : List Route → List Route) (c : Config J) :
    (routeStage srt c).1.some? = c.validateRoutes srt ∧ (routeStage srt c).1 ≠ .crashes := by
  unfold routeStage Config.validateRoutes
  have e : (fun r : Route => !r.hasJwt || (c.jwt.lookup r.jwt).isSome) =
      fun r => !(r.hasJwt && (c.jwt.lookup r.jwt).isNone) := by
    funext r
    cases r.hasJwt <;> cases c.jwt.lookup r.jwt <;> rfl
  rw [e]
  cases hf : c.routes.find? fun r => r.hasJwt && (c.jwt.lookup r.jwt).isNone with
  | none =>
    rw [if_pos ((find?_none_all _ _).1 hf)]
    exact ⟨rfl, by intro h; cases h⟩
  | some r =>
    rw [if_neg (fun h => by have := (find?_none_all _ _).2 h; rw [hf] at this; cases this)]
    exact ⟨rfl, by intro h; cases h⟩

theorem jwtPresent_reApply (c : Config (Option (Jwt K))) :
    c.reApplyResourceSchemes.reApplyResourceNames.jwtPresent =
      c.jwtPresent.map fun c => c.reApplyResourceSchemes.reApplyResourceNames := by
  unfold Config.jwtPresent Config.reApplyResourceNames Config.reApplyResourceSchemes
  cases c.jwt.mapM fun (e : Str × Option (Jwt K)) => e.2.map fun j => (e.1, j) <;> rfl

theorem bootLogged_some? (B : Machinery K) (c : Config (Option (Jwt K))) :
    (bootLogged B c).1.some? = c.jwtPresent.bind (boot B.E B.validate B.srt) := by
  unfold bootLogged boot
  rw [Logged.then_some?, jwtStage_some?, jwtPresent_reApply]
  cases c.jwtPresent with
  | none => rfl
  | some c =>
    simp only [Option.map_some, Option.bind_some, Option.bind_eq_bind]
    cases Config.validateJwt B.validate c.reApplyResourceSchemes.reApplyResourceNames with
    | none => rfl
    | some c =>
      simp only [Option.bind_some]
      rw [Logged.then_some?, (pathStage_some? _ _).1]
      cases c.compileRoutePaths B.E with
      | none => rfl
      | some c =>
        simp only [Option.bind_some]
        rw [Logged.then_some?, (transformStage_some? _).1]
        cases c.compileRouteTransforms with
        | none => rfl
        | some c =>
          simp only [Option.bind_some]
          rw [Logged.then_some?, (routeStage_some? _ _).1]
          cases c.validateRoutes B.srt <;> rfl

theorem addAboutLogged_some? : ∀ (rs : List Route) (x : Mux), (addAboutLogged rs x).1.some? = Mux.addAbout rs x := by
  intro rs
  induction rs with
  | nil => intro x; rfl
  | cons r rs ih =>
    intro x
    simp only [addAboutLogged, Mux.addAbout]
    by_cases h : r.resource = "about".toList
    · rw [if_pos h, if_pos h]
      cases x.handle r.path .about with
      | none => rfl
      | some y => rw [Logged.then_some?]; exact ih y
    · rw [if_neg h, if_neg h]; exact ih x

theorem muxStage_some? (routes : List Route) : (muxStage routes).1.some? = mapPathsToHandler routes := by
  unfold muxStage mapPathsToHandler
  rw [Logged.then_some?, addAboutLogged_some?]
  cases Mux.addAbout routes {} with
  | none => rfl
  | some x =>
    simp only [Option.bind_some]
    cases x.handle ['/'] .proxy <;> rfl

/-- The certificate and key start a TLS listener. -/
abbrev Machinery.tlsStarts (B : Machinery K) : Str → Str → Bool := startTls B.parse B.verify B.keyPair B.now

theorem startLogged_some? (B : Machinery K) (c : Config (Jwt K)) :
    (startLogged B c).1.some? = match start B.tlsStarts c with
      | .exits => none
      | s => if B.free c.connection.downstream.port then some s else none := by
  unfold startLogged start
  dsimp only
  rw [Logged.then_some?]
  show ((muxStage c.routes).then _).1.some? = _
  rw [Logged.then_some?, muxStage_some?]
  have hl : ∀ (mode : Str) (port : Int) (s : Serving), (listenLogged B mode port s).1.some? =
      if listen port && B.free port then some s else none := by
    intro mode port s
    unfold listenLogged
    rw [Logged.then_some?]
    show (if listen port && B.free port then goesOn s else startFailed port (B.listenText port)).1.some? = _
    split <;> rfl
  cases mapPathsToHandler c.routes with
  | none => rfl
  | some x =>
    simp only [Option.bind_some]
    unfold Downstream.serve
    generalize c.connection.downstream = d
    by_cases ht : d.isTLSMode = true
    · rw [if_pos ht, if_pos ht]
      unfold Machinery.tlsStarts startTls
      cases tlsConfig B.parse B.keyPair d.cert d.key with
      | none => rfl
      | some chain =>
        dsimp only
        obtain ⟨k, hk⟩ : ∃ k, checkCertChain B.parse B.verify B.now chain = k := ⟨_, rfl⟩
        cases k with
        | panic => simp only [hk]; rfl
        | error => simp only [hk]; rfl
        | ok links =>
          simp only [hk]
          rw [hl, if_pos trivial]
          dsimp only
          cases listen d.port <;> cases B.free d.port <;> rfl
    · rw [if_neg ht, if_neg ht]
      rw [hl]
      dsimp only
      cases listen d.port <;> cases B.free d.port <;> rfl

/-- The gateway serves when the model without log says so and the port is free. -/
theorem bootStrap_some? (B : Machinery K) (s : Sources) :
    (bootStrap B s).1.some? = (bootFrom B.yamlToJson B.E B.validate B.srt s).bind fun c =>
      match start B.tlsStarts c with
      | .exits => none
      | sv => if B.free c.connection.downstream.port then some sv else none := by
  unfold bootStrap bootFrom
  rw [Logged.then_some?, (loadLogged_some? _ _ _).1]
  cases load (parseConfig B.yamlToJson) (·.routes.length) s with
  | none => rfl
  | some c =>
    simp only [Option.bind_some]
    rw [Logged.then_some?, bootLogged_some?]
    cases c.jwtPresent.bind (boot B.E B.validate B.srt) with
    | none => rfl
    | some c => exact startLogged_some? B c

/-! ## How it ends -/

/-- No line is fatal. -/
def NoFatal (ls : List ZEvent) : Prop := ∀ e ∈ ls, e.level ≠ .fatal

theorem NoFatal.nil : NoFatal [] := fun _ h => nomatch h

theorem NoFatal.append {a b : List ZEvent} (ha : NoFatal a) (hb : NoFatal b) : NoFatal (a ++ b) := fun e he =>
  (List.mem_append.1 he).elim (ha e) (hb e)

theorem NoFatal.one {e : ZEvent} (h : e.level ≠ .fatal) : NoFatal [e] := fun x hx => by
  rw [List.mem_singleton.1 hx]; exact h

/-- `P` holds of the last line when the process exits, `C` when it crashes; no other line is fatal. -/
def Logged.Ends {α : Type} (P : ZEvent → Prop) (C : Prop) (x : Logged α) : Prop :=
  match x.1 with
  | .goes _ => NoFatal x.2
  | .exits => ∃ ls f, x.2 = ls ++ [f] ∧ NoFatal ls ∧ f.level = .fatal ∧ P f
  | .crashes => NoFatal x.2 ∧ C

theorem Logged.Ends.then {α β : Type} {P : ZEvent → Prop} {C : Prop} {x : Logged α} {f : α → Logged β}
    (hx : x.Ends P C) (hf : ∀ a, x.1 = .goes a → (f a).Ends P C) : (x.then f).Ends P C := by
  obtain ⟨b, ls⟩ := x
  cases b with
  | exits => exact hx
  | crashes => exact hx
  | goes a =>
    have h := hf a rfl
    have hc : NoFatal ls := hx
    unfold Logged.then Logged.Ends
    unfold Logged.Ends at h
    dsimp only
    generalize f a = y at h ⊢
    obtain ⟨b, ms⟩ := y
    cases b with
    | goes _ => exact hc.append h
    | crashes => exact ⟨hc.append h.1, h.2⟩
    | exits =>
      obtain ⟨ls', e, h1, h2, h3⟩ := h
      dsimp only at h1 ⊢
      exact ⟨ls ++ ls', e, by rw [h1, List.append_assoc], hc.append h2, h3⟩

theorem Logged.Ends.goesOn {α : Type} {P : ZEvent → Prop} {C : Prop} (a : α) : (goesOn a).Ends P C := NoFatal.nil

theorem Logged.Ends.say {P : ZEvent → Prop} {C : Prop} {e : ZEvent} (h : e.level ≠ .fatal) : (say e).Ends P C :=
  NoFatal.one h

theorem Logged.Ends.exit {α : Type} {P : ZEvent → Prop} {C : Prop} {e : ZEvent} (h : e.level = .fatal) (hp : P e) :
    Logged.Ends (α := α) P C (.exits, [e]) := ⟨[], e, rfl, NoFatal.nil, h, hp⟩

/-- Every line is of level debug or warn. -/
def Low (ls : List ZEvent) : Prop := ∀ e ∈ ls, e.level = .debug ∨ e.level = .warn

theorem Low.nil : Low [] := fun _ h => nomatch h

theorem Low.append {a b : List ZEvent} (ha : Low a) (hb : Low b) : Low (a ++ b) := fun e he =>
  (List.mem_append.1 he).elim (ha e) (hb e)

theorem Low.one {e : ZEvent} (h : e.level = .debug ∨ e.level = .warn) : Low [e] := fun x hx => by
  rw [List.mem_singleton.1 hx]; exact h

theorem Low.noFatal {ls : List ZEvent} (h : Low ls) : NoFatal ls := fun e he hf => by
  rcases h e he with h | h <;> rw [hf] at h <;> cases h

theorem loadLoopLogged_low (T : KeyTexts K) (ks : List (Jwk K)) : ∀ (j : Jwt K) (err : Option Str),
    Low (loadLoopLogged T j err ks).2 := by
  induction ks with
  | nil => intro j err; exact Low.nil
  | cons k ks ih =>
    intro j err
    have hgo : ∀ (n : Str) (j : Jwt K) (err : Option Str), Low (parsedRemote n k.alg :: (loadLoopLogged T j err ks).2) :=
      fun n j err => Low.append (a := [_]) (Low.one (.inl rfl)) (ih j err)
    simp only [loadLoopLogged]
    by_cases h : j.alg = k.alg
    · rw [if_neg (fun hn => hn h)]
      by_cases hv : k.alg ∈ validAlg
      · rw [if_neg (fun hn => hn hv)]
        generalize family k.alg = f
        cases f <;> cases k.raw <;> dsimp only
        all_goals first
          | exact hgo _ _ _
          | exact Low.nil
          | (split <;> exact hgo _ _ _)
      · rw [if_pos hv]; exact Low.nil
    · rw [if_pos h]
      exact Low.one (.inr rfl)

theorem loadJwksLogged_low (T : KeyTexts K) (j : Jwt K) (doc : Option (List (Jwk K))) :
    Low (loadJwksLogged T j doc).2 := by
  match doc with
  | none => exact Low.one (.inr rfl)
  | some [] => exact Low.one (.inl rfl)
  | some (k :: ks) => exact Low.append (a := [_]) (Low.one (.inl rfl)) (loadLoopLogged_low T _ _ _)

theorem parseKeyLogged_low (X : X509 K) (hmacKey : Str → K) (uuid : Str) (j : Jwt K) (hk : 0 < j.key.length) :
    Low (parseKeyLogged X hmacKey uuid j).2 := by
  have hp : Low [parsedStatic j.name j.alg] := Low.one (.inl rfl)
  rcases parseKeyLogged_static X hmacKey uuid j hk with h | ⟨_, _, _, _, h⟩
  · simp only [List.mem_cons, Prod.mk.injEq, List.not_mem_nil, or_false] at h
    rcases h with h | h | h | h | h | h | h | h | h <;> rw [h.1]
    all_goals first
      | exact Low.nil
      | exact hp
  · rw [(Prod.mk.inj h).1]; exact hp

theorem validateLogged_low (X : X509 K) (hmacKey : Str → K) (T : KeyTexts K) (uuid : Str)
    (fetch : Str → Option (List (Jwk K))) (j : Jwt K) : Low (j.validateLogged X hmacKey T uuid fetch).2 := by
  rcases validateLogged_cases X hmacKey T uuid fetch j with ⟨_, h⟩ | ⟨skew, _, ⟨hk, h⟩ | ⟨_, _, h⟩ | ⟨_, _, _, h⟩⟩ <;>
    rw [h]
  · exact Low.nil
  · exact parseKeyLogged_low X hmacKey uuid { j with acceptableSkewSeconds := skew } hk
  · exact loadJwksLogged_low T _ _
  · exact Low.nil

theorem validateLogged_calm (X : X509 K) (hmacKey : Str → K) (T : KeyTexts K) (uuid : Str)
    (fetch : Str → Option (List (Jwk K))) (j : Jwt K) : NoFatal (j.validateLogged X hmacKey T uuid fetch).2 :=
  (validateLogged_low X hmacKey T uuid fetch j).noFatal

theorem addAboutLogged_ends {P : ZEvent → Prop} {C : Prop} : ∀ (rs : List Route) (x : Mux),
    (Mux.addAbout rs x = none → C) → (addAboutLogged rs x).Ends P C := by
  intro rs
  induction rs with
  | nil => intro x _; exact .goesOn _
  | cons r rs ih =>
    intro x hC
    simp only [addAboutLogged]
    simp only [Mux.addAbout] at hC
    by_cases h : r.resource = "about".toList
    · rw [if_pos h]
      rw [if_pos h] at hC
      cases hx : x.handle r.path .about with
      | none => rw [hx] at hC; exact ⟨NoFatal.nil, hC rfl⟩
      | some y =>
        rw [hx] at hC
        exact (Logged.Ends.say (by intro h; cases h)).then fun _ _ => ih y hC
    · rw [if_neg h]
      rw [if_neg h] at hC
      exact ih x hC

theorem muxStage_ends {P : ZEvent → Prop} {C : Prop} (routes : List Route) (hC : mapPathsToHandler routes = none → C) :
    (muxStage routes).Ends P C := by
  unfold mapPathsToHandler at hC
  refine (addAboutLogged_ends routes {} fun h => hC (by rw [h])).then fun x hx => ?_
  have := (addAboutLogged_some? routes {}).symm.trans (Booted.some?_eq.2 hx)
  rw [this] at hC
  dsimp only at hC ⊢
  cases hy : x.handle ['/'] .proxy with
  | none => exact ⟨NoFatal.nil, hC hy⟩
  | some y => exact (Logged.Ends.say (by intro h; cases h)).then fun _ _ => .goesOn _

end J8a

import Verif.Props.BootLog
/-!
# What the log of a start says: C157, C158
-/
namespace J8a
open Go

variable {K : Type}

/-! ## C157 what the log says about the start is true -/

theorem Logged.then_snd {α β : Type} {x : Logged α} {f : α → Logged β} {a : α} (h : x.1 = .goes a) :
    (x.then f).1 = (f a).1 ∧ (x.then f).2 = x.2 ++ (f a).2 := by
  unfold Logged.then
  rw [h]
  exact ⟨rfl, rfl⟩

theorem Logged.mem_then {α β : Type} {x : Logged α} {f : α → Logged β} {e : ZEvent} (h : e ∈ (x.then f).2) :
    e ∈ x.2 ∨ ∃ a, x.1 = .goes a ∧ e ∈ (f a).2 := by
  obtain ⟨b, ls⟩ := x
  cases b with
  | goes a => exact (List.mem_append.1 h).imp id fun h => ⟨a, rfl, h⟩
  | exits => exact .inl h
  | crashes => exact .inl h

/-- The line about the source. -/
inductive Attempt (s : Sources) : Str → Prop
  | file (name : Str) : name ≠ [] → s.flag = some name →
      Attempt s ("attempting config from file '".toList ++ name ++ "'".toList)
  | env : (s.flag = none ∨ s.flag = some []) → s.env ≠ [] → Attempt s "attempting config from env J8ACFG_YML".toList
  | fallback : (s.flag = none ∨ s.flag = some []) → s.env = [] →
      Attempt s "attempting config from default file 'j8acfg.yml'".toList

theorem loadLogged_lines (B : Machinery K) (s : Sources) : ∃ m rest,
    (loadLogged (parseConfig (K := K) B.yamlToJson) (·.routes.length) s).2 = ⟨.debug, [], m⟩ :: rest ∧ Attempt s m ∧
    (∀ c, (loadLogged (parseConfig (K := K) B.yamlToJson) (·.routes.length) s).1 = .goes c →
      rest = [⟨.debug, [], "parsed config with ".toList ++ natToDec c.routes.length ++ " live routes".toList⟩]) ∧
    ∀ e ∈ rest, e.level ≠ .info := by
  have hcheck : ∀ (origin : Str) (c : Config (Option (Jwt K))),
      let y := (if configOk (fun c : Config (Option (Jwt K)) => c.routes.length) c then
          (say (debugLine ("parsed config with ".toList ++ natToDec c.routes.length ++ " live routes".toList))).then
            fun _ => goesOn c
        else refuse ("error loading config from ".toList ++ origin) : Logged (Config (Option (Jwt K))))
      (∀ c, y.1 = .goes c →
        y.2 = [⟨.debug, [], "parsed config with ".toList ++ natToDec c.routes.length ++ " live routes".toList⟩]) ∧
      ∀ e ∈ y.2, e.level ≠ .info := by
    intro origin c
    dsimp only
    split
    · refine ⟨fun c h => ?_, fun e he => ?_⟩
      · cases h; rfl
      · rcases List.mem_singleton.1 he with rfl; intro h; cases h
    · refine ⟨fun c h => ?_, fun e he => ?_⟩
      · cases h
      · rcases List.mem_singleton.1 he with rfl; intro h; cases h
  have hfile : ∀ (origin name : Str),
      let y := ((readYmlFileLogged (parseConfig (K := K) B.yamlToJson) s name).then fun c =>
        if configOk (fun c : Config (Option (Jwt K)) => c.routes.length) c then
          (say (debugLine ("parsed config with ".toList ++ natToDec c.routes.length ++ " live routes".toList))).then fun _ => goesOn c
        else refuse ("error loading config from ".toList ++ origin))
      (∀ c, y.1 = .goes c →
        y.2 = [⟨.debug, [], "parsed config with ".toList ++ natToDec c.routes.length ++ " live routes".toList⟩]) ∧
      ∀ e ∈ y.2, e.level ≠ .info := by
    intro origin name
    dsimp only
    unfold readYmlFileLogged
    cases s.files name with
    | none =>
      refine ⟨fun c h => ?_, fun e he => ?_⟩
      · cases h
      · rcases List.mem_singleton.1 he with rfl; intro h; cases h
    | some text => exact hcheck origin (parseConfig B.yamlToJson text)
  unfold loadLogged
  dsimp only
  by_cases h : 0 < s.configFile.length
  · rw [if_pos h]
    have : s.flag = some s.configFile := by
      unfold Sources.configFile at h ⊢
      cases hf : s.flag with
      | none => rw [hf] at h; exact absurd h (by simp)
      | some n => rfl
    refine ⟨_, _, rfl, ?_, hfile _ _⟩
    have := Attempt.file (s := s) s.configFile (by intro h'; rw [h'] at h; exact absurd h (by simp)) this
    rw [show "attempting config from file '".toList = "attempting config from file ".toList ++ ['\''] from rfl] at this
    simpa using this
  · rw [if_neg h]
    have hflag : s.flag = none ∨ s.flag = some [] := by
      unfold Sources.configFile at h
      cases hf : s.flag with
      | none => exact .inl rfl
      | some n =>
        rw [hf] at h
        cases n with
        | nil => exact .inr rfl
        | cons _ _ => exact absurd (by simp) h
    by_cases h2 : 0 < s.env.length
    · rw [if_pos h2]
      exact ⟨_, _, rfl, .env hflag (by intro h'; rw [h'] at h2; exact absurd h2 (by simp)), hcheck _ _⟩
    · rw [if_neg h2]
      exact ⟨_, _, rfl, .fallback hflag (List.length_eq_zero_iff.1 (by omega)), hfile _ _⟩

theorem validateJwtLogged_lines (B : Machinery K) (count : Nat) : ∀ es : List (Str × Option (Jwt K)),
    (∀ js, (validateJwtLogged B count es).1 = .goes js → ∃ J, (∀ e ∈ J, "jwt [".toList <+: e.msg) ∧ Low J ∧
      (validateJwtLogged B count es).2 =
        J ++ [⟨.debug, [], "parsed ".toList ++ natToDec count ++ " jwt configurations".toList⟩]) ∧
    ∀ e ∈ (validateJwtLogged B count es).2, e.level ≠ .info := by
  intro es
  induction es with
  | nil =>
    refine ⟨fun js _ => ⟨[], by simp, Low.nil, rfl⟩, fun e he => ?_⟩
    rcases List.mem_singleton.1 he with rfl; intro h; cases h
  | cons e es ih =>
    obtain ⟨n, oj⟩ := e
    cases oj with
    | none => exact ⟨fun js h => (nomatch h), fun e he => (nomatch he)⟩
    | some j =>
      have hlow := validateLogged_low B.X B.hmacKey B.T (B.uuid n) (B.fetch n) { j with name := n }
      have htag := validateLogged_tag B.X B.hmacKey B.T (B.uuid n) (B.fetch n) { j with name := n }
      simp only [validateJwtLogged]
      generalize Jwt.validateLogged B.X B.hmacKey B.T (B.uuid n) (B.fetch n) { j with name := n } = r at hlow htag
      obtain ⟨a, ls⟩ := r
      have hni : ∀ e ∈ ls, e.level ≠ .info := fun e he h => by
        rcases hlow e he with h' | h' <;> rw [h] at h' <;> cases h'
      cases a with
      | panic => exact ⟨fun js h => (nomatch h), hni⟩
      | done j' err =>
        cases err with
        | some err =>
          refine ⟨fun js h => (nomatch h), fun e he => ?_⟩
          rcases List.mem_append.1 he with he | he
          · exact hni e he
          · rcases List.mem_singleton.1 he with rfl; intro h; cases h
        | none =>
          dsimp only
          refine ⟨fun js h => ?_, fun e he => ?_⟩
          · obtain ⟨-, -, h⟩ := Logged.then_goes h
            obtain ⟨js', h1, -⟩ := Logged.then_goes h
            obtain ⟨J, hJ1, hJ2, hJ3⟩ := ih.1 js' h1
            refine ⟨ls ++ J, fun e he => ?_, hlow.append hJ2, ?_⟩
            · exact (List.mem_append.1 he).elim (htag e) (hJ1 e)
            · rw [(Logged.then_snd rfl).2, (Logged.then_snd h1).2, hJ3]
              simp [goesOn]
          · rcases Logged.mem_then he with he | ⟨_, _, he⟩
            · exact hni e he
            · rcases Logged.mem_then he with he | ⟨_, _, he⟩
              · exact ih.2 e he
              · cases he

theorem jwtStage_lines (B : Machinery K) (c : Config (Option (Jwt K))) :
    (∀ c', (jwtStage B c).1 = .goes c' → ∃ J, (∀ e ∈ J, "jwt [".toList <+: e.msg) ∧ Low J ∧ (jwtStage B c).2 =
        if c.jwt = [] then [] else
          J ++ [⟨.debug, [], "parsed ".toList ++ natToDec c.jwt.length ++ " jwt configurations".toList⟩]) ∧
    ∀ e ∈ (jwtStage B c).2, e.level ≠ .info := by
  have hv := validateJwtLogged_lines B c.jwt.length c.jwt
  unfold jwtStage
  by_cases hl : 0 < c.jwt.length
  · rw [if_pos hl]
    have hne : c.jwt ≠ [] := by intro h; rw [h] at hl; exact absurd hl (by simp)
    refine ⟨fun c' h => ?_, fun e he => ?_⟩
    · obtain ⟨js, h1, -⟩ := Logged.then_goes h
      obtain ⟨J, hJ1, hJ2, hJ3⟩ := hv.1 js h1
      refine ⟨J, hJ1, hJ2, ?_⟩
      rw [if_neg hne, (Logged.then_snd h1).2, hJ3]
      simp [goesOn]
    · rcases Logged.mem_then he with he | ⟨_, _, he⟩
      · exact hv.2 e he
      · cases he
  · rw [if_neg hl]
    refine ⟨fun c' h => ⟨[], by simp, Low.nil, ?_⟩, fun e he => (nomatch he)⟩
    rw [if_pos (List.length_eq_zero_iff.1 (by omega))]
    rfl

/-- The three checks of the routes log nothing when they succeed, and no line of level info. -/
theorem stage_lines {J : Type} (B : Machinery K) (c : Config J) :
    (∀ c', (pathStage B.E c).1 = .goes c' → (pathStage B.E c).2 = []) ∧
    (∀ c', (transformStage c).1 = .goes c' → (transformStage c).2 = []) ∧
    (∀ c', (routeStage B.srt c).1 = .goes c' → (routeStage B.srt c).2 = []) ∧
    (∀ e ∈ (pathStage B.E c).2, e.level ≠ .info) ∧ (∀ e ∈ (transformStage c).2, e.level ≠ .info) ∧
    ∀ e ∈ (routeStage B.srt c).2, e.level ≠ .info := by
  have hr : ∀ (msg : Str), ∀ e ∈ (refuse msg : Logged (Config J)).2, e.level ≠ .info := by
    intro msg e he
    rcases List.mem_singleton.1 he with rfl; intro h; cases h
  unfold pathStage transformStage routeStage
  refine ⟨fun c' => ?_, fun c' => ?_, fun c' => ?_, ?_, ?_, ?_⟩
  · split
    · intro h; cases h
    · intro _; rfl
  · split
    · intro h; cases h
    · intro _; rfl
  · split
    · intro h; cases h
    · intro _; rfl
  · split
    · exact hr _
    · intro e he; cases he
  · split
    · exact hr _
    · intro e he; cases he
  · split
    · exact hr _
    · intro e he; cases he

theorem bootLogged_lines (B : Machinery K) (c : Config (Option (Jwt K))) :
    (∀ c', (bootLogged B c).1 = .goes c' → ∃ J, (∀ e ∈ J, "jwt [".toList <+: e.msg) ∧ Low J ∧ (bootLogged B c).2 =
        (if c.jwt = [] then [] else
          J ++ [⟨.debug, [], "parsed ".toList ++ natToDec c.jwt.length ++ " jwt configurations".toList⟩]) ++
        [⟨.debug, [("upMaxIdleConns".toList, .int c'.connection.upstream.poolSize),
          ("upMaxIdleConnsPerHost".toList, .int c'.connection.upstream.poolSize),
          ("upTlsInsecureSkipVerify".toList, .bool c'.connection.upstream.tlsInsecureSkipVerify)],
          "server derived upstream params".toList⟩]) ∧
    ∀ e ∈ (bootLogged B c).2, e.level ≠ .info := by
  have hv := jwtStage_lines B c.reApplyResourceSchemes.reApplyResourceNames
  unfold bootLogged
  refine ⟨fun c' h => ?_, fun e he => ?_⟩
  · obtain ⟨c1, h1, h⟩ := Logged.then_goes h
    obtain ⟨J, hJ1, hJ2, hJ3⟩ := hv.1 c1 h1
    obtain ⟨c2, h2, h⟩ := Logged.then_goes h
    obtain ⟨c3, h3, h⟩ := Logged.then_goes h
    obtain ⟨c4, h4, h⟩ := Logged.then_goes h
    refine ⟨J, hJ1, hJ2, ?_⟩
    rw [(Logged.then_snd h1).2, (Logged.then_snd h2).2, (Logged.then_snd h3).2, (Logged.then_snd h4).2,
      (stage_lines B c1).1 _ h2, (stage_lines B c2).2.1 _ h3, (stage_lines B c3).2.2.1 _ h4, hJ3]
    obtain ⟨-, -, h⟩ := Logged.then_goes h
    cases h
    rfl
  · rcases Logged.mem_then he with he | ⟨c1, -, he⟩
    · exact hv.2 e he
    rcases Logged.mem_then he with he | ⟨c2, -, he⟩
    · exact (stage_lines B c1).2.2.2.1 e he
    rcases Logged.mem_then he with he | ⟨c3, -, he⟩
    · exact (stage_lines B c2).2.2.2.2.1 e he
    rcases Logged.mem_then he with he | ⟨c4, -, he⟩
    · exact (stage_lines B c3).2.2.2.2.2 e he
    rcases Logged.mem_then he with he | ⟨_, _, he⟩
    · rcases List.mem_singleton.1 he with rfl; intro h; cases h
    · cases he

theorem addAboutLogged_lines : ∀ (rs : List Route) (x : Mux),
    (∀ y, (addAboutLogged rs x).1 = .goes y → (addAboutLogged rs x).2 = (aboutPaths rs).map aboutLine) ∧
    ∀ e ∈ (addAboutLogged rs x).2, e.level ≠ .info := by
  intro rs
  induction rs with
  | nil => intro x; exact ⟨fun _ _ => rfl, fun e he => (nomatch he)⟩
  | cons r rs ih =>
    intro x
    simp only [addAboutLogged]
    rw [aboutPaths_cons]
    by_cases h : r.resource = "about".toList
    · rw [if_pos h, if_pos h]
      cases x.handle r.path .about with
      | none => exact ⟨fun y h => (nomatch h), fun e he => (nomatch he)⟩
      | some y =>
        dsimp only
        refine ⟨fun z hz => ?_, fun e he => ?_⟩
        · rw [(Logged.then_snd rfl).2, (ih y).1 z hz]
          rfl
        · rcases Logged.mem_then he with he | ⟨_, _, he⟩
          · rcases List.mem_singleton.1 he with rfl; intro h; cases h
          · exact (ih y).2 e he
    · rw [if_neg h, if_neg h]; exact ih x

theorem muxStage_lines (routes : List Route) :
    (∀ y, (muxStage routes).1 = .goes y → (muxStage routes).2 =
      (aboutPaths routes).map aboutLine ++ [⟨.debug, [], "assigned proxy handler to path /".toList⟩]) ∧
    ∀ e ∈ (muxStage routes).2, e.level ≠ .info := by
  have ha := addAboutLogged_lines routes {}
  unfold muxStage
  refine ⟨fun y h => ?_, fun e he => ?_⟩
  · obtain ⟨x, h1, h⟩ := Logged.then_goes h
    rw [(Logged.then_snd h1).2, ha.1 x h1]
    split at h
    · rfl
    · cases h
  · rcases Logged.mem_then he with he | ⟨x, -, he⟩
    · exact ha.2 e he
    · split at he
      · rcases Logged.mem_then he with he | ⟨_, _, he⟩
        · rcases List.mem_singleton.1 he with rfl; intro h; cases h
        · cases he
      · cases he

/-- How the gateway serves, in words. -/
inductive Mode : Serving → Str → Int → Prop
  | tls (port : Int) : Mode (.tls port) "TLS".toList port
  | plain (port : Int) : Mode (.plain port) "HTTP".toList port

theorem startLogged_lines (B : Machinery K) (c : Config (Jwt K)) :
    (∀ sv, (startLogged B c).1 = .goes sv → ∃ mode port, Mode sv mode port ∧ (startLogged B c).2 =
      [⟨.debug, [("dwnMaxBodyBytes".toList, .int c.connection.downstream.maxBodyBytes)],
        "server derived downstream params".toList⟩] ++ (aboutPaths c.routes).map aboutLine ++
      [⟨.debug, [], "assigned proxy handler to path /".toList⟩, listeningLine B.version mode port]) ∧
    ∀ e ∈ (startLogged B c).2, e.level = .info → ∃ mode sv,
      e = listeningLine B.version mode c.connection.downstream.port ∧ Mode sv mode c.connection.downstream.port ∧
      (c.connection.downstream.isTLSMode = true ↔ mode = "TLS".toList) ∧
      (startLogged B c).1 = if listen c.connection.downstream.port && B.free c.connection.downstream.port then
        .goes sv else .exits := by
  have hm := muxStage_lines c.routes
  have hl : ∀ mode port sv', (∀ sv, (listenLogged B mode port sv').1 = .goes sv → sv = sv' ∧
      (listenLogged B mode port sv').2 = [listeningLine B.version mode port]) ∧
      (∀ e ∈ (listenLogged B mode port sv').2, e.level = .info → e = listeningLine B.version mode port) ∧
      (listenLogged B mode port sv').1 = if listen port && B.free port then .goes sv' else .exits := by
    intro mode port sv'
    unfold listenLogged
    by_cases h : (listen port && B.free port) = true
    · rw [if_pos h, if_pos h]
      refine ⟨fun sv h => ?_, fun e he _ => ?_, rfl⟩
      · cases h; exact ⟨rfl, rfl⟩
      · exact List.mem_singleton.1 he
    · rw [if_neg h, if_neg h]
      refine ⟨fun sv h => (nomatch h), fun e he hi => ?_, rfl⟩
      rcases Logged.mem_then he with he | ⟨_, _, he⟩
      · exact List.mem_singleton.1 he
      · rcases List.mem_singleton.1 he with rfl; cases hi
  unfold startLogged
  dsimp only
  refine ⟨fun sv h => ?_, fun e he hi => ?_⟩
  · obtain ⟨-, -, h⟩ := Logged.then_goes h
    obtain ⟨x, hx, h⟩ := Logged.then_goes h
    rw [(Logged.then_snd rfl).2, (Logged.then_snd hx).2, hm.1 x hx]
    by_cases ht : c.connection.downstream.isTLSMode = true
    · rw [if_pos ht] at h ⊢
      split at h
      · cases h
      · split at h
        · cases h
        · cases h
        · obtain ⟨rfl, h2⟩ := (hl _ _ _).1 sv h
          refine ⟨_, _, .tls _, ?_⟩
          rw [h2]
          simp [say]
    · rw [if_neg ht] at h ⊢
      obtain ⟨rfl, h2⟩ := (hl _ _ _).1 sv h
      refine ⟨_, _, .plain _, ?_⟩
      rw [h2]
      simp [say]
  · rcases Logged.mem_then he with he | ⟨_, _, he⟩
    · rcases List.mem_singleton.1 he with rfl; cases hi
    rcases Logged.mem_then he with he | ⟨x, hx, he⟩
    · exact absurd hi (hm.2 e he)
    rw [(Logged.then_snd rfl).1, (Logged.then_snd hx).1]
    by_cases ht : c.connection.downstream.isTLSMode = true
    · rw [if_pos ht] at he ⊢
      cases hk : tlsConfig B.parse B.keyPair c.connection.downstream.cert c.connection.downstream.key with
      | none =>
        rw [hk] at he
        rcases List.mem_singleton.1 he with rfl; cases hi
      | some chain =>
        rw [hk] at he
        dsimp only at he ⊢
        obtain ⟨k, hch⟩ : ∃ k, checkCertChain B.parse B.verify B.now chain = k := ⟨_, rfl⟩
        rw [hch] at he ⊢
        cases k with
        | panic => cases he
        | error => rcases List.mem_singleton.1 he with rfl; cases hi
        | ok links => exact ⟨_, _, (hl _ _ _).2.1 e he hi, .tls _, by simp [ht], (hl _ _ _).2.2⟩
    · rw [if_neg ht] at he ⊢
      exact ⟨_, _, (hl _ _ _).2.1 e he hi, .plain _, by simp only [ht]; decide, (hl _ _ _).2.2⟩

theorem wantsTls_setDefaults (d : Downstream) : d.setDefaults.isTLSMode = true ↔ d.wantsTls := isTLSMode_setDefaults d

/-- C157, part: the log of a gateway that started, line by line. It gives the source of the configuration, how many routes
and jwt entries there are, the pool size, the limit of bodies, every about route, and the mode and port of the
listener. -/
theorem C157_started_partial (B : Machinery K) (hs : IsRouteSort B.srt) (s : Sources) (sv : Serving)
    (h : (bootStrap B s).1 = .goes sv) :
    ∃ (c : Config (Option (Jwt K))) (attempt : Str) (J : List ZEvent) (A : List Str) (mode : Str) (port : Int),
      s.Say B.yamlToJson c ∧ Attempt s attempt ∧ (∀ e ∈ J, "jwt [".toList <+: e.msg) ∧
      A.Perm ((aboutPaths c.routes).map withSlash) ∧ Mode sv mode port ∧ c.connection.downstream.wantedPort port ∧
      (bootStrap B s).2 =
        [⟨.debug, [], attempt⟩,
         ⟨.debug, [], "parsed config with ".toList ++ natToDec c.routes.length ++ " live routes".toList⟩] ++
        (if c.jwt = [] then [] else
          J ++ [⟨.debug, [], "parsed ".toList ++ natToDec c.jwt.length ++ " jwt configurations".toList⟩]) ++
        [⟨.debug, [("upMaxIdleConns".toList, .int (if c.connection.upstream.poolSize = 0 then 32768 else c.connection.upstream.poolSize)),
           ("upMaxIdleConnsPerHost".toList, .int (if c.connection.upstream.poolSize = 0 then 32768 else c.connection.upstream.poolSize)),
           ("upTlsInsecureSkipVerify".toList, .bool c.connection.upstream.tlsInsecureSkipVerify)],
           "server derived upstream params".toList⟩,
         ⟨.debug, [("dwnMaxBodyBytes".toList, .int (if c.connection.downstream.maxBodyBytes = 0 then 2097152
             else c.connection.downstream.maxBodyBytes))], "server derived downstream params".toList⟩] ++
        A.map (fun p => ⟨.debug, [], "assigned about handler to path ".toList ++ p⟩) ++
        [⟨.debug, [], "assigned proxy handler to path /".toList⟩,
         ⟨.info, [], "j8a ".toList ++ B.version ++ " listening in ".toList ++ mode ++ " mode on port ".toList ++ itoa port ++
           "...".toList⟩] := by
  unfold bootStrap at h ⊢
  obtain ⟨c, hc, h⟩ := Logged.then_goes h
  obtain ⟨c', hc', h⟩ := Logged.then_goes h
  obtain ⟨m, rest, hl1, hl2, hl3, -⟩ := loadLogged_lines B s
  obtain ⟨J, hJ1, -, hJ3⟩ := (bootLogged_lines B c).1 c' hc'
  obtain ⟨mode, port, hmode, hst⟩ := (startLogged_lines B c').1 sv h
  obtain ⟨hr, hcon⟩ := bootLogged_goes B c hc'
  obtain ⟨-, -, -, hmb, -⟩ := C10_downstream_defaults c.connection.downstream
  obtain ⟨-, -, -, hps, -, htls⟩ := C10_upstream_defaults c.connection.upstream
  refine ⟨c, m, J, aboutPaths c'.routes, mode, port, loadLogged_goes B s hc, hl2, hJ1, ?_, hmode, ?_, ?_⟩
  · rw [hr]; exact aboutPaths_booted B.srt hs c.routes
  · have hp : port = c'.connection.downstream.port := by
      have hmem : listeningLine B.version mode port ∈ (startLogged B c').2 := by rw [hst]; simp
      obtain ⟨mode', sv', -, hm', -, ho⟩ := (startLogged_lines B c').2 _ hmem rfl
      rw [h] at ho
      split at ho
      · cases ho
        cases hmode <;> cases hm' <;> rfl
      · cases ho
    rw [hp, hcon]
    exact wantedPort_setDefaults _
  · rw [(Logged.then_snd hc).2, (Logged.then_snd hc').2, hl1, hl3 c hc, hJ3, hst, hcon]
    dsimp only
    rw [hmb, hps, htls]
    rw [show aboutLine = fun p => ⟨.debug, [], "assigned about handler to path ".toList ++ p⟩ from rfl]
    simp only [List.cons_append, List.nil_append, List.append_assoc, listeningLine]

/-- C157, part: a line of level info says how and where the gateway listens; it is the mode and port that were asked for,
and the gateway does serve there, or the port is refused. -/
theorem C157_listening_partial (B : Machinery K) (s : Sources) (e : ZEvent) (he : e ∈ (bootStrap B s).2)
    (hi : e.level = .info) :
    ∃ (c : Config (Option (Jwt K))) (mode : Str) (port : Int) (sv : Serving), s.Say B.yamlToJson c ∧
      e = ⟨.info, [], "j8a ".toList ++ B.version ++ " listening in ".toList ++ mode ++ " mode on port ".toList ++ itoa port ++
        "...".toList⟩ ∧ Mode sv mode port ∧ c.connection.downstream.wantedPort port ∧
      (c.connection.downstream.wantsTls ↔ mode = "TLS".toList) ∧
      ((0 ≤ port ∧ port ≤ 65535 ∧ B.free port = true ∧ (bootStrap B s).1 = .goes sv) ∨
       (¬ (0 ≤ port ∧ port ≤ 65535 ∧ B.free port = true) ∧ (bootStrap B s).1 = .exits)) := by
  unfold bootStrap at he ⊢
  rcases Logged.mem_then he with he | ⟨c, hc, he⟩
  · obtain ⟨m, rest, hl1, -, -, hl4⟩ := loadLogged_lines B s
    rw [hl1] at he
    rcases List.mem_cons.1 he with rfl | he
    · cases hi
    · exact absurd hi (hl4 e he)
  rcases Logged.mem_then he with he | ⟨c', hc', he⟩
  · exact absurd hi ((bootLogged_lines B c).2 e he)
  obtain ⟨mode, sv, h1, h2, h3, h4⟩ := (startLogged_lines B c').2 e he hi
  obtain ⟨-, hcon⟩ := bootLogged_goes B c hc'
  rw [(Logged.then_snd hc).1, (Logged.then_snd hc').1, h4]
  rw [hcon] at h1 h2 h3 ⊢
  dsimp only at h1 h2 h3 ⊢
  refine ⟨c, mode, _, sv, loadLogged_goes B s hc, h1, h2, wantedPort_setDefaults _,
    (wantsTls_setDefaults _).symm.trans h3, ?_⟩
  by_cases hp : (listen c.connection.downstream.setDefaults.port && B.free c.connection.downstream.setDefaults.port) = true
  · left
    rw [if_pos hp]
    unfold listen at hp
    simp only [Bool.and_eq_true, decide_eq_true_eq] at hp
    exact ⟨hp.1.1, hp.1.2, hp.2, rfl⟩
  · right
    rw [if_neg hp]
    unfold listen at hp
    simp only [Bool.and_eq_true, decide_eq_true_eq] at hp
    exact ⟨fun h => hp ⟨⟨h.1, h.2.1⟩, h.2.2⟩, rfl⟩

/-- C157 fails: the log says that the gateway listens on a port that is taken, or that is none. -/
theorem C157_violated : ∀ p ∈ [81, 70000],
    (exStart (exDoc [exRoute "/" "r" []] (.obj []) (.obj [("port".toList, jnat p)]))).1 = .exits ∧
    ⟨.info, [], "j8a v1 listening in HTTP mode on port ".toList ++ natToDec p ++ "...".toList⟩ ∈
      (exStart (exDoc [exRoute "/" "r" []] (.obj []) (.obj [("port".toList, jnat p)]))).2 := by
  simp only [List.mem_cons, List.not_mem_nil, or_false, forall_eq_or_imp, forall_eq]
  refine ⟨⟨?_, ?_⟩, ⟨?_, ?_⟩⟩ <;> decide +kernel

/-- A gateway that serves TLS says so. -/
example : (exStart (exDoc [exRoute "/" "r" []] (.obj [])
      (.obj [("mode".toList, jstr "tls"), ("key".toList, jstr "k")]))).1 = .goes (.tls 443) ∧
    ((exStart (exDoc [exRoute "/" "r" []] (.obj []) (.obj [("mode".toList, jstr "tls"), ("key".toList, jstr "k")]))).2.getLast?.map
      fun e => String.ofList e.msg) = some "j8a v1 listening in TLS mode on port 443..." := by decide +kernel

/-! ## C158 the private key of the gateway is not logged -/

/-- With another private key. -/
def Downstream.withKey (f : Str → Str → Str) (d : Downstream) : Downstream := { d with key := f d.cert d.key }

/-- The configuration with another private key. -/
def Config.withKey {J : Type} (f : Str → Str → Str) (c : Config J) : Config J :=
  { c with connection := { c.connection with downstream := c.connection.downstream.withKey f } }

theorem setDefaults_withKey (f : Str → Str → Str) (d : Downstream) : (d.withKey f).setDefaults = d.setDefaults.withKey f := by
  obtain ⟨h1, h2, h3, h4, h5, h6, h7, h8⟩ := C10_downstream_defaults d
  obtain ⟨g1, g2, g3, g4, g5, g6, g7, g8⟩ := C10_downstream_defaults (d.withKey f)
  apply Downstream.ext
  · rw [g1]; exact h1.symm
  · rw [g2]; exact h2.symm
  · rw [g3]; exact h3.symm
  · rw [g4]; exact h4.symm
  · rw [g5]; exact h5.symm
  · rw [g6]; exact h6.symm
  · rw [g7]; exact h7.symm
  · rw [g8]
    show f d.cert d.key = f d.setDefaults.cert d.setDefaults.key
    rw [h7, h8]

/-- What a part leads to, with its result changed. -/
def Logged.map {α β : Type} (g : α → β) (x : Logged α) : Logged β := x.then fun a => goesOn (g a)

theorem Logged.map_then {α β γ : Type} (g : α → β) (x : Logged α) (k : β → Logged γ) :
    (x.map g).then k = x.then fun a => k (g a) := by
  obtain ⟨b, ls⟩ := x
  cases b <;> simp [Logged.map, Logged.then, goesOn]

theorem Logged.then_map {α β γ : Type} (g : β → γ) (x : Logged α) (k : α → Logged β) :
    (x.then k).map g = x.then fun a => (k a).map g := by
  obtain ⟨b, ls⟩ := x
  cases b with
  | exits => rfl
  | crashes => rfl
  | goes a =>
    simp only [Logged.map, Logged.then]
    cases (k a).1 <;> simp [goesOn]

theorem Logged.map_goesOn {α β : Type} (g : α → β) (a : α) : (goesOn a).map g = goesOn (g a) := rfl

theorem Logged.then_congr {α β : Type} {x : Logged α} {k k' : α → Logged β} (h : ∀ a, k a = k' a) : x.then k = x.then k' := by
  rw [show k = k' from funext h]

theorem jwtStage_withKey (B : Machinery K) (f : Str → Str → Str) (c : Config (Option (Jwt K))) :
    jwtStage B (c.withKey f) = (jwtStage B c).map (Config.withKey f) := by
  unfold jwtStage
  rw [Logged.then_map]
  rfl

theorem pathStage_withKey {J : Type} (E : Regexp) (f : Str → Str → Str) (c : Config J) :
    pathStage E (c.withKey f) = (pathStage E c).map (Config.withKey f) := by
  unfold pathStage
  rw [show (c.withKey f).routes = c.routes from rfl]
  split <;> rfl

theorem transformStage_withKey {J : Type} (f : Str → Str → Str) (c : Config J) :
    transformStage (c.withKey f) = (transformStage c).map (Config.withKey f) := by
  unfold transformStage
  rw [show (c.withKey f).routes = c.routes from rfl]
  split <;> rfl

theorem routeStage_withKey {J : Type} (srt) (f : Str → Str → Str) (c : Config J) :
    routeStage srt (c.withKey f) = (routeStage srt c).map (Config.withKey f) := by
  unfold routeStage
  rw [show (c.withKey f).routes = c.routes from rfl, show (c.withKey f).jwt = c.jwt from rfl]
  split <;> rfl

theorem bootLogged_withKey (B : Machinery K) (f : Str → Str → Str) (c : Config (Option (Jwt K))) :
    bootLogged B (c.withKey f) = (bootLogged B c).map (Config.withKey f) := by
  unfold bootLogged
  rw [show (c.withKey f).reApplyResourceSchemes.reApplyResourceNames =
      c.reApplyResourceSchemes.reApplyResourceNames.withKey f from rfl, jwtStage_withKey, Logged.map_then, Logged.then_map]
  refine Logged.then_congr fun c1 => ?_
  rw [pathStage_withKey, Logged.map_then, Logged.then_map]
  refine Logged.then_congr fun c2 => ?_
  rw [transformStage_withKey, Logged.map_then, Logged.then_map]
  refine Logged.then_congr fun c3 => ?_
  rw [routeStage_withKey, Logged.map_then, Logged.then_map]
  refine Logged.then_congr fun c4 => ?_
  have : (c4.withKey f).addDefaultPolicy.setDefaultUpstreamParams.setDefaultDownstreamParams =
      c4.addDefaultPolicy.setDefaultUpstreamParams.setDefaultDownstreamParams.withKey f := by
    unfold Config.setDefaultDownstreamParams Config.withKey
    dsimp only
    rw [← setDefaults_withKey]
    rfl
  dsimp only
  rw [this, Logged.then_map]
  rfl

theorem startLogged_withKey (B : Machinery K) (f : Str → Str → Str) (h : ∀ cert key, B.keyPair cert (f cert key) = B.keyPair cert key)
    (c : Config (Jwt K)) : startLogged B (c.withKey f) = startLogged B c := by
  unfold startLogged
  have : tlsConfig B.parse B.keyPair c.connection.downstream.cert (f c.connection.downstream.cert c.connection.downstream.key) =
      tlsConfig B.parse B.keyPair c.connection.downstream.cert c.connection.downstream.key := by
    unfold tlsConfig
    rw [h]
  dsimp only [Config.withKey, Downstream.withKey, Downstream.isTLSMode]
  rw [this]
  rfl

/-- C158: replace the private key in every document by another one that fits the certificate as well or as badly. The start
ends in the same way, and the log is the same. -/
theorem C158_private_key (B : Machinery K) (y' : Str → Option JVal) (f : Str → Str → Str)
    (hf : ∀ cert key, B.keyPair cert (f cert key) = B.keyPair cert key)
    (hy : ∀ text, parseConfig (K := K) y' text = (parseConfig B.yamlToJson text).withKey f) (s : Sources) :
    bootStrap { B with yamlToJson := y' } s = bootStrap B s := by
  have hload : loadLogged (parseConfig (K := K) y') (·.routes.length) s =
      (loadLogged (parseConfig B.yamlToJson) (·.routes.length) s).map (Config.withKey f) := by
    rw [show parseConfig (K := K) y' = fun text => (parseConfig B.yamlToJson text).withKey f from funext hy]
    have hcheck : ∀ (origin : Str) (c : Config (Option (Jwt K))),
        (if configOk (fun c : Config (Option (Jwt K)) => c.routes.length) (c.withKey f) then
          (say (debugLine ("parsed config with ".toList ++ natToDec (c.withKey f).routes.length ++ " live routes".toList))).then
            fun _ => goesOn (c.withKey f)
        else refuse ("error loading config from ".toList ++ origin)) =
        (if configOk (fun c : Config (Option (Jwt K)) => c.routes.length) c then
          (say (debugLine ("parsed config with ".toList ++ natToDec c.routes.length ++ " live routes".toList))).then
            fun _ => goesOn c
        else refuse ("error loading config from ".toList ++ origin) : Logged (Config (Option (Jwt K)))).map (Config.withKey f) := by
      intro origin c
      rw [show configOk (fun c : Config (Option (Jwt K)) => c.routes.length) (c.withKey f) =
        configOk (fun c : Config (Option (Jwt K)) => c.routes.length) c from rfl]
      split <;> rfl
    have hread : ∀ name, readYmlFileLogged (fun text => (parseConfig (K := K) B.yamlToJson text).withKey f) s name =
        (readYmlFileLogged (parseConfig (K := K) B.yamlToJson) s name).map (Config.withKey f) := by
      intro name
      unfold readYmlFileLogged
      cases s.files name <;> rfl
    unfold loadLogged
    dsimp only
    split
    · rw [Logged.then_map]
      refine Logged.then_congr fun _ => ?_
      rw [hread, Logged.map_then, Logged.then_map]
      exact Logged.then_congr fun c => hcheck _ c
    · split
      · rw [Logged.then_map]
        exact Logged.then_congr fun _ => hcheck _ _
      · rw [Logged.then_map]
        refine Logged.then_congr fun _ => ?_
        rw [hread, Logged.map_then, Logged.then_map]
        exact Logged.then_congr fun c => hcheck _ c
  unfold bootStrap
  dsimp only
  rw [hload, Logged.map_then]
  refine Logged.then_congr fun c => ?_
  have : ∀ c, bootLogged { B with yamlToJson := y' } c = bootLogged B c := fun _ => by
    unfold bootLogged jwtStage
    have hv : ∀ n es, validateJwtLogged { B with yamlToJson := y' } n es = validateJwtLogged B n es := by
      intro n es
      induction es with
      | nil => rfl
      | cons e es ih =>
        obtain ⟨m, oj⟩ := e
        cases oj with
        | none => rfl
        | some j => simp only [validateJwtLogged]; rw [ih]
    rw [hv]
  rw [this, bootLogged_withKey, Logged.map_then]
  exact Logged.then_congr fun c => startLogged_withKey B f hf c

/-- Two documents with keys that do not fit the certificate. -/
example : exStart (exDoc [exRoute "/" "r" []] (.obj []) (.obj [("mode".toList, jstr "TLS"), ("key".toList, jstr "secret1")])) =
    exStart (exDoc [exRoute "/" "r" []] (.obj []) (.obj [("mode".toList, jstr "TLS"), ("key".toList, jstr "secret2")])) ∧
    ((exStart (exDoc [exRoute "/" "r" []] (.obj []) (.obj [("mode".toList, jstr "TLS"), ("key".toList, jstr "secret1")]))).2.map
      fun e => (e.level, String.ofList e.msg)).getLast? = some (.fatal,
      "unable to parse TLS configuration, check your certificate and/or private key. j8a is exiting ...") :=
  ⟨C158_private_key (exMachinery (exDoc [exRoute "/" "r" []] (.obj [])
      (.obj [("mode".toList, jstr "TLS"), ("key".toList, jstr "secret2")])))
    (fun _ => some (exDoc [exRoute "/" "r" []] (.obj []) (.obj [("mode".toList, jstr "TLS"), ("key".toList, jstr "secret1")])))
    (fun _ k => if k = "secret2".toList then "secret1".toList else k)
    (by
      intro cert key
      by_cases h : key = "secret2".toList
      · subst h; rfl
      · rw [if_neg h])
    (fun _ => rfl) _, by decide +kernel⟩

end J8a

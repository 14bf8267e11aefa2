import Verif.Props.Anchor
import Verif.Props.BootLog
import Verif.Props.Decode
import Verif.Props.Rotation
import Verif.Props.Target
import Verif.Props.Token
/-!
# C162: from the document to the wire
-/
namespace J8a
open Go Uri Syn

variable {K : Type}

/-! ## What is asked for, in terms of the document -/

/-- A key that a jwt entry of the document stands for: its text is the secret, or a PEM block that holds the key, or
the key was once served at its URL. -/
inductive JwtSettings.Stands (X : X509 K) (hmacKey : Str → K) (served : Str → List (Jwk K) → Prop) (e : JwtSettings) :
    K → Prop
  | secret : e.alg ∈ hmacAlgs → e.key ≠ [] → Stands X hmacKey served e (hmacKey e.key)
  | rsa {key : K} : e.alg ∈ rsaAlgs → PemHolds X e.key rsaPemTypes (.rsa key) → Stands X hmacKey served e key
  | ec {key : K} {bits : Nat} : e.alg ∈ ecAlgs → PemHolds X e.key ecPemTypes (.ec key bits) → CurveSize e.alg bits →
      Stands X hmacKey served e key
  | served {key : K} {ks : List (Jwk K)} {k : Jwk K} : served e.jwksUrl ks → k ∈ ks → Usable e.alg k key →
      Stands X hmacKey served e key

/-- The tolerance for dates that a jwt entry asks for, in seconds. -/
def JwtSettings.Skew (e : JwtSettings) (n : Int) : Prop :=
  0 ≤ n ∧ (e.acceptableSkewSeconds = [] → n = 120) ∧
    (e.acceptableSkewSeconds ≠ [] → atoi e.acceptableSkewSeconds = some n)

/-- The request carries a token that is well formed, in time, and signed by a key of the entry, unless that asks for
no signature. -/
def JwtSettings.Grants (e : JwtSettings) (X : X509 K) (hmacKey : Str → K) (served : Str → List (Jwk K) → Prop)
    (L : Jwx K) (now : Int) (rq : Request) : Prop :=
  ∃ token c, Presents rq token ∧ L.parse token = some c ∧
    (∃ skew, e.Skew skew ∧ (skew * 1000 < now → now ≤ 9000000000000 → c.Present →
      L.skipsEpoch = false ∨ c.NotEpoch → DatesOk L.nbfStrict skew now c)) ∧
    (e.alg = "none".toList ∨
      ∃ key, e.Stands X hmacKey served key ∧ (L.parseVerify e.alg key token).isSome = true)

/-- The path of a route is a regular expression, and it matches at the beginning of the target. For a path without special
characters: the target begins with it (`selects_literal`). -/
def Selects (path target : Str) : Prop := ∃ e, Syntax path e ∧ ∃ j, Re.Matches target e 0 j

/-- The target that a route makes of the target `target`, of which `rest` is what follows its path. -/
def RouteSettings.newTarget (r : RouteSettings) (target rest : Str) : Str :=
  if r.transform = [] then target
  else if r.transform = ['/'] then (if rest.head? = some '/' then rest else '/' :: rest)
  else r.transform ++ rest

/-- The policy of that name; the one called `default` is built in. -/
def Settings.policy (t : Settings) (name : Str) : Policy :=
  if name = "default".toList then [⟨"default".toList, F64.one⟩] else (t.policies.lookup name).getD []

/-- The request `rq` may go to the target `target` at the host `host`, as the document says: along the route with the
longest path that matches at the beginning of its target, to the first server of the resource of that, or one with the label
drawn, and with the token it asks for. -/
def Settings.Sends (t : Settings) (X : X509 K) (hmacKey : Str → K) (served : Str → List (Jwk K) → Prop)
    (L : Jwx K) (pick : Policy → Str) (now : Int) (rq : Request) (target host : Option Str) : Prop :=
  ∃ r ∈ t.routes, Selects r.path rq.requestURI ∧
    (∀ r' ∈ t.routes, Selects r'.path rq.requestURI → r'.path.length ≤ r.path.length) ∧
    (∃ rest, (r.transform ≠ [] → rq.requestURI = r.path ++ rest) ∧ target = some (r.newTarget rq.requestURI rest)) ∧
    (∃ ms, (r.resource, ms) ∈ t.resources ∧ ∃ m ∈ ms, host = some (m.host ++ ':' :: natToDec m.port) ∧
      (r.policy = [] → ms.head? = some m) ∧ (r.policy ≠ [] → pick (t.policy r.policy) ∈ m.labels)) ∧
    (r.jwt ≠ [] → ∃ e, (r.jwt, e) ∈ t.jwt ∧ e.Grants X hmacKey served L now rq)

/-- Paths begin with a slash; those with a transform, transforms and hosts are plain, and schemes are those of HTTP. -/
structure Settings.Plain (t : Settings) : Prop where
  paths : ∀ r ∈ t.routes, (∃ p, r.path = '/' :: p) ∧ (r.transform ≠ [] → Literal r.path ∧ pathText r.path = true)
  transforms : ∀ r ∈ t.routes, pathText r.transform = true
  servers : ∀ e ∈ t.resources, ∀ m ∈ e.2, HostName m.host ∧ (m.scheme = [] ∨ ∃ a b, m.scheme = a ++ "http".toList ++ b)

/-- The gateway `x` was started with the sources `src`, and since then its jwt entries may have been refreshed, with
documents served at their URLs. -/
structure Running (B : Machinery K) (src : Sources) (served : Str → List (Jwk K) → Prop) (x : Setup K) : Prop where
  started : ∃ sv, (bootStrap B src).1 = .goes sv
  engine : x.E = B.E
  config : ∀ c, bootFrom B.yamlToJson B.E B.validate B.srt src = some c →
    x.c.routes = c.routes ∧ x.c.policies = c.policies ∧ x.c.resources = c.resources ∧ x.c.connection = c.connection ∧
    ∀ n j, x.c.jwt.lookup n = some j → ∃ j0 docs, (n, j0) ∈ c.jwt ∧ refreshes j0 docs = some j ∧
      ∀ ks, some ks ∈ docs → served j0.jwksUrl ks

/-! ## Keys -/

theorem validate_steps {X : X509 K} {hk : Str → K} {uuid : Str} {fetch : Str → Option (List (Jwk K))} {j j' : Jwt K}
    (h : j.validate X hk uuid fetch = .done j' false) :
    ∃ sk : Str, (parseKey X hk uuid { j with acceptableSkewSeconds := sk } = .done j' false ∧ j.key ≠ []) ∨
      (loadJwks { j with acceptableSkewSeconds := sk } (fetch j.jwksUrl) = .done j' false ∧ j.key = []) ∨
      (j' = { j with acceptableSkewSeconds := sk } ∧ j.key = [] ∧ j.jwksUrl = []) := by
  have tail : ∀ (e : Bool) (j1 : Jwt K), j1.key = j.key → j1.jwksUrl = j.jwksUrl →
      ((if 0 < j1.key.length then parseKey X hk uuid j1
        else if 0 < j1.jwksUrl.length then loadJwks j1 (fetch j1.jwksUrl)
        else .done j1 e) = .done j' false) →
      (parseKey X hk uuid j1 = .done j' false ∧ j.key ≠ []) ∨
      (loadJwks j1 (fetch j.jwksUrl) = .done j' false ∧ j.key = []) ∨ (j' = j1 ∧ j.key = [] ∧ j.jwksUrl = []) := by
    intro e j1 hk1 hu h
    split at h
    · rename_i hl
      exact .inl ⟨h, by rw [← hk1]; exact List.length_pos_iff.1 hl⟩
    · rename_i hl
      have h0 : j.key = [] := by
        rw [← hk1]
        exact List.eq_nil_of_length_eq_zero (by omega)
      split at h
      · exact .inr (.inl ⟨hu ▸ h, h0⟩)
      · rename_i hl
        cases h
        exact .inr (.inr ⟨rfl, h0, by rw [← hu]; exact List.eq_nil_of_length_eq_zero (by omega)⟩)
  unfold Jwt.validate at h
  simp only at h
  split at h
  · cases h
  split at h
  · cases h
  split at h
  · cases h
  split at h
  · cases h
  split at h
  · cases h
  split at h
  · split at h
    · cases h
    · split at h
      · cases h
      · exact ⟨j.acceptableSkewSeconds, tail _ j rfl rfl h⟩
  · exact ⟨defaultSkew, tail _ _ rfl rfl h⟩

/-- What is stored at boot, for an entry without keys. -/
structure KeysFrom (X : X509 K) (hk : Str → K) (served : Str → List (Jwk K) → Prop) (e : JwtSettings) (j : Jwt K) :
    Prop where
  alg : j.alg = e.alg
  url : j.jwksUrl = e.jwksUrl
  rsa : ∀ kp ∈ j.rsaPublic, e.Stands X hk served kp.key
  ec : ∀ kp ∈ j.ecdsaPublic, e.Stands X hk served kp.key
  secret : ∀ kp ∈ j.secret, e.Stands X hk served kp.key

theorem mem_upsert_nil {kp x : KidPair K} {ks : KeySet K} (h0 : ks = []) (h : x ∈ ks.upsert kp) : x = kp := by
  rcases mem_upsert h with h | h
  · rw [h0] at h; cases h
  · exact h

theorem load_keys {X : X509 K} {hk : Str → K} {served : Str → List (Jwk K) → Prop} {e : JwtSettings} {j j' : Jwt K}
    {doc : Option (List (Jwk K))} {err : Bool} (h : loadJwks j doc = .done j' err) (hf : KeysFrom X hk served e j)
    (hs : ∀ ks, doc = some ks → served e.jwksUrl ks) : KeysFrom X hk served e j' := by
  have hr := loadJwks_rel h
  obtain ⟨h4, h5, h6⟩ := C23_only_configured_alg j j' doc err h
  refine ⟨hr.alg.trans hf.alg, hr.jwksUrl.trans hf.url, fun kp hkp => ?_, fun kp hkp => ?_, fun kp hkp => ?_⟩
  · rcases h4 kp hkp with h7 | ⟨h7, ks, rfl, k, hk1, h8, -, h9⟩
    · exact hf.rsa kp h7
    · rw [hf.alg] at h7 h8
      exact .served (hs ks rfl) hk1 ⟨h8, .inl ⟨h7, h9⟩⟩
  · rcases h5 kp hkp with h7 | ⟨h7, ks, rfl, k, hk1, bits, h8, -, h9, h10⟩
    · exact hf.ec kp h7
    · rw [hf.alg] at h7 h8 h10
      exact .served (hs ks rfl) hk1 ⟨h8, .inr ⟨h7, bits, h9, h10⟩⟩
  · rw [h6] at hkp
    exact hf.secret kp hkp

theorem refresh_keys {X : X509 K} {hk : Str → K} {served : Str → List (Jwk K) → Prop} {e : JwtSettings} {j' : Jwt K} :
    ∀ (docs : List (Option (List (Jwk K)))) (j : Jwt K), refreshes j docs = some j' → KeysFrom X hk served e j →
    (∀ ks, some ks ∈ docs → served e.jwksUrl ks) → KeysFrom X hk served e j' := by
  intro docs
  induction docs with
  | nil =>
    intro j h hf _
    simp only [refreshes, Option.some.injEq] at h
    exact h ▸ hf
  | cons d docs ih =>
    intro j h hf hs
    simp only [refreshes] at h
    split at h
    · cases h
    · rename_i j1 er h1
      exact ih j1 h (load_keys h1 hf fun ks hd => hs ks (by simp [hd])) fun ks hks => hs ks (by simp [hks])

theorem boot_keys {X : X509 K} {hk : Str → K} {uuid : Str → Str} {fetch : Str → Str → Option (List (Jwk K))}
    {served : Str → List (Jwk K) → Prop} {n : Str} {e : JwtSettings} {j' : Jwt K}
    (hfetch : ∀ n url ks, fetch n url = some ks → served url ks)
    (h : bootJwt X hk uuid fetch n e.meant = some j') : KeysFrom X hk served e j' := by
  unfold bootJwt at h
  split at h
  case h_2 => cases h
  rename_i j1 hv
  cases h
  obtain ⟨sk, hv⟩ := validate_steps hv
  have h0 : KeysFrom X hk served e
      { ({ (e.meant : Jwt K) with name := n } : Jwt K) with acceptableSkewSeconds := sk } :=
    ⟨rfl, rfl, nofun, nofun, nofun⟩
  rcases hv with ⟨hp, hne⟩ | ⟨hl, -⟩ | ⟨rfl, -⟩
  · generalize hj : ({ ({ (e.meant : Jwt K) with name := n } : Jwt K) with acceptableSkewSeconds := sk } : Jwt K) = j at hp h0
    have hk0 : j.key = e.key := by rw [← hj]; rfl
    have e1 : j.rsaPublic = [] := by rw [← hj]; rfl
    have e2 : j.ecdsaPublic = [] := by rw [← hj]; rfl
    have e3 : j.secret = [] := by rw [← hj]; rfl
    have ha : j.alg = e.alg := h0.alg
    cases hf : family j.alg with
    | rsa =>
      have hm := family_rsa.1 hf
      obtain ⟨key, kid, hpem, rfl⟩ := C26_rsa X hk (uuid n) j j' hm hp
      refine ⟨h0.alg, h0.url, fun kp hkp => ?_, h0.ec, h0.secret⟩
      obtain rfl := mem_upsert_nil e1 hkp
      exact .rsa (ha ▸ hm) (hk0 ▸ hpem)
    | ec =>
      have hm := family_ec.1 hf
      obtain ⟨key, kid, bits, hpem, hc, rfl⟩ := C26_ec X hk (uuid n) j j' hm hp
      refine ⟨h0.alg, h0.url, h0.rsa, fun kp hkp => ?_, h0.secret⟩
      obtain rfl := mem_upsert_nil e2 hkp
      exact .ec (ha ▸ hm) (hk0 ▸ hpem) (ha ▸ hc)
    | hmac =>
      have hm := family_hmac.1 hf
      simp only [parseKey, hf] at hp
      split at hp
      · simp only [Outcome.done.injEq, and_true] at hp
        subst hp
        refine ⟨h0.alg, h0.url, h0.rsa, h0.ec, fun kp hkp => ?_⟩
        obtain rfl := mem_upsert_nil e3 hkp
        show e.Stands X hk served (hk j.key)
        rw [hk0]
        exact .secret (ha ▸ hm) hne
      · cases hp
    | none =>
      simp only [parseKey, hf] at hp
      split at hp <;> cases hp
      exact h0
    | other => simp only [parseKey, hf] at hp; cases hp
  · exact load_keys hl h0 fun ks hks => hfetch n _ ks hks
  · exact h0

/-! ## The configuration -/

/-- The sources write the settings `t`. -/
def Sources.Write (s : Sources) (yamlToJson : Str → Option JVal) (t : Settings) : Prop :=
  ∃ text v, ChosenText s (some text) ∧ yamlToJson text = some v ∧ t.Written v

/-- The settings in the structures of the program, with no entry missing. -/
def Settings.present (t : Settings) : Config (Jwt K) :=
  { policies := fun n => t.policies.lookup n
    routes := (t.meant (K := K)).routes
    jwt := t.jwt.map fun e => (e.1, e.2.meant)
    resources := (t.meant (K := K)).resources
    connection := t.connection }

theorem meant_present (t : Settings) : (t.meant (K := K)).jwtPresent = some t.present := by
  have : ∀ l : List (Str × JwtSettings),
      (l.map fun e => (e.1, some (e.2.meant (K := K)))).mapM (fun (e : Str × Option (Jwt K)) => e.2.map fun j => (e.1, j)) =
        some (l.map fun e => (e.1, e.2.meant)) := by
    intro l
    induction l with
    | nil => rfl
    | cons e l ih =>
      rw [List.map_cons, List.mapM_cons, ih]
      rfl
  unfold Config.jwtPresent
  show Option.map _ ((t.jwt.map fun e => (e.1, some (e.2.meant (K := K)))).mapM _) = _
  rw [this]
  rfl

/-- What a gateway that started serves. -/
theorem started_boot {B : Machinery K} {src : Sources} {t : Settings} (hw : src.Write B.yamlToJson t)
    (hs : ∃ sv, (bootStrap B src).1 = .goes sv) :
    ∃ c', bootFrom B.yamlToJson B.E B.validate B.srt src = some c' ∧
      boot B.E B.validate B.srt t.present = some c' := by
  obtain ⟨sv, hsv⟩ := hs
  have h := bootStrap_some? B src
  rw [Booted.some?_eq.2 hsv] at h
  cases hb : bootFrom B.yamlToJson B.E B.validate B.srt src with
  | none => rw [hb] at h; cases h
  | some c' =>
    refine ⟨c', rfl, ?_⟩
    unfold bootFrom at hb
    cases hl : load (parseConfig (K := K) B.yamlToJson) (·.routes.length) src with
    | none => rw [hl] at hb; cases hb
    | some c0 =>
      obtain ⟨text, hc, rfl, -⟩ := (C64_precedence _ _ src c0).1 hl
      obtain ⟨text', v, hc', hy, hv⟩ := hw
      obtain rfl := Option.some.inj (hc.det hc')
      have hp : parseConfig (K := K) B.yamlToJson text = t.meant := by
        unfold parseConfig
        rw [hy]
        exact C90_faithful_partial hv
      rw [hl, hp] at hb
      simpa [meant_present] using hb

theorem mem_of_lookup {α : Type} {l : List (Str × α)} {n : Str} {a : α} (h : l.lookup n = some a) : (n, a) ∈ l := by
  induction l with
  | nil => cases h
  | cons e l ih =>
    obtain ⟨m, b⟩ := e
    rw [List.lookup_cons] at h
    split at h
    · rename_i hm
      obtain rfl := Option.some.inj h
      obtain rfl : n = m := by simpa using hm
      exact List.mem_cons_self
    · exact List.mem_cons_of_mem _ (ih h)

theorem normScheme_http {s : Str} (h : s = [] ∨ ∃ a b, s = a ++ "http".toList ++ b) :
    normScheme s = "http".toList ∨ normScheme s = "https".toList := by
  unfold normScheme
  rcases h with rfl | h
  · exact .inl rfl
  · split
    · exact .inl rfl
    · split
      · exact .inr rfl
      · rw [if_pos (contains_iff.2 h)]
        exact .inl rfl

/-- The servers of a resource, as served. -/
theorem booted_resources {E : Regexp} {validate : Str → Jwt K → Option (Jwt K)} {srt} {t : Settings}
    {c' : Config (Jwt K)} (h : boot E validate srt t.present = some c') {n : Str} {ms : List ResourceMapping}
    (hm : c'.resources n = some ms) : ∃ l, (n, l) ∈ t.resources ∧ ms = l.map fun (m : ServerSettings) =>
      (⟨n, m.labels, ⟨normScheme m.scheme, m.host, m.port⟩⟩ : ResourceMapping) := by
  obtain ⟨-, -, -, -, -, -, hr, -⟩ := boot_elim h
  rw [hr] at hm
  simp only [Config.reApplyResourceNames, Config.reApplyResourceSchemes, Settings.present, Settings.meant] at hm
  cases hl : t.resources.lookup n with
  | none => rw [hl] at hm; cases hm
  | some l =>
    rw [hl] at hm
    refine ⟨l, mem_of_lookup hl, ?_⟩
    simp only [Option.map_some, Option.some.injEq, List.map_map] at hm
    rw [← hm]
    rfl

/-! ## C162 -/

/-- A route of the settings, as served. -/
def RouteSettings.served (r : RouteSettings) : Route :=
  ⟨r.path, some ('^' :: r.path), r.transform, r.resource, r.policy, r.jwt⟩

/-- The routes that are served. -/
theorem booted_routes {E : Regexp} {validate : Str → Jwt K → Option (Jwt K)} {srt} (hsrt : IsRouteSort srt) {t : Settings}
    {c' : Config (Jwt K)} (hb : boot E validate srt t.present = some c')
    (hp : ∀ r ∈ t.routes, ∃ p, r.path = '/' :: p) :
    ∀ r, r ∈ c'.routes ↔ ∃ r0 ∈ t.routes, r = r0.served := by
  obtain ⟨-, -, -, -, hr, -, -, -⟩ := boot_elim hb
  intro r
  rw [hr, (hsrt _).1.mem_iff, List.mem_map]
  have hsl : ∀ r0 ∈ t.routes, addSlash r0.path = r0.path := by
    intro r0 hr0
    obtain ⟨q, hq⟩ := hp r0 hr0
    rw [hq, addSlash_of_slash]
  constructor
  · rintro ⟨r1, hr1, rfl⟩
    obtain ⟨r0, hr0, rfl⟩ := List.mem_map.1 hr1
    refine ⟨r0, hr0, ?_⟩
    simp only [RouteSettings.served, hsl r0 hr0]
  · rintro ⟨r0, hr0, rfl⟩
    refine ⟨_, List.mem_map.2 ⟨r0, hr0, rfl⟩, ?_⟩
    simp only [RouteSettings.served, hsl r0 hr0]

theorem selects_literal {p t : Str} (h : Literal p) : Selects p t ↔ p <+: t := by
  have hs := (parse_iff _ _).1 (parse_literal h)
  constructor
  · rintro ⟨e, he, j, hj⟩
    have := (parse_iff _ _).2 he
    rw [parse_literal h] at this
    injection this with this
    subst this
    obtain ⟨-, a, b, h1, h2⟩ := (literal_iff t p 0 j (by omega)).1 hj
    rw [List.eq_nil_of_length_eq_zero h2] at h1
    exact ⟨b, h1.symm⟩
  · rintro ⟨b, h1⟩
    exact ⟨_, hs, _, (literal_iff t p 0 _ (by omega)).2 ⟨rfl, [], b, h1.symm, rfl⟩⟩

/-- With an anchor in front of it, the engine matches what the path selects. -/
def FollowsPath (E : Regexp) (p : Str) : Prop := ∀ t, E.isMatch ('^' :: p) t = true ↔ Selects p t

/-- So does every engine that is right about paths without special characters. -/
theorem follows_literal {E : Regexp} (hE : E.LiteralLaw) {p : Str} (h : Literal p) : FollowsPath E p := by
  intro t
  rw [selects_literal h, (hE p h).2]
  exact ⟨fun ⟨q, hq⟩ => ⟨q, hq.symm⟩, fun ⟨q, hq⟩ => ⟨q, hq.symm⟩⟩

/-- And the engine of Go, for all regular expressions without `|`. -/
theorem follows_pattern (X : Regexp) {p : Str} {e : Re} (h : Syntax p e) (hb : '|' ∉ p) : FollowsPath (goRegexp X) p := by
  intro t
  obtain ⟨first, later, h1, h2, -, h4⟩ := C108_exact X p e h
  rw [h2 hb] at h1 h4
  rw [h4]
  constructor
  · rintro (⟨j, hj⟩ | ⟨r, hr, -⟩)
    · exact ⟨e, h, j, (h1 _ _ _).2 (.inl hj)⟩
    · cases hr
  · rintro ⟨e', he', j, hj⟩
    have := (parse_iff _ _).2 he'
    rw [(parse_iff _ _).2 h] at this
    injection this with this
    subst this
    rcases (h1 _ _ _).1 hj with hj | ⟨r, hr, -⟩
    · exact .inl ⟨j, hj⟩
    · cases hr

theorem served_match {E : Regexp} {r : RouteSettings} (hr : FollowsPath E r.path) (uri : Str) :
    r.served.matchURI E uri = true ↔ Selects r.path uri := hr uri

/-- Where a request goes, and why. -/
theorem sent_as_written (B : Machinery K) (hsrt : IsRouteSort B.srt) (src : Sources) (t : Settings)
    (hw : src.Write B.yamlToJson t)
    (hp : ∀ r ∈ t.routes, (∃ p, r.path = '/' :: p) ∧ FollowsPath B.E r.path) (served : Str → List (Jwk K) → Prop)
    (hfetch : ∀ n url ks, B.fetch n url = some ks → served url ks) (x : Setup K) (hx : Running B src served x)
    (s : St) (h : x.Reaches s) (p : Nat × UpReq) (hps : p ∈ s.calls) :
    ∃ r ∈ t.routes, Selects r.path x.rq.requestURI ∧
      (∀ r' ∈ t.routes, Selects r'.path x.rq.requestURI → r'.path.length ≤ r.path.length) ∧
      (∃ ms, (r.resource, ms) ∈ t.resources ∧ ∃ m ∈ ms,
        p.2.uri = resolveUpstreamURI ⟨normScheme m.scheme, m.host, m.port⟩ r.served x.rq.uri ∧
        (r.policy = [] → ms.head? = some m) ∧ (r.policy ≠ [] → x.pick (t.policy r.policy) ∈ m.labels)) ∧
      (r.jwt ≠ [] → ∃ e, (r.jwt, e) ∈ t.jwt ∧ e.Grants B.X B.hmacKey served x.L x.now x.rq) ∧
      p.2.method = toUpper x.rq.method ∧ (r.transform ≠ [] → ∃ q, r.transform = '/' :: q) := by
  obtain ⟨c', hbf, hb⟩ := started_boot hw hx.started
  obtain ⟨hroutes, hpol, hres, -, hjwt⟩ := hx.config c' hbf
  obtain ⟨r, u, l, hd, hq⟩ := calls_of_reaches h hps
  obtain ⟨-, -, hdi, hauth, hm⟩ := decision_forward hd
  rw [hx.engine, hroutes] at hdi
  -- the routes
  have hfrom := booted_routes hsrt hb fun r hr => (hp r hr).1
  have hmatch : ∀ r ∈ c'.routes, r.matchURI B.E x.rq.requestURI = true ↔ Selects r.path x.rq.requestURI := by
    intro r hr
    obtain ⟨r0, hr0, rfl⟩ := (hfrom r).1 hr
    exact served_match (hp r0 hr0).2 _
  have hmem : r ∈ c'.routes := List.mem_of_find?_eq_some hdi
  obtain ⟨-, hmat, hlong⟩ := (C01_longest_match hsrt hb _).1 r hdi
  have hrest := (hmatch r hmem).mp hmat
  obtain ⟨r0, hr0, hrr⟩ := (hfrom r).1 hmem
  have hpath : r.path = r0.path := by rw [hrr]; rfl
  have htr : r.transform = r0.transform := by rw [hrr]; rfl
  have hrs : r.resource = r0.resource := by rw [hrr]; rfl
  have hpo : r.policy = r0.policy := by rw [hrr]; rfl
  have hjw : r.jwt = r0.jwt := by rw [hrr]; rfl
  -- the server
  rw [hpol, hres] at hm
  obtain ⟨ms, hms, m, hmm, hmu, hm1, hm2⟩ := C07_mapped_sound _ _ _ _ _ _ hm
  obtain ⟨l0, hl0, hmsl⟩ := booted_resources hb hms
  rw [hmsl] at hmm
  obtain ⟨m0, hm0, hmm0⟩ := List.mem_map.1 hmm
  have hu : u = ⟨normScheme m0.scheme, m0.host, m0.port⟩ := by rw [← hmu, ← hmm0]
  have huri : p.2.uri = resolveUpstreamURI ⟨normScheme m0.scheme, m0.host, m0.port⟩ r0.served x.rq.uri := by
    rw [hq, ← hu, ← hrr]; rfl
  have hslash : r0.transform ≠ [] → ∃ q, r0.transform = '/' :: q := by
    obtain ⟨-, h2, -⟩ := C13_boot_sound hsrt hb
    rw [← htr]
    exact h2 r hmem
  refine ⟨r0, hr0, hpath ▸ hrest, ?_, ⟨l0, hrs ▸ hl0, ?_⟩, ?_, by rw [hq]; rfl, hslash⟩
  · intro r' hr' hpre
    have hr1 := (hfrom _).2 ⟨r', hr', rfl⟩
    have := hlong _ hr1 ((hmatch _ hr1).2 hpre)
    rw [hpath] at this
    exact this
  · by_cases hpn : r.policy = []
    · obtain ⟨hh, -⟩ := hm2 hpn
      rw [hmsl] at hh
      cases l0 with
      | nil => cases hh
      | cons a l1 =>
        simp only [List.map_cons, List.head?_cons, Option.some.injEq] at hh
        rw [← hh] at hmu
        have ha : u = ⟨normScheme a.scheme, a.host, a.port⟩ := hmu.symm
        rw [hu] at ha
        refine ⟨a, List.mem_cons_self, ?_, fun _ => rfl, fun hne => absurd (hpo ▸ hpn) hne⟩
        rw [huri, ha]
    · refine ⟨m0, hm0, huri, fun hn => absurd (hpo ▸ hn) hpn, fun _ => ?_⟩
      obtain ⟨hl1, hl2⟩ := hm1 hpn
      rw [← hmm0, hl2] at hl1
      obtain ⟨-, -, -, -, -, hpc, -, -⟩ := boot_elim hb
      have : (c'.policies r.policy).getD [] = t.policy r0.policy := by
        rw [hpc, hpo]
        unfold Settings.policy Config.addDefaultPolicy
        simp only [Settings.present]
        split <;> rfl
      rw [this] at hl1
      exact hl1
  · intro hj
    rw [← hjw] at hj
    obtain ⟨j, hl, hv⟩ := authorise_jwt hauth hj
    obtain ⟨token, cl, hb1, hpa, hda, hver⟩ := validateToken_accept hv
    obtain ⟨j0, docs, hj0, hdocs, hsd⟩ := hjwt _ _ hl
    obtain ⟨-, -, -, -, -, -, hval⟩ := C13_boot_sound hsrt hb
    obtain ⟨j1, hj1, hv1⟩ := hval _ _ hj0
    obtain ⟨e, he, hee⟩ := List.mem_map.1 hj1
    obtain ⟨en, ev⟩ := e
    simp only [Prod.mk.injEq] at hee
    obtain ⟨rfl, rfl⟩ := hee
    have hk0 := boot_keys hfetch hv1
    have hk := refresh_keys docs j0 hdocs hk0 (fun ks hks => hk0.url ▸ hsd ks hks)
    have h25 : ∃ j2, ({ (ev.meant : Jwt K) with name := r.jwt } : Jwt K).validate B.X B.hmacKey (B.uuid r.jwt) (B.fetch r.jwt) =
        .done j2 false ∧ j2 = j0 := by
      unfold Machinery.validate bootJwt at hv1
      split at hv1
      · rename_i j2 hj2
        exact ⟨j2, hj2, Option.some.inj hv1⟩
      · cases hv1
    obtain ⟨j2, hj2, rfl⟩ := h25
    obtain ⟨-, halg, ⟨n, hn0, hn1, hn2, hn3⟩, -⟩ := C25_validate_sound _ _ _ _ _ _ hj2
    have hsk : skewOf j = n := by
      unfold skewOf
      rw [(refreshes_same hdocs).2.2.1, hn1]
      rfl
    rw [hsk] at hda
    refine ⟨ev, hjw ▸ he, token, cl, (presents_iff _ _).2 hb1, hpa, ⟨n, ⟨hn0, hn2, hn3⟩, ?_⟩, ?_⟩
    · intro g1 g2 g3 g4
      exact (C18_date_claims_partial _ _ n _ cl hn0 g1 g2 g3 g4).1 hda
    · have hje : j.alg = ev.alg := hk.alg
      have fin : (j.alg ∈ rsaAlgs ∨ j.alg ∈ ecAlgs ∨ j.alg ∈ hmacAlgs) → ∃ key, ev.Stands B.X B.hmacKey served key ∧
          (x.L.parseVerify ev.alg key token).isSome = true := by
        intro ha
        rw [← hje]
        rcases hver ha with ⟨-, kp, hkp, hvv⟩ | ⟨-, kp, hkp, hvv⟩ | ⟨-, kp, hkp, hvv⟩
        · exact ⟨kp.key, hk.rsa kp hkp, hvv⟩
        · exact ⟨kp.key, hk.ec kp hkp, hvv⟩
        · exact ⟨kp.key, hk.secret kp hkp, hvv⟩
      have halg' : ev.alg ∈ rsaAlgs ∨ ev.alg ∈ ecAlgs ∨ ev.alg ∈ hmacAlgs ∨ ev.alg = "none".toList := halg
      rw [← hje] at halg'
      rcases halg' with h1 | h1 | h1 | h1
      · exact .inr (fin (.inl h1))
      · exact .inr (fin (.inr (.inl h1)))
      · exact .inr (fin (.inr (.inr h1)))
      · exact .inl (hje ▸ h1)

/-- C162, the token: whatever a gateway started with the settings `t` sends, the route with the longest path that matches at
the beginning of the target of the request asked for no token, or was given one by the request that its jwt entry grants. -/
theorem C162_granted (B : Machinery K) (hsrt : IsRouteSort B.srt) (src : Sources) (t : Settings)
    (hw : src.Write B.yamlToJson t)
    (hp : ∀ r ∈ t.routes, (∃ p, r.path = '/' :: p) ∧ FollowsPath B.E r.path) (served : Str → List (Jwk K) → Prop)
    (hfetch : ∀ n url ks, B.fetch n url = some ks → served url ks) (x : Setup K) (hx : Running B src served x)
    (s : St) (h : x.Reaches s) (hc : s.calls ≠ []) :
    ∃ r ∈ t.routes, Selects r.path x.rq.requestURI ∧
      (∀ r' ∈ t.routes, Selects r'.path x.rq.requestURI → r'.path.length ≤ r.path.length) ∧
      (r.jwt ≠ [] → ∃ e, (r.jwt, e) ∈ t.jwt ∧ e.Grants B.X B.hmacKey served x.L x.now x.rq) := by
  obtain ⟨p, hps⟩ := List.exists_mem_of_ne_nil _ hc
  obtain ⟨r, hr, h1, h2, -, h3, -⟩ := sent_as_written B hsrt src t hw hp served hfetch x hx s h p hps
  exact ⟨r, hr, h1, h2, h3⟩

/-- If a route selects the target, it is a path, maybe with a query. -/
def Originates (t : Settings) (target : Str) : Prop := ∀ r ∈ t.routes, Selects r.path target → OriginForm target

/-- What is sent is what is written, with no user in the URI. -/
theorem sends_plain (B : Machinery K) (hsrt : IsRouteSort B.srt) (src : Sources) (t : Settings)
    (hE : ∀ r ∈ t.routes, FollowsPath B.E r.path) (hw : src.Write B.yamlToJson t) (hp : t.Plain) (served : Str → List (Jwk K) → Prop)
    (hfetch : ∀ n url ks, B.fetch n url = some ks → served url ks) (x : Setup K) (hx : Running B src served x)
    (u0 : Url) (hf : x.rq.From u0) (ho : Originates t x.rq.requestURI)
    (hbreak : ∀ r ∈ t.routes, r.transform = ['/'] → ∀ rest, x.rq.requestURI = r.path ++ rest →
      (rest = [] ∨ rest.head? = some '/' ∨ rest.head? = some '?') ∧ toUpper x.rq.method ≠ "CONNECT".toList)
    (s : St) (h : x.Reaches s) (p : Nat × UpReq) (hps : p ∈ s.calls) :
    t.Sends B.X B.hmacKey served x.L x.pick x.now x.rq (wireTarget p.2) (wireHost p.2) ∧
      (Url.parse p.2.uri).bind Url.user = none := by
  obtain ⟨r, hr, hsel, hlong, ⟨ms, hms, m, hm, huri, hpol⟩, hj, hmeth, hslash⟩ :=
    sent_as_written B hsrt src t hw (fun r hr => ⟨(hp.paths r hr).1, hE r hr⟩) served hfetch x hx s h p hps
  obtain ⟨hhost, hsch⟩ := hp.servers _ hms m hm
  have ho := ho r hr hsel
  by_cases h0 : r.transform = []
  · have huri' : p.2.uri = resolveUpstreamURI ⟨normScheme m.scheme, m.host, m.port⟩ { r.served with path := [] } x.rq.uri := by
      rw [huri, (C08_transform _ _ []).1 h0, (C08_transform _ { r.served with path := [] } []).1 h0]
    obtain ⟨w1, -, -, w4⟩ := wire_of hf ho (r := { r.served with path := [] }) rfl (rest := x.rq.requestURI) rfl
      (u := ⟨normScheme m.scheme, m.host, m.port⟩) (normScheme_http hsch) hhost hmeth huri'
    have w4 := w4 (.inl h0)
    refine ⟨⟨r, hr, hsel, hlong, ⟨[], fun h => absurd h0 h, ?_⟩, ⟨ms, hms, m, hm, w4.1, hpol⟩, hj⟩, w4.2⟩
    unfold RouteSettings.newTarget
    rw [if_pos h0]
    exact w1 h0
  · obtain ⟨hlit, hpt⟩ := (hp.paths r hr).2 h0
    obtain ⟨rest, hrest⟩ := (selects_literal hlit).1 hsel
    obtain ⟨w1, w2, w3, w4⟩ := wire_of hf ho (r := r.served) hpt hrest.symm
      (u := ⟨normScheme m.scheme, m.host, m.port⟩) (normScheme_http hsch) hhost hmeth huri
    have hbr := fun he => hbreak r hr he rest hrest.symm
    have htext := hp.transforms r hr
    have w4 := w4 ?_
    refine ⟨⟨r, hr, hsel, hlong, ⟨rest, fun _ => hrest.symm, ?_⟩, ⟨ms, hms, m, hm, w4.1, hpol⟩, hj⟩, w4.2⟩
    · unfold RouteSettings.newTarget
      rw [if_neg h0]
      split
      · rename_i h1
        exact w3 h1 (hbr h1).1 (hbr h1).2
      · rename_i h1
        obtain ⟨q, hq⟩ := hslash h0
        exact w2 q hq (fun hn => h1 (by rw [hq, hn])) htext
    · by_cases h1 : r.transform = ['/']
      · exact .inr (.inr ⟨h1, (hbr h1).1⟩)
      · obtain ⟨q, hq⟩ := hslash h0
        exact .inr (.inl ⟨htext, q, hq, fun hn => h1 (by rw [hq, hn])⟩)

/-- C162 (part): whatever a gateway started with the settings `t` sends, it sends as they say. Full statement: without
`hE`, `hp`, `ho` and `hbreak`. Missing: regular expressions with `|` (`hE`; see `C108_violated`) or with a transform (`hp`), targets
that are no path and query (`ho`) and, with the transform `/`, CONNECT and targets in which no new part begins after the path
(`hbreak`; for these it does not hold, `C162_violated`). -/
theorem C162_sends_partial (B : Machinery K) (hsrt : IsRouteSort B.srt) (src : Sources) (t : Settings)
    (hE : ∀ r ∈ t.routes, FollowsPath B.E r.path) (hw : src.Write B.yamlToJson t) (hp : t.Plain) (served : Str → List (Jwk K) → Prop)
    (hfetch : ∀ n url ks, B.fetch n url = some ks → served url ks) (x : Setup K) (hx : Running B src served x)
    (u0 : Url) (hf : x.rq.From u0) (ho : Originates t x.rq.requestURI)
    (hbreak : ∀ r ∈ t.routes, r.transform = ['/'] → ∀ rest, x.rq.requestURI = r.path ++ rest →
      (rest = [] ∨ rest.head? = some '/' ∨ rest.head? = some '?') ∧ toUpper x.rq.method ≠ "CONNECT".toList)
    (s : St) (h : x.Reaches s) (p : Nat × UpReq) (hps : p ∈ s.calls) :
    t.Sends B.X B.hmacKey served x.L x.pick x.now x.rq (wireTarget p.2) (wireHost p.2) :=
  (sends_plain B hsrt src t hE hw hp served hfetch x hx u0 hf ho hbreak s h p hps).1

/-- A gateway that has just started. -/
theorem running_fresh {B : Machinery K} {src : Sources} {served : Str → List (Jwk K) → Prop} {x : Setup K}
    (h : (bootStrap B src).1.some?.isSome = true) (he : x.E = B.E)
    (hc : bootFrom B.yamlToJson B.E B.validate B.srt src = some x.c) : Running B src served x := by
  obtain ⟨sv, hsv⟩ := Option.isSome_iff_exists.1 h
  refine ⟨⟨sv, Booted.some?_eq.1 hsv⟩, he, fun c hc' => ?_⟩
  rw [hc] at hc'
  obtain rfl := Option.some.inj hc'
  exact ⟨rfl, rfl, rfl, rfl, fun n j hl => ⟨j, [], mem_of_lookup hl, rfl, nofun⟩⟩

/-- A document with a route that asks for a token and has a transform. -/
def exSettings (transform : String) : Settings :=
  { routes := [{ path := "/a".toList, transform := transform.toList, resource := "r".toList, jwt := "j".toList }],
    jwt := [("j".toList, { alg := "HS256".toList, key := "secret".toList })],
    resources := [("r".toList, [{ scheme := "http://".toList, host := "up".toList, port := 80 }])] }

def exDocument (transform : String) : JVal :=
  .obj [("routes".toList, .arr [.obj [("path".toList, jstr "/a"), ("transform".toList, jstr transform),
      ("resource".toList, jstr "r"), ("jwt".toList, jstr "j")]]),
    ("jwt".toList, .obj [("j".toList, .obj [("alg".toList, jstr "HS256"), ("key".toList, jstr "secret")])]),
    ("resources".toList, .obj [("r".toList, .arr [.obj [("url".toList, .obj [("scheme".toList, jstr "http://"),
      ("host".toList, jstr "up"), ("port".toList, jnat 80)])]])])]

theorem exDocument_written {transform : String} (ht : transform = "/z" ∨ transform = "/") :
    (exSettings transform).Written (exDocument transform) := by
  rcases ht with rfl | rfl
  all_goals
    refine ⟨_, rfl, by decide, by decide, ?_⟩
    refine List.forall_mem_cons.mpr ⟨.inr ⟨rfl, by decide⟩, ?_⟩
    refine List.forall_mem_cons.mpr ⟨.inl ⟨_, .head _, by decide, _, rfl, .cons ?_ .nil⟩, ?_⟩
    · refine ⟨_, rfl, by decide, by decide, ?_⟩
      refine List.forall_mem_cons.mpr ⟨.inl ⟨_, .head _, by decide, rfl⟩, ?_⟩
      refine List.forall_mem_cons.mpr ⟨.inl ⟨_, .tail _ (.head _), by decide, rfl⟩, ?_⟩
      refine List.forall_mem_cons.mpr ⟨.inl ⟨_, .tail _ (.tail _ (.head _)), by decide, rfl⟩, ?_⟩
      refine List.forall_mem_cons.mpr ⟨.inr ⟨rfl, by decide⟩, ?_⟩
      refine List.forall_mem_cons.mpr ⟨.inl ⟨_, .tail _ (.tail _ (.tail _ (.head _))), by decide, rfl⟩, fun _ h => nomatch h⟩
    refine List.forall_mem_cons.mpr ⟨.inl ⟨_, .tail _ (.head _), by decide, by decide, _, rfl,
      .cons ⟨rfl, ?_⟩ .nil⟩, ?_⟩
    · refine ⟨_, rfl, by decide, by decide, ?_⟩
      refine List.forall_mem_cons.mpr ⟨.inl ⟨_, .head _, by decide, rfl⟩, ?_⟩
      refine List.forall_mem_cons.mpr ⟨.inl ⟨_, .tail _ (.head _), by decide, rfl⟩, ?_⟩
      refine List.forall_mem_cons.mpr ⟨.inr ⟨rfl, by decide⟩, ?_⟩
      refine List.forall_mem_cons.mpr ⟨.inr ⟨rfl, by decide⟩, fun _ h => nomatch h⟩
    refine List.forall_mem_cons.mpr ⟨.inl ⟨_, .tail _ (.tail _ (.head _)), by decide, by decide, _, rfl,
      .cons ⟨rfl, _, rfl, .cons ?_ .nil⟩ .nil⟩, ?_⟩
    · refine ⟨_, rfl, by decide, by decide, ?_⟩
      refine List.forall_mem_cons.mpr ⟨.inr ⟨rfl, by decide⟩, ?_⟩
      refine List.forall_mem_cons.mpr ⟨.inl ⟨_, .head _, by decide, ?_⟩, fun _ h => nomatch h⟩
      refine ⟨_, rfl, by decide, by decide, ?_⟩
      refine List.forall_mem_cons.mpr ⟨.inl ⟨_, .head _, by decide, rfl⟩, ?_⟩
      refine List.forall_mem_cons.mpr ⟨.inl ⟨_, .tail _ (.head _), by decide, rfl⟩, ?_⟩
      exact List.forall_mem_cons.mpr ⟨.inl ⟨_, .tail _ (.tail _ (.head _)), by decide, ⟨_, rfl⟩, by decide⟩,
        fun _ h => nomatch h⟩
    exact List.forall_mem_cons.mpr ⟨.inr ⟨rfl, by decide⟩, fun _ h => nomatch h⟩

/-- The gateway for it, whose library takes a secret for the key 1. -/
def exGateway (transform : String) : Machinery Nat := { exMachinery (exDocument transform) with hmacKey := fun _ => 1 }

/-- It, with a request for a target that carries a token. -/
def Demo.written (transform target : String) : Setup Nat :=
  { Demo.targeted transform target with
    c := (bootFrom (exGateway transform).yamlToJson literalEngine (exGateway transform).validate exSort
      { env := "…".toList }).getD {}
    rq := { (Demo.targeted transform target).rq with header := [("Authorization".toList, ["Bearer v".toList])] } }

theorem exSettings_plain {transform : String} (h : pathText transform.toList = true) : (exSettings transform).Plain := by
  refine ⟨fun r hr => ?_, fun r hr => ?_, fun e he m hm => ?_⟩
  · obtain rfl := List.mem_singleton.1 hr
    exact ⟨⟨['a'], rfl⟩, fun _ => ⟨(by decide : Literal "/a".toList), (by decide +kernel : pathText "/a".toList = true)⟩⟩
  · obtain rfl := List.mem_singleton.1 hr
    exact h
  · obtain rfl := List.mem_singleton.1 he
    obtain rfl := List.mem_singleton.1 hm
    exact ⟨.inl ⟨by decide, by decide +kernel⟩, .inr ⟨[], "://".toList, rfl⟩⟩

theorem exGateway_follows (transform : String) : ∀ r ∈ (exSettings transform).routes, FollowsPath (exGateway transform).E r.path := by
  intro r hr
  obtain rfl := List.mem_singleton.1 hr
  exact follows_literal literalEngine_law (by decide : Literal "/a".toList)

theorem exGateway_written {transform : String} (ht : transform = "/z" ∨ transform = "/") :
    ({ env := "…".toList } : Sources).Write (exGateway transform).yamlToJson (exSettings transform) :=
  ⟨_, _, .env (.inl rfl) (by decide), rfl, exDocument_written ht⟩

theorem getD_of_some {α : Type} {o : Option α} {d : α} (h : o.isSome = true) : o = some (o.getD d) := by
  cases o with
  | none => cases h
  | some a => rfl

theorem Demo.written_running {transform target : String} (ht : transform = "/z" ∨ transform = "/")
    (served : Str → List (Jwk Nat) → Prop) :
    Running (exGateway transform) { env := "…".toList } served (Demo.written transform target) := by
  refine running_fresh ?_ rfl (getD_of_some ?_) <;> rcases ht with rfl | rfl <;> decide +kernel

theorem Demo.written_from {transform target : String} (h : (requestUrl "get".toList target.toList).isSome = true) :
    ∃ u, (Demo.written transform target).rq.From u := by
  obtain ⟨u, hu⟩ := Demo.targeted_from (transform := transform) h
  exact ⟨u, hu.url, hu.uri⟩

/-- All assumptions hold for a gateway started with the document, and a request with a token goes where it says. -/
example : (exSettings "/z").Plain ∧ (∀ r ∈ (exSettings "/z").routes, FollowsPath (exGateway "/z").E r.path) ∧ IsRouteSort (exGateway "/z").srt ∧
    ({ env := "…".toList } : Sources).Write (exGateway "/z").yamlToJson (exSettings "/z") ∧
    Running (exGateway "/z") { env := "…".toList } (fun _ _ => False) (Demo.written "/z" "/a/b?c") ∧
    (∃ u, (Demo.written "/z" "/a/b?c").rq.From u) ∧ OriginForm "/a/b?c".toList ∧
    Demo.check (Demo.written "/z" "/a/b?c") (Demo.success Demo.ok) (fun s =>
      s.calls.map (fun p => (wireTarget p.2, wireHost p.2)) == [(some "/z/b?c".toList, some "up:80".toList)]) = true :=
  ⟨exSettings_plain (by decide +kernel), exGateway_follows _, exSort_isSort, exGateway_written (.inl rfl),
    Demo.written_running (.inl rfl) _, Demo.written_from (by decide +kernel),
    ⟨"a/b".toList, by decide +kernel, .inr ⟨"c".toList, by decide +kernel, by decide⟩⟩, by decide +kernel⟩

/-- Without the token, nothing is sent: what `C162_granted` asks for is not there. -/
example : Demo.check { Demo.written "/z" "/a/b?c" with rq := (Demo.targeted "/z" "/a/b?c").rq } [Demo.go, Demo.go]
    (fun s => s.calls.isEmpty && s.sent.map (·.status) == [401]) = true := by decide +kernel

/-- A document with a path that is a regular expression, and a route to elsewhere. -/
def patternSettings : Settings :=
  { routes := [{ path := "/v1".toList, resource := "q".toList }, { path := "/v[0-9]+/x".toList, resource := "r".toList }],
    resources := [("q".toList, [{ scheme := "http://".toList, host := "other".toList, port := 80 }]),
      ("r".toList, [{ scheme := "http://".toList, host := "up".toList, port := 80 }])] }

def patternDocument : JVal :=
  .obj [("routes".toList, .arr [.obj [("path".toList, jstr "/v1"), ("resource".toList, jstr "q")],
      .obj [("path".toList, jstr "/v[0-9]+/x"), ("resource".toList, jstr "r")]]),
    ("resources".toList, .obj [
      ("q".toList, .arr [.obj [("url".toList, .obj [("scheme".toList, jstr "http://"), ("host".toList, jstr "other"), ("port".toList, jnat 80)])]]),
      ("r".toList, .arr [.obj [("url".toList, .obj [("scheme".toList, jstr "http://"), ("host".toList, jstr "up"), ("port".toList, jnat 80)])]])])]

theorem patternDocument_written : patternSettings.Written patternDocument := by
  have route : ∀ p r : String, p = "/v1" ∧ r = "q" ∨ p = "/v[0-9]+/x" ∧ r = "r" → ({ path := p.toList, resource := r.toList } : RouteSettings).Written
      (.obj [("path".toList, jstr p), ("resource".toList, jstr r)]) := by
    rintro p r (⟨rfl, rfl⟩ | ⟨rfl, rfl⟩)
    all_goals
      refine ⟨_, rfl, by decide, by decide, ?_⟩
      refine List.forall_mem_cons.mpr ⟨.inl ⟨_, .head _, by decide, rfl⟩, ?_⟩
      refine List.forall_mem_cons.mpr ⟨.inr ⟨rfl, by decide⟩, ?_⟩
      refine List.forall_mem_cons.mpr ⟨.inl ⟨_, .tail _ (.head _), by decide, rfl⟩, ?_⟩
      refine List.forall_mem_cons.mpr ⟨.inr ⟨rfl, by decide⟩, ?_⟩
      exact List.forall_mem_cons.mpr ⟨.inr ⟨rfl, by decide⟩, fun _ h => nomatch h⟩
  have server : ∀ h : String, h = "other" ∨ h = "up" → ({ scheme := "http://".toList, host := h.toList, port := 80 } : ServerSettings).Written
      (.obj [("url".toList, .obj [("scheme".toList, jstr "http://"), ("host".toList, jstr h), ("port".toList, jnat 80)])]) := by
    rintro h (rfl | rfl)
    all_goals
      refine ⟨_, rfl, by decide, by decide, ?_⟩
      refine List.forall_mem_cons.mpr ⟨.inr ⟨rfl, by decide⟩, ?_⟩
      refine List.forall_mem_cons.mpr ⟨.inl ⟨_, .head _, by decide, ?_⟩, fun _ h => nomatch h⟩
      refine ⟨_, rfl, by decide, by decide, ?_⟩
      refine List.forall_mem_cons.mpr ⟨.inl ⟨_, .head _, by decide, rfl⟩, ?_⟩
      refine List.forall_mem_cons.mpr ⟨.inl ⟨_, .tail _ (.head _), by decide, rfl⟩, ?_⟩
      exact List.forall_mem_cons.mpr ⟨.inl ⟨_, .tail _ (.tail _ (.head _)), by decide, ⟨_, rfl⟩, by decide⟩, fun _ h => nomatch h⟩
  refine ⟨_, rfl, by decide, by decide, ?_⟩
  refine List.forall_mem_cons.mpr ⟨.inr ⟨rfl, by decide⟩, ?_⟩
  refine List.forall_mem_cons.mpr ⟨.inl ⟨_, .head _, by decide, _, rfl, .cons (route _ _ (.inl ⟨rfl, rfl⟩)) (.cons (route _ _ (.inr ⟨rfl, rfl⟩)) .nil)⟩, ?_⟩
  refine List.forall_mem_cons.mpr ⟨.inr ⟨rfl, by decide⟩, ?_⟩
  refine List.forall_mem_cons.mpr ⟨.inl ⟨_, .tail _ (.head _), by decide, by decide, _, rfl,
    .cons ⟨rfl, _, rfl, .cons (server _ (.inl rfl)) .nil⟩ (.cons ⟨rfl, _, rfl, .cons (server _ (.inr rfl)) .nil⟩ .nil)⟩, ?_⟩
  exact List.forall_mem_cons.mpr ⟨.inr ⟨rfl, by decide⟩, fun _ h => nomatch h⟩

/-- The gateway for it, with the regular expressions of Go. -/
def patternGateway : Machinery Nat := { exMachinery patternDocument with E := goRegexp literalEngine }

def Demo.patterned (target : String) : Setup Nat :=
  { Demo.targeted "" target with
    E := patternGateway.E
    c := (bootFrom patternGateway.yamlToJson patternGateway.E patternGateway.validate exSort { env := "…".toList }).getD {} }

theorem patternSettings_plain : patternSettings.Plain := by
  refine ⟨fun r hr => ?_, fun r hr => ?_, fun e he m hm => ?_⟩
  · rcases List.mem_cons.1 hr with rfl | hr
    · exact ⟨⟨_, rfl⟩, fun h => absurd rfl h⟩
    · obtain rfl := List.mem_singleton.1 hr
      exact ⟨⟨_, rfl⟩, fun h => absurd rfl h⟩
  · rcases List.mem_cons.1 hr with rfl | hr
    · rfl
    · obtain rfl := List.mem_singleton.1 hr
      rfl
  · rcases List.mem_cons.1 he with rfl | he
    · obtain rfl := List.mem_singleton.1 hm
      exact ⟨.inl ⟨by decide, by decide +kernel⟩, .inr ⟨[], "://".toList, rfl⟩⟩
    · obtain rfl := List.mem_singleton.1 he
      obtain rfl := List.mem_singleton.1 hm
      exact ⟨.inl ⟨by decide, by decide +kernel⟩, .inr ⟨[], "://".toList, rfl⟩⟩

theorem patternGateway_follows : ∀ r ∈ patternSettings.routes, FollowsPath patternGateway.E r.path := by
  intro r hr
  rcases List.mem_cons.1 hr with rfl | hr
  · exact follows_pattern (p := "/v1".toList) literalEngine ((parse_iff _ _).1 rfl) (by decide)
  · obtain rfl := List.mem_singleton.1 hr
    exact follows_pattern (p := "/v[0-9]+/x".toList) literalEngine ((parse_iff _ _).1 rfl) (by decide)

/-- All assumptions hold for a path that is a regular expression, too, and a request that both paths match is sent along the
longer one. -/
example : patternSettings.Plain ∧ (∀ r ∈ patternSettings.routes, FollowsPath patternGateway.E r.path) ∧ IsRouteSort patternGateway.srt ∧
    ({ env := "…".toList } : Sources).Write patternGateway.yamlToJson patternSettings ∧
    Running patternGateway { env := "…".toList } (fun _ _ => False) (Demo.patterned "/v12/x/y?c") ∧
    (∃ u, (Demo.patterned "/v12/x/y?c").rq.From u) ∧ OriginForm "/v12/x/y?c".toList ∧
    Selects "/v1".toList "/v12/x/y?c".toList ∧ Selects "/v[0-9]+/x".toList "/v12/x/y?c".toList ∧
    Demo.check (Demo.patterned "/v12/x/y?c") (Demo.success Demo.ok) (fun s =>
      s.calls.map (fun p => (wireTarget p.2, wireHost p.2)) == [(some "/v12/x/y?c".toList, some "up:80".toList)]) = true ∧
    Demo.check (Demo.patterned "/v12/y") (Demo.success Demo.ok) (fun s =>
      s.calls.map (fun p => (wireTarget p.2, wireHost p.2)) == [(some "/v12/y".toList, some "other:80".toList)]) = true := by
  refine ⟨patternSettings_plain, patternGateway_follows, exSort_isSort, ⟨_, _, .env (.inl rfl) (by decide), rfl, patternDocument_written⟩,
    running_fresh (by decide +kernel) rfl (getD_of_some (d := {}) (by decide +kernel)), Demo.targeted_from (transform := "") (target := "/v12/x/y?c") (by decide +kernel),
    ⟨"v12/x/y".toList, by decide +kernel, .inr ⟨"c".toList, by decide +kernel, by decide⟩⟩,
    (patternGateway_follows _ (.head _) _).1 (by decide +kernel), (patternGateway_follows _ (.tail _ (.head _)) _).1 (by decide +kernel),
    by decide +kernel, by decide +kernel⟩

/-- C162 fails: a gateway started with a document in which the transform of `/a` is `/` sends a request for
`/a@evil.com/x` to a host that the document does not name. -/
theorem C162_violated : (exSettings "/").Plain ∧ (∀ r ∈ (exSettings "/").routes, FollowsPath (exGateway "/").E r.path) ∧ IsRouteSort (exGateway "/").srt ∧
    ({ env := "…".toList } : Sources).Write (exGateway "/").yamlToJson (exSettings "/") ∧
    ∃ x : Setup Nat, Running (exGateway "/") { env := "…".toList } (fun _ _ => False) x ∧ (∃ u, x.rq.From u) ∧
      OriginForm x.rq.requestURI ∧ ∃ s, x.Reaches s ∧ ∃ p ∈ s.calls, wireHost p.2 = some "evil.com".toList ∧
        ¬ (exSettings "/").Sends (exGateway "/").X (exGateway "/").hmacKey (fun _ _ => False) x.L x.pick x.now x.rq
          (wireTarget p.2) (wireHost p.2) := by
  refine ⟨exSettings_plain (by decide +kernel), exGateway_follows _, exSort_isSort, exGateway_written (.inr rfl),
    Demo.written "/" "/a@evil.com/x", Demo.written_running (.inr rfl) _, Demo.written_from (by decide +kernel),
    ⟨"a@evil.com/x".toList, by decide +kernel, .inl rfl⟩, ?_⟩
  obtain ⟨s, h1, h2⟩ := Demo.of_check (x := Demo.written "/" "/a@evil.com/x") (as := Demo.success Demo.ok)
    (p := fun s => s.calls.map (fun p => wireHost p.2) == [some "evil.com".toList]) (by decide +kernel)
  have h2 : s.calls.map (fun p => wireHost p.2) = [some "evil.com".toList] := by simpa using h2
  refine ⟨s, Demo.reaches h1, ?_⟩
  obtain ⟨p, hc, hp⟩ := List.map_eq_singleton_iff.1 h2
  refine ⟨p, by rw [hc]; simp, hp, ?_⟩
  rintro ⟨r, hr, -, -, -, ⟨ms, hms, m, hm, hh, -⟩, -⟩
  obtain rfl := List.mem_singleton.1 hr
  have := List.mem_singleton.1 hms
  simp only [Prod.mk.injEq] at this
  obtain ⟨-, rfl⟩ := this
  obtain rfl := List.mem_singleton.1 hm
  rw [hp] at hh
  revert hh
  decide

end J8a

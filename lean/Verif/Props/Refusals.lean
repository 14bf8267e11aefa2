import Verif.Props.EndToEnd
/-!
# C163: refusals come from the document
-/
namespace J8a
open Go Uri

variable {K : Type}

/-! ## What is asked for, in terms of the document -/

/-- The limit for bodies: as written, 2 MiB if nothing is. -/
def Settings.bodyLimit (t : Settings) : Int :=
  if t.connection.downstream.maxBodyBytes = 0 then 2097152 else t.connection.downstream.maxBodyBytes

/-- A key that the gateway has had for a jwt entry since it was started: it stands in the entry, or it was in the document `got`
served at the URL of the entry, as the only one with its kid. -/
def JwtSettings.Holds (e : JwtSettings) (X : X509 K) (hmacKey : Str → K) (got : Option (List (Jwk K))) (key : K) : Prop :=
  e.key ≠ [] ∧ e.Stands X hmacKey (fun _ _ => False) key ∨
  e.key = [] ∧ e.jwksUrl ≠ [] ∧ ∃ ks, got = some ks ∧ ∃ k ∈ ks, (∀ k' ∈ ks, k'.kid = k.kid → k' = k) ∧ Usable e.alg k key

/-- The request carries a token that is in time, and signed with a key that the gateway has had since it was started, unless the
entry asks for no signature. -/
def JwtSettings.Passes (e : JwtSettings) (X : X509 K) (hmacKey : Str → K) (got : Option (List (Jwk K))) (L : Jwx K) (now : Int) (rq : Request) : Prop :=
  ∃ token c skew, Presents rq token ∧ L.parse token = some c ∧
    e.Skew skew ∧ skew * 1000 < now ∧ now ≤ 9000000000000 ∧ c.Present ∧ (L.skipsEpoch = false ∨ c.NotEpoch) ∧
    DatesOk L.nbfStrict skew now c ∧
    (e.alg = "none".toList ∨ (∃ n, L.signatures token = some (n + 1)) ∧
      ∃ key, e.Holds X hmacKey got key ∧ (L.parseVerify e.alg key token).isSome = true)

/-- The document gives a reason to refuse the request with that status. `tooLong` tells lengths from the limit; `fetch` is what
was served at the URLs of the jwt entries when the gateway was started. -/
def Settings.Refuses (t : Settings) (X : X509 K) (hmacKey : Str → K) (fetch : Str → Str → Option (List (Jwk K))) (L : Jwx K) (pick : Policy → Str) (now : Int)
    (tooLong : Int → Int → Prop) (rq : Request) (code : Int) : Prop :=
  (code = 413 ∧ rq.contentLength ≠ 0 ∧ tooLong rq.contentLength t.bodyLimit) ∨
  (code = 400 ∧ toUpper rq.method ∉ proxiedMethods) ∨
  (code = 404 ∧ ∀ r ∈ t.routes, ¬ Selects r.path rq.requestURI) ∨
  ∃ r ∈ t.routes, Selects r.path rq.requestURI ∧
    (∀ r' ∈ t.routes, Selects r'.path rq.requestURI → r'.path.length ≤ r.path.length) ∧
    ((code = 401 ∧ r.jwt ≠ [] ∧ ∃ e, (r.jwt, e) ∈ t.jwt ∧ ¬ e.Passes X hmacKey (fetch r.jwt e.jwksUrl) L now rq) ∨
      (code = 503 ∧ ∀ ms, (r.resource, ms) ∈ t.resources →
        r.policy ≠ [] ∧ ∀ m ∈ ms, pick (t.policy r.policy) ∉ m.labels))

/-! ## Keys that stand in the document are in use -/

theorem PemHolds.det {X : X509 K} {pem : Str} {types : List Str} {a b : PubKey K} (ha : PemHolds X pem types a)
    (hb : PemHolds X pem types b) : a = b := by
  cases ha with
  | publicKey h1 _ h2 h3 => cases hb with
    | publicKey g1 _ g2 g3 =>
      rw [h1] at g1; cases g1
      rw [h3] at g3; cases g3; rfl
    | certificate g1 _ g3 => rw [h1] at g1; cases g1; exact absurd rfl h2
  | certificate h1 _ h3 => cases hb with
    | publicKey g1 _ g2 g3 => rw [h1] at g1; cases g1; exact absurd rfl g2
    | certificate g1 _ g3 =>
      rw [h1] at g1; cases g1
      rw [h3] at g3; cases g3; rfl

theorem upsert_nil (kp : KidPair K) : KeySet.upsert ([] : KeySet K) kp = [kp] := rfl

theorem loadLoop_alg {ks : List (Jwk K)} {j j' : Jwt K} {err : Bool} (h : loadLoop j err ks = .done j' false) :
    ∀ k ∈ ks, k.alg = j.alg := by
  induction ks generalizing j err with
  | nil => exact fun k hk => nomatch hk
  | cons k ks ih =>
    unfold loadLoop at h
    split at h
    · cases h
    · rename_i hc
      have ha : k.alg = j.alg := Classical.byContradiction fun hne => hc (.inr fun h => hne h.symm)
      have fin : ∀ (j1 : Jwt K) (e : Bool), loadLoop j1 e ks = .done j' false → j1.alg = j.alg → ∀ k0 ∈ k :: ks, k0.alg = j.alg := by
        intro j1 e h2 h1 k0 hk0
        rcases List.mem_cons.1 hk0 with rfl | hk0
        · exact ha
        · rw [← h1]
          exact ih h2 k0 hk0
      split at h
      · split at h
        · exact fin _ _ h rfl
        · exact fin _ _ h rfl
      · split at h
        · split at h
          · exact fin _ _ h rfl
          · exact fin _ _ h rfl
        · cases h
      · exact fin _ _ h rfl

theorem mem_of_find {ks : KeySet K} {kid : Str} {key : K} (h : ks.find kid = some key) : ∃ kp ∈ ks, kp.kid = kid ∧ kp.key = key := by
  obtain ⟨kp, h1, h2⟩ := Option.map_eq_some_iff.1 h
  exact ⟨kp, List.mem_of_find?_eq_some h1, by simpa using List.find?_some h1, h2⟩

/-- A document that is loaded into an empty entry without an error leaves its keys there. -/
theorem loaded_unique {j j' : Jwt K} {ks : List (Jwk K)} (h : loadJwks j (some ks) = .done j' false) (h1 : j.rsaPublic = [])
    (h2 : j.ecdsaPublic = []) {k : Jwk K} (hk : k ∈ ks) (hun : ∀ k' ∈ ks, k'.kid = k.kid → k' = k) {key : K} (hu : Usable j.alg k key) :
    (j.alg ∈ rsaAlgs ∧ ∃ kp ∈ j'.rsaPublic, kp.key = key) ∨ (j.alg ∈ ecAlgs ∧ ∃ kp ∈ j'.ecdsaPublic, kp.key = key) := by
  have hl : ∀ k ∈ ks, k.alg = j.alg := by
    unfold loadJwks at h
    split at h
    · cases h
    · cases h
    · rename_i he
      obtain rfl := Option.some.inj he
      exact loadLoop_alg h
  have hr := loadJwks_rel h
  obtain ⟨key', hin⟩ := C99_all_loaded_partial j j' ks [] false (by rw [List.append_nil]; exact h) hl k hk key hu
  rcases hin with ⟨ha, hf⟩ | ⟨ha, hf⟩
  · left
    rw [hr.alg] at ha
    obtain ⟨kp, g1, g2, g3⟩ := mem_of_find hf
    refine ⟨ha, kp, g1, ?_⟩
    rcases hr.rsaFrom kp g1 with g4 | ⟨-, k2, g5, -, g6, g7⟩
    · rw [h1] at g4
      cases g4
    · obtain rfl := hun k2 g5 (g6.trans g2)
      rcases hu.2 with ⟨-, hu⟩ | ⟨he, -⟩
      · rw [g7] at hu
        cases hu
        rfl
      · exact absurd he (not_both ha)
  · right
    rw [hr.alg] at ha
    obtain ⟨kp, g1, g2, g3⟩ := mem_of_find hf
    refine ⟨ha, kp, g1, ?_⟩
    rcases hr.ecFrom kp g1 with g4 | ⟨-, k2, g5, bits, -, g6, g7, -⟩
    · rw [h2] at g4
      cases g4
    · obtain rfl := hun k2 g5 (g6.trans g2)
      rcases hu.2 with ⟨he, -⟩ | ⟨-, bits', hu, -⟩
      · exact absurd ha (not_both he)
      · rw [g7] at hu
        cases hu
        rfl

theorem boot_has_key {X : X509 K} {hk : Str → K} {uuid : Str → Str} {fetch : Str → Str → Option (List (Jwk K))}
    {n : Str} {e : JwtSettings} {j' : Jwt K} (h : bootJwt X hk uuid fetch n e.meant = some j') {key : K}
    (hs : e.Holds X hk (fetch n e.jwksUrl) key) : j'.alg = e.alg ∧
      ((e.alg ∈ rsaAlgs ∧ ∃ kp ∈ j'.rsaPublic, kp.key = key) ∨ (e.alg ∈ ecAlgs ∧ ∃ kp ∈ j'.ecdsaPublic, kp.key = key) ∨
        (e.alg ∈ hmacAlgs ∧ ∃ kp ∈ j'.secret, kp.key = key)) := by
  unfold bootJwt at h
  split at h
  case h_2 => cases h
  rename_i j1 hv
  cases h
  obtain ⟨sk, hv⟩ := validate_steps hv
  rcases hs with ⟨hne, hs⟩ | ⟨h0, hu, ks, hks, hin⟩
  case inr =>
    rcases hv with ⟨-, hp⟩ | ⟨hp, -⟩ | ⟨-, -, hp⟩
    · exact absurd h0 hp
    · have hp' : loadJwks { ({ (e.meant : Jwt K) with name := n } : Jwt K) with acceptableSkewSeconds := sk }
          (fetch n e.jwksUrl) = .done j' false := hp
      rw [hks] at hp'
      obtain ⟨k, hk1, hk2, hk3⟩ := hin
      refine ⟨(loadJwks_rel hp').alg, ?_⟩
      rcases loaded_unique hp' rfl rfl hk1 hk2 hk3 with h | h
      · exact .inl h
      · exact .inr (.inl h)
    · exact absurd hp hu
  rcases hv with ⟨hp, -⟩ | ⟨-, h0⟩ | ⟨-, h0, -⟩
  case inr.inl => exact absurd h0 hne
  case inr.inr => exact absurd h0 hne
  generalize hj : ({ ({ (e.meant : Jwt K) with name := n } : Jwt K) with acceptableSkewSeconds := sk } : Jwt K) = j at hp
  have hk0 : j.key = e.key := by rw [← hj]; rfl
  have e1 : j.rsaPublic = [] := by rw [← hj]; rfl
  have e2 : j.ecdsaPublic = [] := by rw [← hj]; rfl
  have e3 : j.secret = [] := by rw [← hj]; rfl
  have ha : j.alg = e.alg := by rw [← hj]; rfl
  cases hs with
  | secret hm _ =>
    have hf := family_hmac.2 (ha ▸ hm : j.alg ∈ hmacAlgs)
    simp only [parseKey, hf] at hp
    split at hp
    · simp only [Outcome.done.injEq, and_true] at hp
      subst hp
      refine ⟨ha, .inr (.inr ⟨hm, ?_⟩)⟩
      simp only [e3, upsert_nil, hk0]
      exact ⟨_, List.mem_singleton.2 rfl, rfl⟩
    · cases hp
  | rsa hm hpem =>
    obtain ⟨key', kid, hpem', rfl⟩ := C26_rsa X hk (uuid n) j j' (ha ▸ hm) hp
    cases (hk0 ▸ hpem').det hpem
    refine ⟨ha, .inl ⟨hm, ?_⟩⟩
    simp only [e1, upsert_nil]
    exact ⟨_, List.mem_singleton.2 rfl, rfl⟩
  | ec hm hpem _ =>
    obtain ⟨key', kid, bits, hpem', -, rfl⟩ := C26_ec X hk (uuid n) j j' (ha ▸ hm) hp
    cases (hk0 ▸ hpem').det hpem
    refine ⟨ha, .inr (.inl ⟨hm, ?_⟩)⟩
    simp only [e2, upsert_nil]
    exact ⟨_, List.mem_singleton.2 rfl, rfl⟩
  | served h => exact h.elim

theorem accept_of_verified {L : Jwx K} {j : Jwt K} {now : Int} {auth token : Str} {c : Claims}
    (hb : bearerToken auth = some token) (hp : L.parse token = some c)
    (hd : dateClaimsOk L.skipsEpoch L.nbfStrict (skewOf j) now c = true)
    (hv : j.keySet = none ∨ (∃ n, L.signatures token = some (n + 1)) ∧ Verified L j token) :
    validateToken L j now auth = .accept := by
  cases hk : j.keySet with
  | none => simp only [validateToken, hb, hk, hp, hd, if_true]
  | some ks =>
    rcases hv with h | ⟨⟨n, hn⟩, hv⟩
    · rw [hk] at h; cases h
    · obtain ⟨kp, hkp, hs⟩ := (verified_iff L j token ks hk).1 hv
      obtain ⟨c0, hc0⟩ := Option.isSome_iff_exists.1 hs
      obtain ⟨c', hc'⟩ := (C17_some_key L j.alg token ks (n + 1) hn (by omega)).2 ⟨kp, hkp, c0, hc0⟩
      simp only [validateToken, hb, hk, hc', hp, hd, if_true]

theorem none_keySet {j : Jwt K} (h : j.alg = "none".toList) : j.keySet = none := by
  have hf : family "none".toList = .none := by decide
  unfold Jwt.keySet
  rw [h, hf]

theorem written_nodup {t : Settings} {v : JVal} (h : t.Written v) : (t.resources.map Prod.fst).Nodup := by
  obtain ⟨kvs, -, -, -, h⟩ := h
  rcases h ⟨"resources", WritesMap (WritesList ServerSettings.Written) t.resources, t.resources = []⟩ (by simp) with
    ⟨kv, -, -, h⟩ | ⟨h, -⟩
  · exact h.1
  · have h : t.resources = [] := h
    rw [h]
    exact List.nodup_nil

theorem lookup_of_mem_nodup {α : Type} {l : List (Str × α)} (hn : (l.map Prod.fst).Nodup) {n : Str} {a : α}
    (h : (n, a) ∈ l) : l.lookup n = some a := by
  induction l with
  | nil => cases h
  | cons e l ih =>
    obtain ⟨m, b⟩ := e
    rw [List.map_cons, List.nodup_cons] at hn
    rw [List.lookup_cons]
    rcases List.mem_cons.1 h with h' | h'
    · cases h'
      simp
    · split
      · rename_i hm
        obtain rfl : n = m := by simpa using hm
        exact absurd (List.mem_map_of_mem (f := Prod.fst) h') hn.1
      · exact ih hn.2 h'

/-! ## C163 -/

/-- C163 (part): the answers that a running gateway gives without asking an upstream have a reason in the document; 502
and 504 come from attempts that failed. Full statement: with `tooLong` for lengths above the limit. Missing: the length
that is the limit (`C163_violated`), paths with `|` (`hp`; see `C108_violated`), and tokens signed with keys that were not served
before the start (`Passes` asks for a key that stands in the document, or was served at the `jwksUrl` of the entry at the start, so
401 is not questioned for others; see `C100_violated_no_kid`). -/
theorem C163_refuses_partial (B : Machinery K) (hsrt : IsRouteSort B.srt) (src : Sources)
    (t : Settings) (hw : src.Write B.yamlToJson t)
    (hp : ∀ r ∈ t.routes, (∃ p, r.path = '/' :: p) ∧ FollowsPath B.E r.path) (served : Str → List (Jwk K) → Prop)
    (x : Setup K) (hx : Running B src served x) (hl : -1 ≤ x.rq.contentLength)
    (s : St) (h : x.Reaches s) (hc : s.calls = []) (y : Sent) (hy : y ∈ s.sent) :
    y.status = 502 ∨ y.status = 504 ∨
      t.Refuses B.X B.hmacKey B.fetch x.L x.pick x.now (fun n limit => limit ≤ n) x.rq y.status := by
  obtain ⟨c', hbf, hb⟩ := started_boot hw hx.started
  obtain ⟨hroutes, hpol, hres, hconn, hjwt⟩ := hx.config c' hbf
  obtain ⟨-, -, -, hhas, -, hpc, hrc, hcc⟩ := boot_elim hb
  have hfrom := booted_routes hsrt hb fun r hr => (hp r hr).1
  have hmatch : ∀ r0 ∈ t.routes, r0.served.matchURI B.E x.rq.requestURI = true ↔ Selects r0.path x.rq.requestURI :=
    fun r0 hr0 => served_match (hp r0 hr0).2 _
  rcases own_status h hc hy with ⟨msg, hd⟩ | h5 | h5
  case inr.inl => exact .inl h5
  case inr.inr => exact .inr (.inl h5)
  refine .inr (.inr ?_)
  rcases decision_respond hd with ⟨h1, h2⟩ | ⟨h1, -, h2⟩ | ⟨-, -, ⟨h1, h2⟩ | ⟨r, hr, h2⟩⟩
  · left
    obtain ⟨h3, h4⟩ := (tooLarge_iff hl).1 h2
    refine ⟨h1, h3, ?_⟩
    have : x.maxBody = t.bodyLimit := by
      unfold Setup.maxBody
      rw [hconn, hcc]
      exact (C10_downstream_defaults t.connection.downstream).2.2.2.1
    rw [← this]
    exact h4
  · exact .inr (.inl ⟨h1, h2⟩)
  · refine .inr (.inr (.inl ⟨h1, fun r0 hr0 hpre => ?_⟩))
    rw [hx.engine, hroutes] at h2
    have := ((C01_longest_match hsrt hb _).2.1 h2) _ ((hfrom _).2 ⟨r0, hr0, rfl⟩)
    rw [(hmatch r0 hr0).2 hpre] at this
    cases this
  · right; right; right
    rw [hx.engine, hroutes] at hr
    obtain ⟨hmem, hmat, hlong⟩ := (C01_longest_match hsrt hb _).1 r hr
    obtain ⟨r0, hr0, rfl⟩ := (hfrom r).1 hmem
    refine ⟨r0, hr0, (hmatch r0 hr0).1 hmat, fun r' hr' hpre => ?_, ?_⟩
    · exact hlong _ ((hfrom _).2 ⟨r', hr', rfl⟩) ((hmatch r' hr').2 hpre)
    · rcases h2 with ⟨h1, ha⟩ | ⟨h1, -, hm⟩
      · left
        have hj : r0.served.hasJwt = true := by
          refine Classical.byContradiction fun hn => ?_
          unfold authorise at ha
          rw [if_neg hn] at ha
          cases ha
        have hne : r0.jwt ≠ [] := by
          unfold Route.hasJwt at hj
          simpa [List.length_pos_iff, RouteSettings.served] using hj
        refine ⟨h1, hne, ?_⟩
        unfold authorise at ha
        rw [if_pos hj] at ha
        have hjv : r0.served.jwt = r0.jwt := rfl
        simp only [hjv] at ha
        obtain ⟨-, -, -, -, -, -, hval⟩ := C13_boot_sound hsrt hb
        cases hlk : x.c.jwt.lookup r0.jwt with
        | none =>
          obtain ⟨r1, hr1, hr1e⟩ : ∃ r1 ∈ (t.present (K := K)).routes, r1.jwt = r0.jwt := ⟨_, List.mem_map.2 ⟨r0, hr0, rfl⟩, rfl⟩
          have := hhas r1 hr1 (by unfold Route.hasJwt; rw [hr1e]; simpa [List.length_pos_iff] using hne)
          rw [hr1e] at this
          obtain ⟨j0, hj0⟩ := Option.isSome_iff_exists.1 this
          obtain ⟨j1, hj1, -⟩ := hval _ _ (mem_of_lookup hj0)
          obtain ⟨⟨en, ev⟩, he, hee⟩ := List.mem_map.1 hj1
          simp only [Prod.mk.injEq] at hee
          obtain ⟨rfl, rfl⟩ := hee
          refine ⟨ev, he, ?_⟩
          rintro ⟨token, c, skew, hpr, -⟩
          rw [hlk] at ha
          simp only [(presents_iff _ _).1 hpr, Option.isSome_some, if_true] at ha
          cases ha
        | some j =>
          rw [hlk] at ha
          simp only at ha
          obtain ⟨j0, docs, hj0, hdocs, -⟩ := hjwt _ _ hlk
          obtain ⟨j1, hj1, hv1⟩ := hval _ _ hj0
          obtain ⟨⟨en, ev⟩, he, hee⟩ := List.mem_map.1 hj1
          simp only [Prod.mk.injEq] at hee
          obtain ⟨hen, rfl⟩ := hee
          refine ⟨ev, hen ▸ he, ?_⟩
          rintro ⟨token, c, skew, hpr, hpa, hsk, g1, g2, g3, g4, hda, hver⟩
          have hj2 : ({ (ev.meant : Jwt K) with name := r0.jwt } : Jwt K).validate B.X B.hmacKey (B.uuid r0.jwt)
              (B.fetch r0.jwt) = .done j0 false := by
            have hv2 := hv1
            unfold Machinery.validate bootJwt at hv2
            split at hv2
            · rename_i j2 hj2
              rw [hj2, Option.some.inj hv2]
            · cases hv2
          obtain ⟨halg0, -, ⟨n, hn0, hn1, hn2, hn3⟩, -⟩ := C25_validate_sound _ _ _ _ _ _ hj2
          obtain ⟨hsame, -, hskw, hsec, hpr1, hpr2⟩ := refreshes_same hdocs
          have hnn : n = skew := by
            by_cases hem : ev.acceptableSkewSeconds = []
            · rw [hn2 hem, hsk.2.1 hem]
            · have h3 : atoi ev.acceptableSkewSeconds = some n := hn3 hem
              rw [hsk.2.2 hem] at h3
              exact (Option.some.inj h3).symm
          have hso : skewOf j = skew := by
            unfold skewOf
            rw [hskw, hn1, ← hnn]
            rfl
          have hja : j.alg = ev.alg := hsame.trans halg0
          have := accept_of_verified (j := j) (now := x.now) ((presents_iff _ _).1 hpr) hpa
            (by rw [hso]; exact (C18_date_claims_partial _ _ skew _ c hsk.1 g1 g2 g3 g4).2 hda) (by
              rcases hver with hno | ⟨hsig, key, hst, hpv⟩
              · exact .inl (none_keySet (hja.trans hno))
              · refine .inr ⟨hsig, ?_⟩
                obtain ⟨-, hin⟩ := boot_has_key hv1 hst
                unfold Verified
                rw [hja]
                rcases hin with ⟨hm, kp, hkp, rfl⟩ | ⟨hm, kp, hkp, rfl⟩ | ⟨hm, kp, hkp, rfl⟩
                · exact .inl ⟨hm, kp, hpr1.subset hkp, hpv⟩
                · exact .inr (.inl ⟨hm, kp, hpr2.subset hkp, hpv⟩)
                · exact .inr (.inr ⟨hm, kp, hsec ▸ hkp, hpv⟩))
          rw [this] at ha
          cases ha
      · right
        refine ⟨h1, fun ms hms => ?_⟩
        obtain ⟨text, v, -, -, hv⟩ := hw
        have hlk := lookup_of_mem_nodup (written_nodup hv) hms
        have hcr : c'.resources r0.resource = some (ms.map fun (m : ServerSettings) =>
            (⟨r0.resource, m.labels, ⟨normScheme m.scheme, m.host, m.port⟩⟩ : ResourceMapping)) := by
          rw [hrc]
          simp only [Config.reApplyResourceNames, Config.reApplyResourceSchemes, Settings.present, Settings.meant, hlk,
            Option.map_some, List.map_map]
          rfl
        rw [hpol, hres, C07_not_mapped_iff] at hm
        have hrr : r0.served.resource = r0.resource := rfl
        have hrp : r0.served.policy = r0.policy := rfl
        rw [hrr, hrp] at hm
        rcases hm with hm | ⟨hpn, ms', hms', hno⟩
        · rw [hcr] at hm; cases hm
        · refine ⟨hpn, fun m hmm hin => ?_⟩
          rw [hcr] at hms'
          obtain rfl := Option.some.inj hms'
          refine hno _ (List.mem_map.2 ⟨m, hmm, rfl⟩) ?_
          have : (c'.policies r0.policy).getD [] = t.policy r0.policy := by
            rw [hpc]
            unfold Settings.policy Config.addDefaultPolicy
            simp only [Settings.present]
            split <;> rfl
          rw [this]
          exact hin

/-! ## Examples -/

/-- The request announces that many bytes. -/
def Demo.weighed (transform : String) (rq : Request) (n : Int) : Setup Nat :=
  { Demo.written transform "/a/b?c" with rq := { rq with contentLength := n } }

theorem Demo.weighed_running {transform : String} (ht : transform = "/z" ∨ transform = "/") (rq : Request) (n : Int)
    (served : Str → List (Jwk Nat) → Prop) :
    Running (exGateway transform) { env := "…".toList } served (Demo.weighed transform rq n) := by
  obtain ⟨h1, h2, h3⟩ := Demo.written_running (target := "/a/b?c") ht served
  exact ⟨h1, h2, h3⟩

theorem exSettings_routes {transform : String} (h : transform = "/z" ∨ transform = "/") :
    ∀ r ∈ (exSettings transform).routes, (∃ p, r.path = '/' :: p) ∧ FollowsPath (exGateway transform).E r.path :=
  fun r hr => ⟨((exSettings_plain (by rcases h with rfl | rfl <;> decide +kernel)).1 r hr).1, exGateway_follows _ r hr⟩

/-- A request without a token gets 401; the theorem gives the reason, and the others do not apply. -/
example : ∃ s, (Demo.weighed "/z" (Demo.targeted "/z" "/a/b?c").rq 0).Reaches s ∧ s.calls = [] ∧
    ∃ y ∈ s.sent, y.status = 401 ∧
      (exSettings "/z").Refuses (exGateway "/z").X (exGateway "/z").hmacKey (exGateway "/z").fetch (Demo.written "/z" "/a/b?c").L
        (Demo.written "/z" "/a/b?c").pick (Demo.written "/z" "/a/b?c").now (fun n limit => limit ≤ n)
        (Demo.weighed "/z" (Demo.targeted "/z" "/a/b?c").rq 0).rq 401 := by
  obtain ⟨s, h1, h2⟩ := Demo.of_check (x := Demo.weighed "/z" (Demo.targeted "/z" "/a/b?c").rq 0)
    (as := [Demo.go, Demo.go]) (p := fun s => s.calls.isEmpty && s.sent.map (·.status) == [401]) (by decide +kernel)
  simp only [Bool.and_eq_true, beq_iff_eq, List.isEmpty_iff] at h2
  obtain ⟨y, hs, hy⟩ := List.map_eq_singleton_iff.1 h2.2
  have hm : y ∈ s.sent := by rw [hs]; simp
  refine ⟨s, Demo.reaches h1, h2.1, y, hm, hy, ?_⟩
  rcases C163_refuses_partial (exGateway "/z") exSort_isSort { env := "…".toList } (exSettings "/z")
    (exGateway_written (.inl rfl)) (exSettings_routes (.inl rfl)) (fun _ _ => False) _
    (Demo.weighed_running (.inl rfl) _ _ _) (by decide) s (Demo.reaches h1) h2.1 y hm with h | h | h
  · rw [hy] at h; cases h
  · rw [hy] at h; cases h
  · rw [hy] at h; exact h

/-- An entry without a key, whose URL served two keys at the start: both are held, and in use. -/
example : ∃ (e : JwtSettings) (ks : List (Jwk Nat)) (j : Jwt Nat), e.key = [] ∧ ks.length = 2 ∧
    bootJwt (exGateway "/z").X (exGateway "/z").hmacKey (fun _ => []) (fun _ _ => some ks) "j".toList e.meant = some j ∧
    j.rsaPublic.map KidPair.key = [7, 8] ∧ e.Holds (exGateway "/z").X (exGateway "/z").hmacKey (some ks) 8 := by
  refine ⟨{ alg := "RS256".toList, jwksUrl := "http://k".toList },
    [⟨"a".toList, "RS256".toList, .rsa 7⟩, ⟨"b".toList, "RS256".toList, .rsa 8⟩], _, rfl, rfl, rfl, by decide +kernel, .inr ⟨rfl, by decide, _, rfl,
      ⟨"b".toList, "RS256".toList, .rsa 8⟩, by decide, by decide, rfl, .inl ⟨by decide, rfl⟩⟩⟩

/-- C163 fails: the document leaves the limit at 2 MiB, and a body of exactly 2 MiB is refused. -/
theorem C163_violated : IsRouteSort (exGateway "/z").srt ∧
    ({ env := "…".toList } : Sources).Write (exGateway "/z").yamlToJson (exSettings "/z") ∧
    (∀ r ∈ (exSettings "/z").routes, (∃ p, r.path = '/' :: p) ∧ FollowsPath (exGateway "/z").E r.path) ∧
    ∃ x : Setup Nat, Running (exGateway "/z") { env := "…".toList } (fun _ _ => False) x ∧
      x.rq.contentLength = (exSettings "/z").bodyLimit ∧ ∃ s, x.Reaches s ∧ s.calls = [] ∧ ∃ y ∈ s.sent, y.status = 413 ∧
        ¬ (exSettings "/z").Refuses (exGateway "/z").X (exGateway "/z").hmacKey (exGateway "/z").fetch x.L x.pick x.now
          (fun n limit => limit < n) x.rq y.status := by
  refine ⟨exSort_isSort, exGateway_written (.inl rfl), exSettings_routes (.inl rfl),
    Demo.weighed "/z" (Demo.written "/z" "/a/b?c").rq 2097152, Demo.weighed_running (.inl rfl) _ _ _, by decide, ?_⟩
  obtain ⟨s, h1, h2⟩ := Demo.of_check (x := Demo.weighed "/z" (Demo.written "/z" "/a/b?c").rq 2097152)
    (as := [Demo.go, Demo.go]) (p := fun s => s.calls.isEmpty && s.sent.map (·.status) == [413]) (by decide +kernel)
  simp only [Bool.and_eq_true, beq_iff_eq, List.isEmpty_iff] at h2
  obtain ⟨y, hs, hy⟩ := List.map_eq_singleton_iff.1 h2.2
  refine ⟨s, Demo.reaches h1, h2.1, y, by rw [hs]; simp, hy, ?_⟩
  rw [hy]
  rintro (⟨-, -, h⟩ | ⟨h, -⟩ | ⟨h, -⟩ | ⟨r, -, -, -, ⟨h, -⟩ | ⟨h, -⟩⟩)
  · revert h; decide
  all_goals cases h

end J8a

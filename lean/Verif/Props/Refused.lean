import Verif.Props.Silence
/-!
# C181: what the document refuses is refused
-/
namespace J8a
open Go Uri

variable {K : Type}

/-! ## What is asked for -/

/-- The settings of the routes that may be meant by a target: those with the longest path among the ones that select it. -/
def Settings.Meant (t : Settings) (target : Str) (r : RouteSettings) : Prop :=
  r ∈ t.routes ∧ Selects r.path target ∧ ∀ r' ∈ t.routes, Selects r'.path target → r'.path.length ≤ r.path.length

/-- The document says that the message is to be refused with that status: one reason goes before the other. -/
inductive Settings.MustRefuse (t : Settings) (X : X509 K) (hmacKey : Str → K) (served : Str → List (Jwk K) → Prop)
    (fetch : Str → Str → Option (List (Jwk K))) (L : Jwx K) (pick : Policy → Str) (now : Int) (m : HttpRequest) : Int → Prop
  /-- the body is longer than the limit, and the message says so -/
  | body : fieldValues m.fields "transfer-encoding".toList = [] → m.body ≠ [] → t.bodyLimit < m.body.length →
      MustRefuse t X hmacKey served fetch L pick now m 413
  /-- the method is not served -/
  | method : m.body.length < t.bodyLimit → toUpper m.method ∉ proxiedMethods → MustRefuse t X hmacKey served fetch L pick now m 400
  /-- no path selects the target -/
  | path : m.body.length < t.bodyLimit → toUpper m.method ∈ proxiedMethods → (∀ r ∈ t.routes, ¬ Selects r.path m.target) →
      MustRefuse t X hmacKey served fetch L pick now m 404
  /-- the jwt entry does not grant the message; what it presents, if anything, is a token -/
  | token : m.body.length < t.bodyLimit → toUpper m.method ∈ proxiedMethods → (∃ r ∈ t.routes, Selects r.path m.target) →
      (∀ r, t.Meant m.target r → r.jwt ≠ [] ∧ ∀ e, (r.jwt, e) ∈ t.jwt → ¬ e.GrantsMessage X hmacKey served L now m) →
      (∀ token, m.PresentsToken token → (∃ n, L.signatures token = some n) ∧ (L.parse token).isSome = true) →
      MustRefuse t X hmacKey served fetch L pick now m 401
  /-- no server of the resource has the label drawn -/
  | server : m.body.length < t.bodyLimit → toUpper m.method ∈ proxiedMethods → (∃ r ∈ t.routes, Selects r.path m.target) →
      (∀ r, t.Meant m.target r → (r.jwt = [] ∨ ∀ e, (r.jwt, e) ∈ t.jwt → e.PassesMessage X hmacKey (fetch r.jwt e.jwksUrl) L now m) ∧
        r.policy ≠ [] ∧ ∃ ms, (r.resource, ms) ∈ t.resources ∧ ∀ srv ∈ ms, pick (t.policy r.policy) ∉ srv.labels) →
      MustRefuse t X hmacKey served fetch L pick now m 503

/-! ## Lengths that are announced -/

theorem fixLength_sized {method : Str} {e e2 : Entries} {fr : Framing} (h : fixLength method false e = some (fr, e2)) :
    ∃ n, fr = .sized n := by
  unfold fixLength at h
  simp only [Bool.false_eq_true, if_false] at h
  split at h
  · cases h
  · generalize (if (e.values "Content-Length".toList).length > 1 then [trimSpace ((e.values "Content-Length".toList).headD [])]
      else e.values "Content-Length".toList) = one at h
    generalize (if (e.values "Content-Length".toList).length > 1 then delKey e "Content-Length" ++ [("Content-Length".toList, one)]
      else e) = e1 at h
    split at h
    · split at h
      · simp only [Option.some.injEq, Prod.mk.injEq] at h
        exact ⟨0, h.1.symm⟩
      · cases h
    · split at h
      · split at h
        · simp only [Option.some.injEq, Prod.mk.injEq] at h
          exact ⟨0, h.1.symm⟩
        · obtain ⟨n, -, hn⟩ := Option.map_eq_some_iff.1 h
          simp only [Prod.mk.injEq] at hn
          exact ⟨n, hn.1.symm⟩
      · simp only [Option.some.injEq, Prod.mk.injEq] at h
        exact ⟨0, h.1.symm⟩

/-- A message without a transfer coding announces the length of its body. -/
theorem announced {stream rest : Str} {m : HttpRequest} (hr : ReadsIncoming stream m rest) (ha : Acceptable m)
    (hbare : HeadBare m) (hlen : m.body.length < 2 ^ 63) (hte : fieldValues m.fields "transfer-encoding".toList = []) {rq : Request}
    {rest' : Option Str} (hd : Arrives stream rq rest') : rq.contentLength = m.body.length := by
  obtain ⟨lines, s, hl, hf, hb, rfl⟩ := hr.text
  obtain ⟨c, e1, fr, e2, e3, h1, h2, h3, h4, h5, h6, h7⟩ := transfer_incoming hl hf hb ha hbare hlen _ rfl
  obtain ⟨h, g1, -, -, g4, -⟩ := readHead_lines (s := s) hr.method hr.target hl hf ha h1 h2 h3 h5 h6 h7
  have hc : c = false := by
    have vte : (fixPragma (mimeHeader (lines.map fun l => trimBlank l.1))).values "Transfer-Encoding".toList = [] := by
      rw [← hte, ← hf]; exact values_read hl "Transfer-Encoding" (by decide) (by decide) (by decide) (by decide)
    unfold fixCoding at h1
    split at h1
    · simp only [vte, Bool.not_true, Bool.false_eq_true, if_false] at h1
      cases h1
    · cases h1
      rfl
  subst hc
  obtain ⟨n, rfl⟩ := fixLength_sized h2
  obtain ⟨h', after, hd⟩ := hd
  have he := hd.head
  rw [g1] at he
  obtain ⟨rfl, rfl⟩ := Prod.mk.inj (Option.some.inj he)
  rw [hd.length, g4]
  show (n : Int) = _
  rw [readBody] at h4
  split at h4
  · have := congrArg (fun p => p.1.length) h4
    simp only [List.length_take] at this
    omega
  · have := congrArg Prod.snd h4
    cases this

/-! ## Entries that are in use -/

/-- An entry in use comes from the document, and takes the requests that this says, and no others. -/
theorem entry_of {B : Machinery K} (hsrt : IsRouteSort B.srt) {src : Sources} {t : Settings} (hw : src.Write B.yamlToJson t)
    {served : Str → List (Jwk K) → Prop} (hfetch : ∀ n url ks, B.fetch n url = some ks → served url ks) {x : Setup K}
    (hx : Running B src served x) {n : Str} {j : Jwt K} (hlk : x.c.jwt.lookup n = some j) :
    ∃ e, (n, e) ∈ t.jwt ∧
      (e.Passes B.X B.hmacKey (B.fetch n e.jwksUrl) x.L x.now x.rq →
        validateToken x.L j x.now (x.rq.header.get "Authorization".toList) = .accept) ∧
      (validateToken x.L j x.now (x.rq.header.get "Authorization".toList) = .accept →
        e.Grants B.X B.hmacKey served x.L x.now x.rq) := by
  obtain ⟨c', hbf, hb⟩ := started_boot hw hx.started
  obtain ⟨-, -, -, -, hjwt⟩ := hx.config c' hbf
  obtain ⟨j0, docs, hj0, hdocs, hsd⟩ := hjwt _ _ hlk
  obtain ⟨-, -, -, -, -, -, hval⟩ := C13_boot_sound hsrt hb
  obtain ⟨j1, hj1, hv1⟩ := hval _ _ hj0
  obtain ⟨⟨en, ev⟩, he, hee⟩ := List.mem_map.1 hj1
  simp only [Prod.mk.injEq] at hee
  obtain ⟨rfl, rfl⟩ := hee
  have hj2 : ({ (ev.meant : Jwt K) with name := en } : Jwt K).validate B.X B.hmacKey (B.uuid en)
      (B.fetch en) = .done j0 false := by
    have hv2 := hv1
    unfold Machinery.validate bootJwt at hv2
    split at hv2
    · rename_i j2 hj2
      rw [hj2, Option.some.inj hv2]
    · cases hv2
  obtain ⟨halg0, halg, ⟨n, hn0, hn1, hn2, hn3⟩, -⟩ := C25_validate_sound _ _ _ _ _ _ hj2
  obtain ⟨hsame, -, hskw, hsec, hpr1, hpr2⟩ := refreshes_same hdocs
  have hso : skewOf j = n := by
    unfold skewOf
    rw [hskw, hn1]
    rfl
  have hja : j.alg = ev.alg := hsame.trans halg0
  refine ⟨ev, he, ?_, ?_⟩
  · rintro ⟨token, c, skew, hpr, hpa, hsk, g1, g2, g3, g4, hda, hver⟩
    have hnn : n = skew := by
      by_cases hem : ev.acceptableSkewSeconds = []
      · rw [hn2 hem, hsk.2.1 hem]
      · have h3 : atoi ev.acceptableSkewSeconds = some n := hn3 hem
        rw [hsk.2.2 hem] at h3
        exact (Option.some.inj h3).symm
    refine accept_of_verified (j := j) (now := x.now) ((presents_iff _ _).1 hpr) hpa
      (by rw [hso, hnn]; exact (C18_date_claims_partial _ _ skew _ c hsk.1 g1 g2 g3 g4).2 hda) ?_
    rcases hver with hno | ⟨hsig, key, hst, hpv⟩
    · exact .inl (none_keySet (hja.trans hno))
    · refine .inr ⟨hsig, ?_⟩
      obtain ⟨-, hin⟩ := boot_has_key hv1 hst
      unfold Verified
      rw [hja]
      rcases hin with ⟨hm, kp, hkp, rfl⟩ | ⟨hm, kp, hkp, rfl⟩ | ⟨hm, kp, hkp, rfl⟩
      · exact .inl ⟨hm, kp, hpr1.subset hkp, hpv⟩
      · exact .inr (.inl ⟨hm, kp, hpr2.subset hkp, hpv⟩)
      · exact .inr (.inr ⟨hm, kp, hsec ▸ hkp, hpv⟩)
  · intro hv
    obtain ⟨token, cl, hb1, hpa, hda, hver⟩ := validateToken_accept hv
    have hk0 := boot_keys hfetch hv1
    have hk := refresh_keys docs j0 hdocs hk0 (fun ks hks => hk0.url ▸ hsd ks hks)
    rw [hso] at hda
    refine ⟨token, cl, (presents_iff _ _).2 hb1, hpa, ⟨n, ⟨hn0, hn2, hn3⟩, ?_⟩, ?_⟩
    · intro g1 g2 g3 g4
      exact (C18_date_claims_partial _ _ n _ cl hn0 g1 g2 g3 g4).1 hda
    · have fin : (j.alg ∈ rsaAlgs ∨ j.alg ∈ ecAlgs ∨ j.alg ∈ hmacAlgs) → ∃ key, ev.Stands B.X B.hmacKey served key ∧
          (x.L.parseVerify ev.alg key token).isSome = true := by
        intro ha
        rw [← hja]
        rcases hver ha with ⟨-, kp, hkp, hvv⟩ | ⟨-, kp, hkp, hvv⟩ | ⟨-, kp, hkp, hvv⟩
        · exact ⟨kp.key, hk.rsa kp hkp, hvv⟩
        · exact ⟨kp.key, hk.ec kp hkp, hvv⟩
        · exact ⟨kp.key, hk.secret kp hkp, hvv⟩
      have halg' : ev.alg ∈ rsaAlgs ∨ ev.alg ∈ ecAlgs ∨ ev.alg ∈ hmacAlgs ∨ ev.alg = "none".toList := halg
      rw [← hja] at halg'
      rcases halg' with h1 | h1 | h1 | h1
      · exact .inr (fin (.inl h1))
      · exact .inr (fin (.inr (.inl h1)))
      · exact .inr (fin (.inr (.inr h1)))
      · exact .inl (hja ▸ h1)

theorem token_alive {L : Jwx K} {j : Jwt K} {now : Int} {auth : Str}
    (h : ∀ token, bearerToken auth = some token → (∃ n, L.signatures token = some n) ∧ (L.parse token).isSome = true) :
    validateToken L j now auth ≠ .panic := by
  intro hp
  unfold validateToken at hp
  cases hb : bearerToken auth with
  | none => rw [hb] at hp; cases hp
  | some token =>
    obtain ⟨⟨n, hn⟩, hpa⟩ := h token hb
    obtain ⟨c, hc⟩ := Option.isSome_iff_exists.1 hpa
    rw [hb] at hp
    simp only [hc] at hp
    have hv : ∀ ks, verifySignature L j.alg token ks ≠ .panic := by
      intro ks hk
      unfold verifySignature at hk
      rw [hn] at hk
      simp only at hk
      repeat' split at hk
      all_goals cases hk
    cases hk : j.keySet with
    | none =>
      rw [hk] at hp
      simp only at hp
      split at hp <;> cases hp
    | some ks =>
      rw [hk] at hp
      simp only at hp
      split at hp
      · rename_i h1
        exact hv ks h1
      · cases hp
      · split at hp <;> cases hp

/-! ## The theorem -/

theorem refused_dec {B : Machinery K} {src : Sources} {t : Settings} {served : Str → List (Jwk K) → Prop} (hB : Started B src t served)
    {x : Setup K} {m : HttpRequest} (hsm : SentAs B src served x m)
    (hkeep : ∀ n e, (n, e) ∈ t.jwt → (x.c.jwt.lookup n).isSome = true) {code : Int}
    (h : t.MustRefuse B.X B.hmacKey served B.fetch x.L x.pick x.now m code) : ∃ msg, x.dec = .respond code msg := by
  obtain ⟨stream, rest, rest', b1, b2⟩ := hsm.bytes
  obtain ⟨hwf, -⟩ := C165_sound_partial stream x.rq rest' b2
  obtain ⟨d1, d2, d3, d4, -, d6, -⟩ := C165_delivered_partial stream rest m b1 hsm.acceptable hsm.bare hsm.short x.rq rest' b2
  have hauthv := d6 "Authorization".toList (by decide) (by decide) (by decide)
  obtain ⟨c', hbf, hb⟩ := started_boot hB.write hsm.running.started
  obtain ⟨hroutes, hpol, hres, hconn, -⟩ := hsm.running.config c' hbf
  obtain ⟨-, -, -, hhas, -, hpc, hrc, hcc⟩ := boot_elim hb
  have hfrom := booted_routes hB.sort hb fun r hr => (hB.plain.paths r hr).1
  have hmatch : ∀ r0 ∈ t.routes, r0.served.matchURI B.E x.rq.requestURI = true ↔ Selects r0.path m.target :=
    fun r0 hr0 => by rw [← d2]; exact served_match (hB.engine r0 hr0) _
  have hmax : x.maxBody = t.bodyLimit := by
    unfold Setup.maxBody
    rw [hconn, hcc]
    exact (C10_downstream_defaults t.connection.downstream).2.2.2.1
  have small : m.body.length < t.bodyLimit → x.pb.tooLarge = false := by
    intro hl
    refine not_tooLarge hwf.length ?_
    rintro ⟨h0, h1⟩
    rw [hmax] at h1
    rw [← d3, bodyText_length] at hl
    by_cases h2 : 0 ≤ x.rq.contentLength
    · have := hwf.complete h2 d4
      omega
    · omega
  have legal : toUpper m.method ∈ proxiedMethods → parseMethod x.rq ∈ legalMethods := by
    intro h
    show toUpper x.rq.method ∈ proxiedMethods
    rw [d1]
    exact h
  have meant : (∃ r ∈ t.routes, Selects r.path m.target) → ∃ r0, t.Meant m.target r0 ∧
      dispatch x.E x.c.routes x.rq.requestURI = some r0.served := by
    rintro ⟨r1, hr1, hs1⟩
    cases hdis : dispatch x.E x.c.routes x.rq.requestURI with
    | none =>
      rw [hsm.running.engine, hroutes] at hdis
      have := (C01_longest_match hB.sort hb _).2.1 hdis _ ((hfrom _).2 ⟨r1, hr1, rfl⟩)
      rw [(hmatch r1 hr1).2 hs1] at this
      cases this
    | some r =>
      rw [hsm.running.engine, hroutes] at hdis
      obtain ⟨hmem, hmat, hlong⟩ := (C01_longest_match hB.sort hb _).1 r hdis
      obtain ⟨r0, hr0, rfl⟩ := (hfrom r).1 hmem
      exact ⟨r0, ⟨hr0, (hmatch r0 hr0).1 hmat, fun r' hr' hpre =>
        hlong _ ((hfrom _).2 ⟨r', hr', rfl⟩) ((hmatch r' hr').2 hpre)⟩, rfl⟩
  have entry : ∀ r0 ∈ t.routes, r0.jwt ≠ [] → ∃ e, (r0.jwt, e) ∈ t.jwt := by
    intro r0 hr0 hne
    obtain ⟨r1, hr1, hr1e⟩ : ∃ r1 ∈ (t.present (K := K)).routes, r1.jwt = r0.jwt := ⟨_, List.mem_map.2 ⟨r0, hr0, rfl⟩, rfl⟩
    have := hhas r1 hr1 (by unfold Route.hasJwt; rw [hr1e]; simpa [List.length_pos_iff] using hne)
    rw [hr1e] at this
    obtain ⟨j0, hj0⟩ := Option.isSome_iff_exists.1 this
    obtain ⟨-, -, -, -, -, -, hval⟩ := C13_boot_sound hB.sort hb
    obtain ⟨j1, hj1, -⟩ := hval _ _ (mem_of_lookup hj0)
    obtain ⟨⟨en, ev⟩, he, hee⟩ := List.mem_map.1 hj1
    simp only [Prod.mk.injEq] at hee
    obtain ⟨rfl, -⟩ := hee
    exact ⟨ev, he⟩
  have hasJwt : ∀ r0 : RouteSettings, r0.served.hasJwt = true ↔ r0.jwt ≠ [] := by
    intro r0
    unfold Route.hasJwt
    simp [List.length_pos_iff, RouteSettings.served]
  cases h with
  | body hte hne hlong =>
    refine ⟨_, decision_tooLarge ((tooLarge_iff hwf.length).2 ?_)⟩
    have hcl := announced b1 hsm.acceptable hsm.bare hsm.short hte b2
    have := List.length_pos_iff.2 hne
    exact ⟨by omega, by rw [hmax]; omega⟩
  | method hl hm => exact ⟨_, decision_illegal (fun h => hm (by rw [← d1]; exact h)) (small hl)⟩
  | path hl hm hno =>
    have hd := decision_legal (x := x) (legal hm) (small hl)
    have hdis : dispatch x.E x.c.routes x.rq.requestURI = none := by
      rw [hsm.running.engine, hroutes]
      refine (C01_longest_match hB.sort hb _).2.2 fun r hr => ?_
      obtain ⟨r0, hr0, rfl⟩ := (hfrom r).1 hr
      exact Bool.eq_false_iff.2 fun h => hno r0 hr0 ((hmatch r0 hr0).1 h)
    rw [hdis] at hd
    exact ⟨_, hd⟩
  | token hl hm hex hno htok =>
    obtain ⟨r0, hr0, hdis⟩ := meant hex
    obtain ⟨hne, hno⟩ := hno r0 hr0
    have hd := decision_legal (x := x) (legal hm) (small hl)
    rw [hdis] at hd
    have ha : authorise x.L x.c.jwt x.now r0.served x.rq = .reject := by
      unfold authorise
      rw [if_pos ((hasJwt r0).2 hne)]
      have hjv : r0.served.jwt = r0.jwt := rfl
      simp only [hjv]
      obtain ⟨e0, he0⟩ := entry r0 hr0.1 hne
      obtain ⟨j, hlk⟩ := Option.isSome_iff_exists.1 (hkeep _ _ he0)
      rw [hlk]
      simp only
      obtain ⟨e, he, -, hg⟩ := entry_of hB.sort hB.write hB.fetch hsm.running hlk
      have hnp := token_alive (L := x.L) (j := j) (now := x.now) (auth := x.rq.header.get "Authorization".toList)
        fun token ht => htok token (presents_message hauthv ((presents_iff _ _).2 ht))
      cases hv : validateToken x.L j x.now (x.rq.header.get "Authorization".toList) with
      | reject => rfl
      | panic => exact absurd hv hnp
      | accept =>
        obtain ⟨token, c, g1, g2⟩ := hg hv
        exact absurd ⟨token, c, presents_message hauthv g1, g2⟩ (hno e he)
    simp only [ha] at hd
    exact ⟨_, hd⟩
  | server hl hm hex hall =>
    obtain ⟨r0, hr0, hdis⟩ := meant hex
    obtain ⟨hj, hpn, ms, hms, hno⟩ := hall r0 hr0
    have hd := decision_legal (x := x) (legal hm) (small hl)
    rw [hdis] at hd
    have ha : authorise x.L x.c.jwt x.now r0.served x.rq = .accept := by
      unfold authorise
      by_cases hne : r0.jwt = []
      · rw [if_neg fun h => (hasJwt r0).1 h hne]
      · rw [if_pos ((hasJwt r0).2 hne)]
        have hjv : r0.served.jwt = r0.jwt := rfl
        simp only [hjv]
        obtain ⟨e0, he0⟩ := entry r0 hr0.1 hne
        obtain ⟨j, hlk⟩ := Option.isSome_iff_exists.1 (hkeep _ _ he0)
        rw [hlk]
        simp only
        obtain ⟨e, he, hp, -⟩ := entry_of hB.sort hB.write hB.fetch hsm.running hlk
        rcases hj with hj | hj
        · exact absurd hj hne
        · obtain ⟨token, c, skew, g1, g2⟩ := hj e he
          exact hp ⟨token, c, skew, message_presents hauthv g1, g2⟩
    obtain ⟨text, v, -, -, hv⟩ := hB.write
    have hlk := lookup_of_mem_nodup (written_nodup hv) hms
    have hcr : c'.resources r0.resource = some (ms.map fun (m : ServerSettings) =>
        (⟨r0.resource, m.labels, ⟨normScheme m.scheme, m.host, m.port⟩⟩ : ResourceMapping)) := by
      rw [hrc]
      simp only [Config.reApplyResourceNames, Config.reApplyResourceSchemes, Settings.present, Settings.meant, hlk,
        Option.map_some, List.map_map]
      rfl
    have hmap : r0.served.mapURL x.pick x.c.policies x.c.resources = .notMapped := by
      rw [hpol, hres, C07_not_mapped_iff]
      refine .inr ⟨hpn, _, hcr, ?_⟩
      intro m' hm'
      obtain ⟨srv, hsrv, rfl⟩ := List.mem_map.1 hm'
      have : (c'.policies r0.policy).getD [] = t.policy r0.policy := by
        rw [hpc]
        unfold Settings.policy Config.addDefaultPolicy
        simp only [Settings.present]
        split <;> rfl
      have hrp : r0.served.policy = r0.policy := rfl
      rw [hrp, this]
      exact hno srv hsrv
    simp only [ha, hmap] at hd
    exact ⟨_, hd⟩

/-- C181, part: a client sends a message that the document refuses. Then no upstream is asked, whatever else the gateway does, the
handler does not crash, and when it has ended the client reads one message with that status and without a field of anyone else.
Full statement: also for bodies in chunks (C29_violated), lengths that are the limit (C163_violated), texts that are no token
(C180_violated_always), and without the assumptions on messages and documents of C178 and C179. `hkeep`: the entries of the document
are there. -/
theorem C181_refused_partial (B : Machinery K) (src : Sources) (t : Settings) (served : Str → List (Jwk K) → Prop)
    (hB : Started B src t served) (A : Around K) (g : Hub K) (h : g.Reached A) (k : Task K) (hk : k ∈ g.tasks) (m : HttpRequest)
    (hsm : SentAs B src served k.x m) (hkeep : ∀ n e, (n, e) ∈ t.jwt → (k.x.c.jwt.lookup n).isSome = true) (code : Int)
    (hmust : t.MustRefuse B.X B.hmacKey served B.fetch k.x.L k.x.pick k.x.now m code) (hi : TextIds k.x)
    (hm : toUpper m.method = "HEAD".toList → m.method = "HEAD".toList) (c : ReplyConn) (hcn : ConnOf k.x c) :
    k.s.calls = [] ∧ k.s.pc ≠ .panicked ∧
      (k.s.pc = .done → ∃ y, k.s.sent = [y] ∧ ∀ keys, Enumerates keys y.header →
        ∃ m2' : HttpResponse, ReadAs k.x (writeResponse c keys y) y m2' ∧ NothingElse m2' ∧ m2'.status = code) := by
  have hr : k.x.Reaches k.s := (C174_alone A g h k hk).2.1
  obtain ⟨msg, hd⟩ := refused_dec hB hsm hkeep hmust
  have hv : validStatus code = true := by cases hmust <;> decide
  have ho := onlyAnswer hr hd hv
  refine ⟨ho.calls, ho.alive, fun hdone => ⟨_, ho.done hdone, fun keys hks => ?_⟩⟩
  obtain ⟨stream, rest, rest', b1, b2⟩ := hsm.bytes
  obtain ⟨m2', msg', e1, e2, -⟩ := C179_turned_partial B hB.sort src t hB.write
    (fun r hr => ⟨(hB.plain.paths r hr).1, hB.engine r hr⟩) served k.x hsm.running stream rest m b1 hsm.acceptable hsm.bare hsm.short
    rest' b2 k.s hr ho.calls _ (by rw [ho.done hdone]; exact .head _) hi hm c hcn keys hks
  exact ⟨m2', e1, e2, e1.status⟩

/-! ## Examples -/

/-- The gateway of the examples, and a library that verifies no signature. -/
def Demo.unsigned : Setup Nat :=
  { Demo.written "/z" "/a/d" with L := { (Demo.written "/z" "/a/d").L with parseVerify := fun _ _ _ => none } }

theorem Demo.meant_j {target : Str} {r : RouteSettings} (h : (exSettings "/z").Meant target r) :
    r.jwt = "j".toList ∧ ∀ e, (r.jwt, e) ∈ (exSettings "/z").jwt → e.alg = "HS256".toList := by
  obtain rfl := List.mem_singleton.1 h.1
  refine ⟨rfl, fun e he => ?_⟩
  obtain ⟨-, rfl⟩ := Prod.mk.inj (List.mem_singleton.1 he)
  rfl

/-- Two clients: one asks for something that is not in the document, one has a token that nobody signed. The document refuses them
with 404 and 401, and that is what they get. -/
example : ∃ (A : Around Nat) (g : Hub Nat) (k1 k2 : Task Nat), g.Reached A ∧ g.tasks = [k1, k2] ∧ k1.s.pc = .done ∧ k2.s.pc = .done ∧
    SentAs (exGateway "/z") { env := "…".toList } (fun _ _ => False) k1.x (Demo.tokenMessage "/q") ∧
    SentAs (exGateway "/z") { env := "…".toList } (fun _ _ => False) k2.x (Demo.tokenMessage "/a/d") ∧
    (∀ k ∈ g.tasks, ∀ n e, (n, e) ∈ (exSettings "/z").jwt → (k.x.c.jwt.lookup n).isSome = true) ∧
    (exSettings "/z").MustRefuse (exGateway "/z").X (exGateway "/z").hmacKey (fun _ _ => False) (exGateway "/z").fetch k1.x.L k1.x.pick
      k1.x.now (Demo.tokenMessage "/q") 404 ∧
    (exSettings "/z").MustRefuse (exGateway "/z").X (exGateway "/z").hmacKey (fun _ _ => False) (exGateway "/z").fetch k2.x.L k2.x.pick
      k2.x.now (Demo.tokenMessage "/a/d") 401 ∧
    k1.s.sent.map (·.status) = [404] ∧ k2.s.sent.map (·.status) = [401] := by
  obtain ⟨s1, h1, hc1⟩ := Demo.of_check (x := Demo.written "/z" "/q") (as := [Demo.go, Demo.go])
    (p := fun s => (Demo.seen s).finished && s.sent.map (·.status) == [404]) (by decide +kernel)
  obtain ⟨s2, h2, hc2⟩ := Demo.of_check (x := Demo.unsigned) (as := [Demo.go, Demo.go])
    (p := fun s => (Demo.seen s).finished && s.sent.map (·.status) == [401]) (by decide +kernel)
  simp only [Bool.and_eq_true, beq_iff_eq] at hc1 hc2
  have r1 := (Hub.Reached.new (A := { T := Demo.lib, keyOf := fun _ => "up".toList, comes := fun _ => True })).step
      (.accept (Demo.written "/z" "/q") trivial)
    |>.step (.accept Demo.unsigned trivial) |>.acts (j := 0) rfl h1 (by simp) (by simp)
  have r2 := r1.acts (j := 1) rfl h2 (by simp) (by simp)
  have q1 := Demo.written_sent (target := "/q") (by decide) (by decide +kernel) (by decide +kernel)
  have q2 := Demo.written_sent (target := "/a/d") (by decide) (by decide +kernel) (by decide +kernel)
  have none_q : ∀ r ∈ (exSettings "/z").routes, ¬ Selects r.path "/q".toList := by
    intro r hr
    obtain rfl := List.mem_singleton.1 hr
    rw [selects_literal (by decide)]
    decide
  refine ⟨_, _, _, _, r2, rfl, Demo.done_of_seen hc1.1, Demo.done_of_seen hc2.1, q1,
    ⟨⟨q2.running.started, q2.running.engine, q2.running.config⟩, q2.bytes, q2.acceptable, q2.bare, q2.short⟩, ?_,
    .path (by decide) (by decide) none_q,
    .token (by decide) (by decide) ⟨_, .head _, (selects_literal (by decide)).2 (by decide)⟩ (fun r hr => ?_) (fun token ht => ?_),
    hc1.2, hc2.2⟩
  · intro k hk n e he
    obtain ⟨rfl, -⟩ := Prod.mk.inj (List.mem_singleton.1 he)
    rcases List.mem_cons.1 hk with rfl | hk
    · show ((Demo.written "/z" "/q").c.jwt.lookup "j".toList).isSome = true
      decide +kernel
    · obtain rfl := List.mem_singleton.1 hk
      show (Demo.unsigned.c.jwt.lookup "j".toList).isSome = true
      decide +kernel
  · obtain ⟨h1, h2⟩ := Demo.meant_j hr
    refine ⟨by rw [h1]; decide, fun e he hg => ?_⟩
    obtain ⟨_, _, _, _, _, h | ⟨_, _, h⟩⟩ := hg
    · rw [h2 e he] at h
      revert h
      decide
    · cases h
  · have hp := (presents_iff Demo.unsigned.rq token).1 (message_presents (by decide +kernel) ht)
    rw [show bearerToken (Demo.unsigned.rq.header.get "Authorization".toList) = some "v".toList by decide +kernel] at hp
    obtain rfl := Option.some.inj hp
    exact ⟨⟨1, by show Demo.unsigned.L.signatures "v".toList = some 1; decide +kernel⟩,
      by show (Demo.unsigned.L.parse "v".toList).isSome = true; decide +kernel⟩

/-! ## Where it fails -/

/-- The same with a library that takes the text for no token at all. -/
def Demo.garbage : Setup Nat :=
  { Demo.written "/z" "/a/d" with L := { (Demo.written "/z" "/a/d").L with signatures := fun _ => none, parse := fun _ => none } }

/-- C181 is violated: the document grants nothing to a client that presents something that is no token, but the client is not
refused: it reads nothing. -/
theorem C181_violated : ∃ (x : Setup Nat) (m : HttpRequest) (A : Around Nat),
    Started (exGateway "/z") { env := "…".toList } (exSettings "/z") (fun _ _ => False) ∧
    SentAs (exGateway "/z") { env := "…".toList } (fun _ _ => False) x m ∧
    (∃ r, (exSettings "/z").Meant m.target r) ∧
    (∀ r, (exSettings "/z").Meant m.target r → r.jwt ≠ [] ∧ ∀ e, (r.jwt, e) ∈ (exSettings "/z").jwt →
      ¬ e.GrantsMessage (exGateway "/z").X (exGateway "/z").hmacKey (fun _ _ => False) x.L x.now m) ∧
    (∃ g : Hub Nat, g.Reached A ∧ ∃ k ∈ g.tasks, k.x = x ∧ k.s.n = 0) ∧
    ∀ g : Hub Nat, g.Reached A → ∀ k ∈ g.tasks, k.x = x → k.s.pc = .panicked ∧ k.s.sent = [] := by
  have q2 := Demo.written_sent (target := "/a/d") (by decide) (by decide +kernel) (by decide +kernel)
  have hs : SentAs (exGateway "/z") { env := "…".toList } (fun _ _ => False) Demo.garbage (Demo.tokenMessage "/a/d") :=
    ⟨⟨q2.running.started, q2.running.engine, q2.running.config⟩, q2.bytes, q2.acceptable, q2.bare, q2.short⟩
  have hsel : Selects "/a".toList (Demo.tokenMessage "/a/d").target := (selects_literal (by decide)).2 (by decide)
  refine ⟨Demo.garbage, Demo.tokenMessage "/a/d", { T := Demo.lib, keyOf := fun _ => "up".toList, comes := fun x => x = Demo.garbage },
    Demo.started, hs, ⟨_, .head _, hsel, fun r' hr' _ => by obtain rfl := List.mem_singleton.1 hr'; exact Nat.le_refl _⟩, ?_,
    ⟨_, Hub.Reached.new.step (.accept Demo.garbage rfl), _, .head _, rfl, by show (initial Demo.garbage.dec).n = 0; decide +kernel⟩, ?_⟩
  · intro r hr
    obtain ⟨h1, h2⟩ := Demo.meant_j hr
    refine ⟨by rw [h1]; decide, fun e he hg => ?_⟩
    obtain ⟨_, _, _, h, _⟩ := hg
    cases h
  · intro g hg k hk hx
    have := C180_violated_always (exGateway "/z") { env := "…".toList } (exSettings "/z") (fun _ _ => False) Demo.started _ g hg k hk
      (Demo.tokenMessage "/a/d") (hx ▸ hs) (by decide) (by decide) ⟨⟨_, .head _, hsel⟩, fun r hr h1 h2 => ?_⟩ "v".toList
      ⟨"Bearer v".toList, by decide, "Bearer".toList, [], by decide, by decide, by decide, .inl rfl⟩ (by rw [hx]; rfl)
    · exact ⟨this.1, this.2.1⟩
    · obtain ⟨g1, g2⟩ := Demo.meant_j ⟨hr, h1, h2⟩
      exact ⟨by rw [g1]; decide, fun e he => .inr (.inr (by rw [g2 e he]; decide))⟩

end J8a

import Verif.Lemmas.Calendar
import Verif.Model.TokenLog
import Verif.Props.Logger
import Verif.Props.Requests
import Verif.Props.Token
/-!
# C141: the log tells what became of a token

One line for each token that was checked: whether it was accepted, its key id, and its dates in UTC, in local time and as
numbers.
-/
namespace J8a
open Go

variable {K : Type}

/-- The lines about the outcome; the line about a search for keys (C119) is of level debug. -/
def tokenLines (L : Jwx K) (e : TokenLogEnv) (r : Route) (j : Jwt K) (now : Int) (auth : Str) : List ZEvent :=
  (tokenEvents L e r j now auth).filter fun f => f.level = .trace

theorem lines_rotation {p : Prop} [Decidable p] {a b c d : Str} {fs : List ZEvent} (h : ∀ f ∈ fs, f.level = .trace) :
    ((if p then [rotationEvent a b c d] else []) ++ fs).filter (fun f => f.level = .trace) = fs := by
  rw [List.filter_append]
  have h1 : (if p then [rotationEvent a b c d] else []).filter (fun f => f.level = .trace) = [] := by
    split <;> rfl
  rw [h1, List.nil_append, List.filter_eq_self]
  intro f hf
  simpa using h f hf

/-- The key id and the dates in a line. -/
def lineFields (L : Jwx K) (e : TokenLogEnv) (j : Jwt K) (token : Str) (c : Option Claims) : List (Str × ZVal) :=
  kidFields L j token ++ (match c with | some c => dateClaimFields e.zone c | none => [])

/-- What the library makes of a token with the keys of a configuration. -/
def checked (L : Jwx K) (j : Jwt K) (token : Str) : TokenResult :=
  match j.keySet with
  | some ks => verifySignature L j.alg token ks
  | none => .ok (L.parse token)

theorem tokenLines_eq (L : Jwx K) (e : TokenLogEnv) (r : Route) (j : Jwt K) (now : Int) (auth : Str) :
    tokenLines L e r j now auth = match bearerToken auth with
      | none => [tokenEvent e [] (rejectedMsg "jwt bearer token not present".toList)]
      | some token => match checked L j token with
        | .panic => []
        | .ok none => [tokenEvent e (lineFields L e j token none) (rejectedMsg (parseCause L e j token))]
        | .ok (some p) => match L.parse token with
          | none => []
          | some c => if dateClaimsOk L.skipsEpoch L.nbfStrict (skewOf j) now c
            then [tokenEvent e (lineFields L e j token (some p)) validatedMsg]
            else [tokenEvent e (lineFields L e j token (some p)) (rejectedMsg (e.cause token))] := by
  unfold tokenLines tokenEvents lineFields checked
  cases bearerToken auth with
  | none => rfl
  | some token =>
    dsimp only
    cases j.keySet with
    | none =>
      dsimp only
      cases L.parse token with
      | none => simp [tokenEvent]
      | some c => dsimp only; split <;> rfl
    | some ks =>
      dsimp only
      cases verifySignature L j.alg token ks with
      | panic => simpa using lines_rotation (fs := []) (by simp)
      | ok o =>
        cases o with
        | none =>
          dsimp only
          rw [lines_rotation (by intro f hf; rw [List.mem_singleton.1 hf]; rfl), List.append_nil]
        | some p =>
          dsimp only
          cases L.parse token with
          | none => simpa using lines_rotation (fs := []) (by simp)
          | some c =>
            dsimp only
            split
            · rw [lines_rotation (by intro f hf; rw [List.mem_singleton.1 hf]; rfl)]
            · rw [lines_rotation (by intro f hf; rw [List.mem_singleton.1 hf]; rfl)]

theorem validateToken_eq (L : Jwx K) (j : Jwt K) (now : Int) (auth : Str) :
    validateToken L j now auth = match bearerToken auth with
      | none => .reject
      | some token => match checked L j token with
        | .panic => .panic
        | .ok none => .reject
        | .ok (some _) => match L.parse token with
          | none => .panic
          | some c => if dateClaimsOk L.skipsEpoch L.nbfStrict (skewOf j) now c then .accept else .reject := by
  unfold validateToken checked
  rfl

/-- One line for each check that comes to an end, and the message is the outcome. -/
theorem line_of_outcome (L : Jwx K) (e : TokenLogEnv) (r : Route) (j : Jwt K) (now : Int) (auth : Str) :
    (validateToken L j now auth = .accept → ∃ f, tokenLines L e r j now auth = [f] ∧ f.msg = validatedMsg) ∧
    (validateToken L j now auth = .reject → ∃ f c, tokenLines L e r j now auth = [f] ∧ f.msg = rejectedMsg c) ∧
    (validateToken L j now auth = .panic → tokenLines L e r j now auth = []) := by
  rw [tokenLines_eq, validateToken_eq]
  cases bearerToken auth with
  | none => exact ⟨fun h => (nomatch h), fun _ => ⟨_, _, rfl, rfl⟩, fun h => (nomatch h)⟩
  | some token =>
    dsimp only
    cases checked L j token with
    | panic => exact ⟨fun h => (nomatch h), fun h => (nomatch h), fun _ => rfl⟩
    | ok o =>
      cases o with
      | none => exact ⟨fun h => (nomatch h), fun _ => ⟨_, _, rfl, rfl⟩, fun h => (nomatch h)⟩
      | some p =>
        dsimp only
        cases L.parse token with
        | none => exact ⟨fun h => (nomatch h), fun h => (nomatch h), fun _ => rfl⟩
        | some c =>
          dsimp only
          split
          · exact ⟨fun _ => ⟨_, rfl, rfl⟩, fun h => (nomatch h), fun h => (nomatch h)⟩
          · exact ⟨fun h => (nomatch h), fun _ => ⟨_, _, rfl, rfl⟩, fun h => (nomatch h)⟩

theorem authorise_token {x : Setup K} {r : Route} {j : Jwt K} (hj : r.jwt ≠ []) (hlk : x.c.jwt.lookup r.jwt = some j) :
    authorise x.L x.c.jwt x.now r x.rq = validateToken x.L j x.now (x.rq.header.get "Authorization".toList) := by
  unfold authorise
  rw [if_pos (by unfold Route.hasJwt; simpa using List.length_pos_iff.2 hj)]
  dsimp only
  rw [hlk]

/-- C141, part: of a request that is forwarded by a route with a token the log has exactly one line about it, which says
that the token was validated. -/
theorem C141_accepted_partial (x : Setup K) {r : Route} {u : URL} {l : Str} (hd : x.dec = .forward r u l) (hj : r.jwt ≠ [])
    (j : Jwt K) (hlk : x.c.jwt.lookup r.jwt = some j) (e : TokenLogEnv) :
    ∃ f, tokenLines x.L e r j x.now (x.rq.header.get "Authorization".toList) = [f] ∧
      f.msg = "jwt token validated".toList := by
  have h := (decision_forward hd).2.2.2.1
  rw [authorise_token hj hlk] at h
  exact (line_of_outcome x.L e r j x.now _).1 h

/-- C141, part: of a request that gets 401 the log has exactly one line, which says that the token was rejected. -/
theorem C141_rejected_partial (x : Setup K) {msg : Str} (hd : x.dec = .respond 401 msg) (r : Route)
    (hr : dispatch x.E x.c.routes x.rq.requestURI = some r) (hj : r.jwt ≠ [])
    (j : Jwt K) (hlk : x.c.jwt.lookup r.jwt = some j) (e : TokenLogEnv) :
    ∃ f cause, tokenLines x.L e r j x.now (x.rq.header.get "Authorization".toList) = [f] ∧
      f.msg = "jwt token rejected, cause: ".toList ++ cause := by
  rcases decision_respond hd with h | h | ⟨-, -, h | ⟨r', hr', h | h⟩⟩
  · exact absurd h.1 (by decide)
  · exact absurd h.1 (by decide)
  · exact absurd h.1 (by decide)
  · rw [hr] at hr'
    cases hr'
    have h := h.2
    rw [authorise_token hj hlk] at h
    exact (line_of_outcome x.L e r j x.now _).2.1 h
  · exact absurd h.1 (by decide)

/-! ### The dates -/

/-- A field of a line. -/
def Go.ZEvent.field (f : ZEvent) (k : Str) : Option ZVal := f.fields.lookup k

/-- The names of the fields about a date claim. -/
structure ClaimNames where
  claims : Str
  utc : Str
  lcl : Str
  unix : Str

def ClaimNames.list (n : ClaimNames) : List Str := [n.claims, n.utc, n.lcl, n.unix]

def iatNames : ClaimNames :=
  ⟨"jwtClaimsIat".toList, "jwtIatUtcIso".toList, "jwtIatLclIso".toList, "jwtIatUnix".toList⟩
def nbfNames : ClaimNames :=
  ⟨"jwtClaimsNbf".toList, "jwtNbfUtcIso".toList, "jwtNbfLclIso".toList, "jwtNbfUnix".toList⟩
def expNames : ClaimNames :=
  ⟨"jwtClaimsExp".toList, "jwtExpUtcIso".toList, "jwtExpLclIso".toList, "jwtExpUnix".toList⟩

/-- A line tells a date claim: whether the token has it, and if so, when it is, three times. -/
structure TellsClaim (f : ZEvent) (n : ClaimNames) (claim : Option Int) : Prop where
  absent : claim = none → f.field n.claims = some (.bool false) ∧ f.field n.utc = none ∧ f.field n.lcl = none ∧
    f.field n.unix = none
  present : ∀ t, claim = some t → f.field n.claims = some (.bool true) ∧ f.field n.unix = some (.int t) ∧
    (∃ s, f.field n.utc = some (.str s) ∧ Calendar.readRFC3339 s = some t ∧ s.getLast? = some 'Z') ∧
    ∃ s, f.field n.lcl = some (.str s) ∧ Calendar.readRFC3339 s = some t

theorem lookup_absent {k : Str} : ∀ {l : List (Str × ZVal)}, (∀ p ∈ l, p.1 ≠ k) → l.lookup k = none
  | [], _ => rfl
  | (a, v) :: l, h => by
    have hn : (k == a) = false := by
      rw [beq_eq_false_iff_ne]
      exact fun he => h (a, v) List.mem_cons_self he.symm
    rw [List.lookup_cons, hn]
    exact lookup_absent fun p hp => h p (List.mem_cons_of_mem _ hp)

/-- Zones of whole minutes, less than a day from UTC. -/
def WholeMinutes (zone : Int → Int) : Prop := ∀ t, zone t % 60 = 0 ∧ -86400 < zone t ∧ zone t < 86400

/-- Of the years up to 9999, in UTC and in the zone. -/
def InYears (zone : Int → Int) (t : Int) : Prop :=
  t + Calendar.toEpoch ≤ Calendar.lastSecond ∧ t + zone t + Calendar.toEpoch ≤ Calendar.lastSecond

/-- Later than the epoch and of the years up to 9999, or absent. -/
def Tellable (zone : Int → Int) (claim : Option Int) : Prop := ∀ t, claim = some t → 1 < t ∧ InYears zone t

theorem formatZone_utc (t : Int) : (formatRFC3339 t 0).getLast? = some 'Z' := by
  unfold formatRFC3339
  dsimp only
  rw [List.getLast?_append]
  rfl

theorem tells_of {f : ZEvent} {pre post : List (Str × ZVal)} {n : ClaimNames} {zone : Int → Int} {claim : Option Int}
    (hf : f.fields = pre ++ claimFields zone n.claims n.utc n.lcl n.unix (claim.getD zeroUnix) ++ post)
    (hn : n.list.Nodup) (hpre : ∀ p ∈ pre, p.1 ∉ n.list) (hpost : ∀ p ∈ post, p.1 ∉ n.list) (hz : WholeMinutes zone)
    (ht : Tellable zone claim) : TellsClaim f n claim := by
  have hl : ∀ k ∈ n.list, f.field k =
      (claimFields zone n.claims n.utc n.lcl n.unix (claim.getD zeroUnix)).lookup k := by
    intro k hk
    unfold ZEvent.field
    rw [hf, List.lookup_append, List.lookup_append,
      lookup_absent fun p hp he => hpre p hp (he ▸ hk), lookup_absent fun p hp he => hpost p hp (he ▸ hk)]
    simp
  have hm : n.claims ∈ n.list ∧ n.utc ∈ n.list ∧ n.lcl ∈ n.list ∧ n.unix ∈ n.list := by simp [ClaimNames.list]
  simp only [ClaimNames.list, List.nodup_cons, List.mem_cons, List.not_mem_nil, or_false, not_or, List.nodup_nil,
    and_true, not_false_eq_true] at hn
  obtain ⟨⟨n1, n2, n3⟩, ⟨n4, n5⟩, n6⟩ := hn
  constructor
  · rintro rfl
    have hc : claimFields zone n.claims n.utc n.lcl n.unix zeroUnix = [(n.claims, .bool false)] :=
      if_neg (by decide)
    rw [hl _ hm.1, hl _ hm.2.1, hl _ hm.2.2.1, hl _ hm.2.2.2]
    show ([(n.claims, _)] : List (Str × ZVal)).lookup _ = _ ∧ _
    simp only [Option.getD_none, hc, List.lookup_cons, List.lookup_nil, beq_self_eq_true, true_and]
    refine ⟨?_, ?_, ?_⟩
    · rw [beq_eq_false_iff_ne.2 (Ne.symm n1)]
    · rw [beq_eq_false_iff_ne.2 (Ne.symm n2)]
    · rw [beq_eq_false_iff_ne.2 (Ne.symm n3)]
  · rintro t rfl
    obtain ⟨h1, h2, h3⟩ := ht t rfl
    obtain ⟨z1, z2, z3⟩ := hz t
    have hc : claimFields zone n.claims n.utc n.lcl n.unix t = [(n.claims, .bool true),
        (n.utc, .str (formatRFC3339 t 0)), (n.lcl, .str (formatRFC3339 t (zone t))), (n.unix, .int t)] := if_pos h1
    rw [hl _ hm.1, hl _ hm.2.1, hl _ hm.2.2.1, hl _ hm.2.2.2]
    simp only [Option.getD_some, hc, List.lookup_cons, beq_self_eq_true]
    refine ⟨trivial, ?_, ⟨_, ?_, Calendar.readRFC3339_format (by unfold Calendar.toEpoch; omega) (by omega) (by decide)
      (by decide) (by decide), formatZone_utc t⟩, ⟨_, ?_, Calendar.readRFC3339_format
      (by unfold Calendar.toEpoch; omega) h3 z1 z2 z3⟩⟩
    · rw [beq_eq_false_iff_ne.2 (Ne.symm n3), beq_eq_false_iff_ne.2 (Ne.symm n5), beq_eq_false_iff_ne.2 (Ne.symm n6)]
    · rw [beq_eq_false_iff_ne.2 (Ne.symm n1)]
    · rw [beq_eq_false_iff_ne.2 (Ne.symm n2), beq_eq_false_iff_ne.2 (Ne.symm n4)]

theorem claim_keys {zone : Int → Int} {n : ClaimNames} {t : Int} :
    ∀ p ∈ claimFields zone n.claims n.utc n.lcl n.unix t, p.1 ∈ n.list := by
  intro p hp
  unfold claimFields at hp
  unfold ClaimNames.list
  split at hp
  · simp only [List.mem_cons, List.not_mem_nil, or_false] at hp
    rcases hp with rfl | rfl | rfl | rfl <;> simp
  · simp only [List.mem_cons, List.not_mem_nil, or_false] at hp
    subst hp
    simp

theorem kid_keys {L : Jwx K} {j : Jwt K} {token : Str} : ∀ p ∈ kidFields L j token, p.1 = "jwtKid".toList := by
  intro p hp
  unfold kidFields at hp
  split at hp
  · split at hp
    · rw [List.mem_singleton.1 hp]
    · cases hp
  · cases hp

/-- A line with the claims of a token tells them. -/
theorem event_tells {L : Jwx K} {e : TokenLogEnv} {j : Jwt K} {token : Str} {c : Claims} {msg : Str}
    (hz : WholeMinutes e.zone) :
    (Tellable e.zone c.iat → TellsClaim (tokenEvent e (lineFields L e j token (some c)) msg) iatNames c.iat) ∧
    (Tellable e.zone c.nbf → TellsClaim (tokenEvent e (lineFields L e j token (some c)) msg) nbfNames c.nbf) ∧
    (Tellable e.zone c.exp → TellsClaim (tokenEvent e (lineFields L e j token (some c)) msg) expNames c.exp) := by
  generalize hp : [("dwnReqPath".toList, ZVal.str e.path), ("X-Request-Id".toList, ZVal.str e.xrid)] ++
    kidFields L j token = pre
  have hpre : ∀ p ∈ pre, p.1 ∈ ["dwnReqPath", "X-Request-Id", "jwtKid"].map String.toList := by
    intro p h
    rw [← hp, List.mem_append] at h
    rcases h with h | h
    · simp only [List.mem_cons, List.not_mem_nil, or_false] at h
      rcases h with rfl | rfl <;> simp
    · rw [kid_keys p h]; simp
  generalize hq : [("dwnElapsedMicros".toList, ZVal.int e.micros)] = post
  have hpost : ∀ p ∈ post, p.1 ∈ ["dwnElapsedMicros"].map String.toList := by
    intro p h
    rw [← hq] at h
    rw [List.mem_singleton.1 h]; simp
  have hfields : (tokenEvent e (lineFields L e j token (some c)) msg).fields = pre ++
      (claimFields e.zone iatNames.claims iatNames.utc iatNames.lcl iatNames.unix (c.iat.getD zeroUnix) ++
      claimFields e.zone nbfNames.claims nbfNames.utc nbfNames.lcl nbfNames.unix (c.nbf.getD zeroUnix) ++
      claimFields e.zone expNames.claims expNames.utc expNames.lcl expNames.unix (c.exp.getD zeroUnix)) ++ post := by
    rw [← hp, ← hq]
    show [_, _] ++ (kidFields L j token ++ dateClaimFields e.zone c) ++ [_] = _
    unfold dateClaimFields
    simp only [List.append_assoc]
    rfl
  have hout : ∀ l : List Str, (∀ a ∈ ["dwnReqPath", "X-Request-Id", "jwtKid", "dwnElapsedMicros"].map String.toList,
      a ∉ l) → (∀ p ∈ pre, p.1 ∉ l) ∧ ∀ p ∈ post, p.1 ∉ l := by
    intro l hl
    refine ⟨fun p h => hl _ ?_, fun p h => hl _ ?_⟩
    · have := hpre p h
      simp only [List.map_cons, List.map_nil, List.mem_cons, List.not_mem_nil, or_false] at this ⊢
      rcases this with h | h | h <;> simp [h]
    · have := hpost p h
      simp only [List.map_cons, List.map_nil, List.mem_cons, List.not_mem_nil, or_false] at this ⊢
      simp [this]
  have d1 : ∀ a ∈ iatNames.list, a ∉ nbfNames.list ∧ a ∉ expNames.list := by decide
  have d2 : ∀ a ∈ nbfNames.list, a ∉ iatNames.list ∧ a ∉ expNames.list := by decide
  have d3 : ∀ a ∈ expNames.list, a ∉ iatNames.list ∧ a ∉ nbfNames.list := by decide
  refine ⟨fun ht => ?_, fun ht => ?_, fun ht => ?_⟩
  · obtain ⟨o1, o2⟩ := hout iatNames.list (by decide)
    refine tells_of (pre := pre) (post := claimFields e.zone nbfNames.claims nbfNames.utc nbfNames.lcl nbfNames.unix
      (c.nbf.getD zeroUnix) ++ claimFields e.zone expNames.claims expNames.utc expNames.lcl expNames.unix
      (c.exp.getD zeroUnix) ++ post) ?_ (by decide) o1 ?_ hz ht
    · rw [hfields]; simp only [List.append_assoc]
    · intro p h
      simp only [List.mem_append] at h
      rcases h with (h | h) | h
      · exact (d2 _ (claim_keys p h)).1
      · exact (d3 _ (claim_keys p h)).1
      · exact o2 p h
  · obtain ⟨o1, o2⟩ := hout nbfNames.list (by decide)
    refine tells_of (pre := pre ++ claimFields e.zone iatNames.claims iatNames.utc iatNames.lcl iatNames.unix
      (c.iat.getD zeroUnix)) (post := claimFields e.zone expNames.claims expNames.utc expNames.lcl expNames.unix
      (c.exp.getD zeroUnix) ++ post) ?_ (by decide) ?_ ?_ hz ht
    · rw [hfields]; simp only [List.append_assoc]
    · intro p h
      rcases List.mem_append.1 h with h | h
      · exact o1 p h
      · exact (d1 _ (claim_keys p h)).1
    · intro p h
      rcases List.mem_append.1 h with h | h
      · exact (d3 _ (claim_keys p h)).2
      · exact o2 p h
  · obtain ⟨o1, o2⟩ := hout expNames.list (by decide)
    refine tells_of (pre := pre ++ claimFields e.zone iatNames.claims iatNames.utc iatNames.lcl iatNames.unix
      (c.iat.getD zeroUnix) ++ claimFields e.zone nbfNames.claims nbfNames.utc nbfNames.lcl nbfNames.unix
      (c.nbf.getD zeroUnix)) (post := post) ?_ (by decide) ?_ o2 hz ht
    · rw [hfields]; simp only [List.append_assoc]
    · intro p h
      simp only [List.mem_append] at h
      rcases h with (h | h) | h
      · exact o1 p h
      · exact (d1 _ (claim_keys p h)).2
      · exact (d2 _ (claim_keys p h)).2

/-- The library reads the same claims with and without verification. -/
def Coherent (L : Jwx K) : Prop := ∀ alg k token c, L.parseVerify alg k token = some c → L.parse token = some c

theorem tryKeys_coherent {L : Jwx K} (h : Coherent L) {alg token : Str} {last : Option Claims} {c : Claims}
    (hl : ∀ c, last = some c → L.parse token = some c) : ∀ {ks : KeySet K}, tryKeys L alg token last ks = some c →
    L.parse token = some c := by
  intro ks
  induction ks generalizing last with
  | nil => exact hl c
  | cons kp ks ih =>
    intro hc
    unfold tryKeys at hc
    split at hc
    · rename_i c' hv
      cases hc
      exact h _ _ _ _ hv
    · exact ih (fun c h => by cases h) hc

theorem checked_coherent {L : Jwx K} (h : Coherent L) {j : Jwt K} {token : Str} {c : Claims}
    (hc : checked L j token = .ok (some c)) : L.parse token = some c := by
  unfold checked at hc
  split at hc
  · rename_i ks _
    unfold verifySignature at hc
    split at hc
    · cases hc
    · split at hc
      · dsimp only at hc
        generalize (if 0 < (L.kid token).length then ks.find (L.kid token) else none) = key at hc
        cases key with
        | none =>
          rw [if_pos (.inr (.inl rfl))] at hc
          exact tryKeys_coherent h (fun c h => by cases h) (TokenResult.ok.inj hc)
        | some k =>
          dsimp only at hc
          split at hc
          · exact tryKeys_coherent h (fun c => h _ _ _ c) (TokenResult.ok.inj hc)
          · exact h _ _ _ c (TokenResult.ok.inj hc)
      · simp at hc
  · simp only [TokenResult.ok.injEq] at hc
    exact hc

theorem checked_verified {L : Jwx K} {j : Jwt K} {token : Str} (hs : ∃ n, L.signatures token = some n ∧ 0 < n)
    (hv : Verified L j token) : ∃ c, checked L j token = .ok (some c) := by
  have hfam : j.alg ∈ rsaAlgs ∨ j.alg ∈ ecAlgs ∨ j.alg ∈ hmacAlgs := by
    rcases hv with h | h | h
    · exact .inl h.1
    · exact .inr (.inl h.1)
    · exact .inr (.inr h.1)
  obtain ⟨ks, hk⟩ := Option.isSome_iff_exists.1 ((keySet_isSome j).2 hfam)
  unfold checked
  rw [hk]
  obtain ⟨n, hs, hn⟩ := hs
  obtain ⟨kp, hm, hc⟩ := (verified_iff L j token ks hk).1 hv
  exact (C17_some_key L j.alg token ks n hs hn).2 ⟨kp, hm, Option.isSome_iff_exists.1 hc⟩

/-- C141, part: the line about a token that was verified, accepted or not, tells its dates, if they are later than the
first second of 1970 and of the years up to 9999. -/
theorem C141_dates_partial (L : Jwx K) (hL : Coherent L) (e : TokenLogEnv) (hz : WholeMinutes e.zone) (r : Route)
    (j : Jwt K) (now : Int) (auth token : Str) (hb : bearerToken auth = some token)
    (hs : ∃ n, L.signatures token = some n ∧ 0 < n) (hv : Verified L j token) :
    ∃ f c, tokenLines L e r j now auth = [f] ∧ L.parse token = some c ∧
      (Tellable e.zone c.iat → TellsClaim f iatNames c.iat) ∧ (Tellable e.zone c.nbf → TellsClaim f nbfNames c.nbf) ∧
      (Tellable e.zone c.exp → TellsClaim f expNames c.exp) := by
  obtain ⟨p, hch⟩ := checked_verified hs hv
  have hp := checked_coherent hL hch
  refine ⟨_, p, ?_, hp, event_tells (L := L) (e := e) (j := j) (token := token) (msg :=
    if dateClaimsOk L.skipsEpoch L.nbfStrict (skewOf j) now p then validatedMsg else rejectedMsg (e.cause token)) hz⟩
  rw [tokenLines_eq, hb]
  dsimp only
  rw [hch, hp]
  dsimp only
  split <;> rfl

/-- C141, part: the same for a token that was accepted without a signature being asked for. -/
theorem C141_unsigned_partial (L : Jwx K) (e : TokenLogEnv) (hz : WholeMinutes e.zone) (r : Route)
    (j : Jwt K) (hfam : ¬ (j.alg ∈ rsaAlgs ∨ j.alg ∈ ecAlgs ∨ j.alg ∈ hmacAlgs)) (now : Int) (auth token : Str)
    (hb : bearerToken auth = some token) (c : Claims) (hp : L.parse token = some c) :
    ∃ f, tokenLines L e r j now auth = [f] ∧
      (Tellable e.zone c.iat → TellsClaim f iatNames c.iat) ∧ (Tellable e.zone c.nbf → TellsClaim f nbfNames c.nbf) ∧
      (Tellable e.zone c.exp → TellsClaim f expNames c.exp) := by
  have hk : j.keySet = none := by
    cases h : j.keySet with
    | none => rfl
    | some ks => exact absurd ((keySet_isSome j).1 (by rw [h]; rfl)) hfam
  have hch : checked L j token = .ok (some c) := by
    unfold checked
    rw [hk, ← hp]
  refine ⟨_, ?_, event_tells (L := L) (e := e) (j := j) (token := token) (msg :=
    if dateClaimsOk L.skipsEpoch L.nbfStrict (skewOf j) now c then validatedMsg else rejectedMsg (e.cause token)) hz⟩
  rw [tokenLines_eq, hb]
  dsimp only
  rw [hch, hp]
  dsimp only
  split <;> rfl

/-- C141, part: the line about a token with a signature names its key id, if it has one, whatever comes of the check. -/
theorem C141_kid_partial (L : Jwx K) (e : TokenLogEnv) (r : Route) (j : Jwt K)
    (hfam : j.alg ∈ rsaAlgs ∨ j.alg ∈ ecAlgs ∨ j.alg ∈ hmacAlgs) (now : Int) (auth token : Str)
    (hb : bearerToken auth = some token) (hs : ∃ n, L.signatures token = some n ∧ 0 < n) (f : ZEvent)
    (hf : f ∈ tokenLines L e r j now auth) :
    f.field "jwtKid".toList = if L.kid token = [] then none else some (.str (L.kid token)) := by
  obtain ⟨ks, hk⟩ := Option.isSome_iff_exists.1 ((keySet_isSome j).2 hfam)
  obtain ⟨n, hs, hn⟩ := hs
  have hkf : kidFields L j token = if L.kid token = [] then [] else [("jwtKid".toList, .str (L.kid token))] := by
    unfold kidFields
    rw [hk, hs]
    dsimp only
    by_cases h0 : L.kid token = []
    · rw [if_pos h0, if_neg (by rw [h0]; simp)]
    · rw [if_neg h0, if_pos ⟨hn, List.length_pos_iff.2 h0⟩]
  have key : ∀ (c : Option Claims) (msg : Str), (tokenEvent e (lineFields L e j token c) msg).field "jwtKid".toList =
      if L.kid token = [] then none else some (.str (L.kid token)) := by
    intro c msg
    generalize hrest : (match c with | some c => dateClaimFields e.zone c | none => []) ++
      [("dwnElapsedMicros".toList, ZVal.int e.micros)] = rest
    have hno : ∀ p ∈ rest, p.1 ≠ "jwtKid".toList := by
      intro p hp
      rw [← hrest, List.mem_append] at hp
      rcases hp with hp | hp
      · cases c with
        | none => cases hp
        | some c =>
          dsimp only at hp
          unfold dateClaimFields at hp
          simp only [List.mem_append] at hp
          have hd : ∀ a ∈ iatNames.list ++ nbfNames.list ++ expNames.list, a ≠ "jwtKid".toList := by decide
          refine hd _ ?_
          rcases hp with (hp | hp) | hp
          · exact List.mem_append_left _ (List.mem_append_left _ (claim_keys (n := iatNames) p hp))
          · exact List.mem_append_left _ (List.mem_append_right _ (claim_keys (n := nbfNames) p hp))
          · exact List.mem_append_right _ (claim_keys (n := expNames) p hp)
      · rw [List.mem_singleton.1 hp]
        exact fun h => absurd (show "dwnElapsedMicros".toList = "jwtKid".toList from h) (by decide)
    have hl : (tokenEvent e (lineFields L e j token c) msg).fields =
        [("dwnReqPath".toList, .str e.path), ("X-Request-Id".toList, .str e.xrid)] ++ (kidFields L j token ++ rest) := by
      rw [← hrest]
      show [_, _] ++ (_ ++ _) ++ [_] = _
      simp only [List.append_assoc]
    unfold ZEvent.field
    rw [hl, hkf, List.lookup_append, lookup_absent (l := [_, _]) (by
      intro p hp
      simp only [List.mem_cons, List.not_mem_nil, or_false] at hp
      rcases hp with rfl | rfl
      · exact fun h => absurd (show "dwnReqPath".toList = "jwtKid".toList from h) (by decide)
      · exact fun h => absurd (show "X-Request-Id".toList = "jwtKid".toList from h) (by decide)), List.lookup_append,
      lookup_absent hno]
    split
    · rfl
    · rw [List.lookup_cons, beq_self_eq_true]
      rfl
  rw [tokenLines_eq, hb] at hf
  dsimp only at hf
  split at hf
  · cases hf
  · rw [List.mem_singleton.1 hf]; exact key _ _
  · split at hf
    · cases hf
    · split at hf
      · rw [List.mem_singleton.1 hf]; exact key _ _
      · rw [List.mem_singleton.1 hf]; exact key _ _

/-! ### Where it fails -/

/-- C141 fails: unless LOGLEVEL is TRACE nothing at all is written, of tokens accepted and of tokens rejected. -/
theorem C141_violated_always (G : Logger) (hG : G.level.map Char.toUpper ≠ "TRACE".toList) (L : Jwx K) (e : TokenLogEnv)
    (r : Route) (j : Jwt K) (now : Int) (auth : Str) (time clock : Str) (f : ZEvent)
    (hf : f ∈ tokenLines L e r j now auth) : G.write time clock f = [] := by
  have hl : f.level = .trace := by simpa using (List.mem_filter.1 hf).2
  rw [write_eq_nil, hl]
  have hn : logLevel G.level ≠ .trace := fun h => hG ((logLevel_trace _).1 h)
  rcases logLevel_cases G.level with h | h | h | h
  · exact absurd h hn
  all_goals rw [h]; rfl

/-- C141 fails for every token that the library cannot parse, if the algorithm has keys: the check crashes (C15) and
there is no line about it. -/
theorem C141_violated_malformed_always (L : Jwx K) (e : TokenLogEnv) (r : Route) (j : Jwt K)
    (hfam : j.alg ∈ rsaAlgs ∨ j.alg ∈ ecAlgs ∨ j.alg ∈ hmacAlgs) (now : Int) (auth token : Str)
    (hb : bearerToken auth = some token) (hs : L.signatures token = none) : tokenEvents L e r j now auth = [] := by
  obtain ⟨ks, hk⟩ := Option.isSome_iff_exists.1 ((keySet_isSome j).2 hfam)
  have hv : verifySignature L j.alg token ks = .panic := by
    unfold verifySignature
    rw [hs]
  have ht : triggersRefresh L j token ks = false := by
    unfold triggersRefresh
    rw [hs]
  unfold tokenEvents
  rw [hb]
  simp [hk, hv, ht]

/-- C141 fails for every token with a date claim of the first second of 1970 or before: the line says that the token has
no such claim. -/
theorem C141_violated_early_always (L : Jwx K) (hL : Coherent L) (e : TokenLogEnv) (r : Route) (j : Jwt K) (now : Int)
    (auth token : Str) (hb : bearerToken auth = some token) (hs : ∃ n, L.signatures token = some n ∧ 0 < n)
    (hv : Verified L j token) (c : Claims) (hc : L.parse token = some c) (t : Int) (ht : t ≤ 1) (n : ClaimNames)
    (hn : c.iat = some t ∧ n = iatNames ∨ c.nbf = some t ∧ n = nbfNames ∨ c.exp = some t ∧ n = expNames) :
    ∃ f, tokenLines L e r j now auth = [f] ∧ (n.claims, ZVal.bool false) ∈ f.fields ∧
      (∀ v, (n.claims, v) ∈ f.fields → v = .bool false) := by
  obtain ⟨p, hch⟩ := checked_verified hs hv
  have hp := checked_coherent hL hch
  rw [hc] at hp
  cases hp
  obtain ⟨msg, hm⟩ : ∃ msg, tokenLines L e r j now auth = [tokenEvent e (lineFields L e j token (some c)) msg] := by
    rw [tokenLines_eq, hb]
    dsimp only
    rw [hch, hc]
    dsimp only
    split
    · exact ⟨_, rfl⟩
    · exact ⟨_, rfl⟩
  have early : ∀ n : ClaimNames, claimFields e.zone n.claims n.utc n.lcl n.unix t = [(n.claims, .bool false)] :=
    fun n => if_neg (by omega)
  have hfields : (tokenEvent e (lineFields L e j token (some c)) msg).fields =
      [("dwnReqPath".toList, .str e.path), ("X-Request-Id".toList, .str e.xrid)] ++ (kidFields L j token ++
      (claimFields e.zone iatNames.claims iatNames.utc iatNames.lcl iatNames.unix (c.iat.getD zeroUnix) ++
      claimFields e.zone nbfNames.claims nbfNames.utc nbfNames.lcl nbfNames.unix (c.nbf.getD zeroUnix) ++
      claimFields e.zone expNames.claims expNames.utc expNames.lcl expNames.unix (c.exp.getD zeroUnix))) ++
      [("dwnElapsedMicros".toList, .int e.micros)] := rfl
  have hmem : ∀ m ∈ [iatNames.claims, nbfNames.claims, expNames.claims], ∀ v, (m, v) ∈
      (tokenEvent e (lineFields L e j token (some c)) msg).fields →
      (m ∈ iatNames.list ∧ (m, v) ∈ claimFields e.zone iatNames.claims iatNames.utc iatNames.lcl iatNames.unix
        (c.iat.getD zeroUnix)) ∨
      (m ∈ nbfNames.list ∧ (m, v) ∈ claimFields e.zone nbfNames.claims nbfNames.utc nbfNames.lcl nbfNames.unix
        (c.nbf.getD zeroUnix)) ∨
      (m ∈ expNames.list ∧ (m, v) ∈ claimFields e.zone expNames.claims expNames.utc expNames.lcl expNames.unix
        (c.exp.getD zeroUnix)) := by
    intro m hmm v h
    have hd : ∀ m ∈ [iatNames.claims, nbfNames.claims, expNames.claims], m ≠ "dwnReqPath".toList ∧
      m ≠ "X-Request-Id".toList ∧ m ≠ "jwtKid".toList ∧ m ≠ "dwnElapsedMicros".toList := by decide
    obtain ⟨d1, d2, d3, d4⟩ := hd m hmm
    rw [hfields] at h
    simp only [List.mem_append] at h
    rcases h with (h | h | (h | h) | h) | h
    · simp only [List.mem_cons, List.not_mem_nil, or_false, Prod.mk.injEq] at h
      rcases h with h | h
      · exact absurd h.1 d1
      · exact absurd h.1 d2
    · exact absurd (kid_keys _ h) d3
    · exact .inl ⟨claim_keys _ h, h⟩
    · exact .inr (.inl ⟨claim_keys _ h, h⟩)
    · exact .inr (.inr ⟨claim_keys _ h, h⟩)
    · exact absurd (congrArg Prod.fst (List.mem_singleton.1 h)) d4
  refine ⟨_, hm, ?_⟩
  rcases hn with ⟨hcl, rfl⟩ | ⟨hcl, rfl⟩ | ⟨hcl, rfl⟩
  · rw [hcl, Option.getD_some, early] at hfields hmem
    refine ⟨by rw [hfields]; simp, fun v h => ?_⟩
    rcases hmem _ (by simp) v h with h | h | h
    · exact congrArg Prod.snd (List.mem_singleton.1 h.2)
    · exact absurd h.1 (by decide)
    · exact absurd h.1 (by decide)
  · rw [hcl, Option.getD_some, early nbfNames] at hfields hmem
    refine ⟨by rw [hfields]; simp, fun v h => ?_⟩
    rcases hmem _ (by simp) v h with h | h | h
    · exact absurd h.1 (by decide)
    · exact congrArg Prod.snd (List.mem_singleton.1 h.2)
    · exact absurd h.1 (by decide)
  · rw [hcl, Option.getD_some, early expNames] at hfields hmem
    refine ⟨by rw [hfields]; simp, fun v h => ?_⟩
    rcases hmem _ (by simp) v h with h | h | h
    · exact absurd h.1 (by decide)
    · exact absurd h.1 (by decide)
    · exact congrArg Prod.snd (List.mem_singleton.1 h.2)

/-- Tokens of one letter: `a` has dates, `b` expired in the first second of 1970, `c` expires in the year 10000, `m` is
malformed. -/
def Demo.dated : Jwx Nat where
  signatures := fun t => if t = "m".toList then none else some 1
  parseVerify := fun _ k t => if k = 1 then Demo.claims t else none
  parse := Demo.claims
  kid := fun _ => "k".toList
  nbfStrict := false
  skipsEpoch := false
where
  Demo.claims (t : Str) : Option Claims :=
    if t = "a".toList then some { iat := some 1605600000, exp := some 1605603600 }
    else if t = "b".toList then some { exp := some 1 }
    else if t = "c".toList then some { exp := some 253402300800 }
    else none

def Demo.logEnv : TokenLogEnv :=
  { path := "/a/x".toList, xrid := "XR-abc-u".toList, micros := 12, zone := fun _ => 3600, cause := fun _ => "bad".toList }

def Demo.hmac : Jwt Nat :=
  { name := "j".toList, alg := "HS256".toList, acceptableSkewSeconds := "0".toList, secret := [⟨"k".toList, 1⟩] }

/-- C141 fails: the token `b` is rejected because it has expired, and the line says that it has no expiry; the token `c`
is accepted, and the text of its expiry is none in RFC 3339; about the token `m` there is no line. -/
theorem C141_violated :
    (∃ f, tokenLines Demo.dated Demo.logEnv Demo.route Demo.hmac 1605600001 "Bearer b".toList = [f] ∧
      f.msg = "jwt token rejected, cause: bad".toList ∧ f.field "jwtClaimsExp".toList = some (.bool false)) ∧
    (∃ f, tokenLines Demo.dated Demo.logEnv Demo.route Demo.hmac 1605600001 "Bearer c".toList = [f] ∧
      f.msg = "jwt token validated".toList ∧
      f.field "jwtExpUtcIso".toList = some (.str "10000-01-01T00:00:00Z".toList) ∧
      Calendar.readRFC3339 "10000-01-01T00:00:00Z".toList = none) ∧
    tokenLines Demo.dated Demo.logEnv Demo.route Demo.hmac 1605600001 "Bearer m".toList = [] := by
  refine ⟨⟨_, rfl, by decide +kernel, by decide +kernel⟩, ⟨_, rfl, by decide +kernel, by decide +kernel, by decide +kernel⟩,
    by decide +kernel⟩

/-- The line about a token that was accepted. -/
example : tokenLines Demo.dated Demo.logEnv Demo.route Demo.hmac 1605600001 "Bearer a".toList =
    [{ level := .trace,
       fields := [("dwnReqPath".toList, .str "/a/x".toList), ("X-Request-Id".toList, .str "XR-abc-u".toList),
        ("jwtKid".toList, .str "k".toList),
        ("jwtClaimsIat".toList, .bool true), ("jwtIatUtcIso".toList, .str "2020-11-17T08:00:00Z".toList),
        ("jwtIatLclIso".toList, .str "2020-11-17T09:00:00+01:00".toList), ("jwtIatUnix".toList, .int 1605600000),
        ("jwtClaimsNbf".toList, .bool false),
        ("jwtClaimsExp".toList, .bool true), ("jwtExpUtcIso".toList, .str "2020-11-17T09:00:00Z".toList),
        ("jwtExpLclIso".toList, .str "2020-11-17T10:00:00+01:00".toList), ("jwtExpUnix".toList, .int 1605603600),
        ("dwnElapsedMicros".toList, .int 12)],
       msg := "jwt token validated".toList }] := by decide +kernel

/-- The hypotheses of C141_dates_partial. -/
example : Coherent Demo.dated ∧ WholeMinutes Demo.logEnv.zone ∧ Verified Demo.dated Demo.hmac "a".toList := by
  refine ⟨?_, fun _ => show (3600 : Int) % 60 = 0 ∧ -86400 < (3600 : Int) ∧ (3600 : Int) < 86400 by decide, ?_⟩
  · intro alg k token c h
    unfold Demo.dated at h ⊢
    dsimp only at h ⊢
    split at h
    · exact h
    · cases h
  · unfold Verified
    decide +kernel

/-! ## C139, of the lines about a token -/

/-- What the library tells about two tokens is the same. -/
structure SameVerdict (L : Jwx K) (e : TokenLogEnv) (alg token token' : Str) : Prop where
  signatures : L.signatures token' = L.signatures token
  kid : L.kid token' = L.kid token
  parse : L.parse token' = L.parse token
  verify : ∀ k, L.parseVerify alg k token' = L.parseVerify alg k token
  cause : e.cause token' = e.cause token

theorem tryKeys_congr {L : Jwx K} {alg token token' : Str} (h : ∀ k, L.parseVerify alg k token' = L.parseVerify alg k token) :
    ∀ (ks : KeySet K) (last : Option Claims), tryKeys L alg token' last ks = tryKeys L alg token last ks
  | [], _ => rfl
  | kp :: ks, last => by
    unfold tryKeys
    rw [h]
    split
    · rfl
    · exact tryKeys_congr h ks none

/-- C139, part: the lines about a token depend on it only through what the library makes of it: the number of signatures,
the key id, the date claims, which keys verify it, and the text of the error. The token itself is not in them. -/
theorem C139_token_partial (L : Jwx K) (e : TokenLogEnv) (r : Route) (j : Jwt K) (now : Int) (auth auth' token token' : Str)
    (hb : bearerToken auth = some token) (hb' : bearerToken auth' = some token') (h : SameVerdict L e j.alg token token') :
    tokenEvents L e r j now auth' = tokenEvents L e r j now auth := by
  have hv : ∀ ks, verifySignature L j.alg token' ks = verifySignature L j.alg token ks := by
    intro ks
    unfold verifySignature
    simp only [h.signatures, h.kid, h.verify, tryKeys_congr h.verify]
  have ht : ∀ ks, triggersRefresh L j token' ks = triggersRefresh L j token ks := by
    intro ks
    unfold triggersRefresh
    simp only [h.signatures, h.kid]
  have hk : kidFields L j token' = kidFields L j token := by
    unfold kidFields
    simp only [h.signatures, h.kid]
  have hc : parseCause L e j token' = parseCause L e j token := by
    unfold parseCause
    simp only [h.signatures, h.cause]
  unfold tokenEvents
  rw [hb, hb']
  simp only [hv, ht, hk, hc, h.parse, h.kid, h.cause]

/-- Two tokens with the same claims. -/
example : SameVerdict (K := Nat) { Demo.dated with
      parse := fun _ => some {}, parseVerify := fun _ _ _ => some {}, signatures := fun _ => some 1 } Demo.logEnv
    "HS256".toList "one".toList "two".toList ∧ bearerToken "Bearer one".toList = some "one".toList ∧
    bearerToken "Bearer two".toList = some "two".toList :=
  ⟨⟨rfl, rfl, rfl, fun _ => rfl, rfl⟩, by decide +kernel, by decide +kernel⟩

end J8a

import Verif.Model.UpTls
import Verif.Props.Handshake
import Verif.Props.Keys
/-!
# C123 to C126 — TLS with upstreams, where keys come from, how strong they are
-/
namespace J8a
open Go

variable {C K : Type}

theorem up_versions (n : Str) (b : Bool) :
    (ClientTls.versions { insecureSkipVerify := b, serverName := n }) =
      [0x0304, 0x0303, 0x0302, 0x0301] := rfl

theorem up_suites (n : Str) (b : Bool) :
    (ClientTls.suites { insecureSkipVerify := b, serverName := n }) = defaultSuites := rfl

/-! ## C124 -/

/-- **C124.** A connection for an https URL is a TLS connection, and the certificates of the other end
were verified for the host of the URL, unless `tlsInsecureSkipVerify` is configured. -/
theorem C124_verified (verify : C → Str → Bool) (u : Upstream) (url : URL) (answer : ServerChoice C)
    (conn : UpConn C) (hs : toLower url.scheme = "https".toList)
    (h : upstreamConn verify u url answer = some conn) :
    ∃ s, conn = .tls s ∧
      (u.tlsInsecureSkipVerify = true ∨ (verify s.chain url.host = true ∧ url.host ≠ [])) := by
  simp only [upstreamConn, dialConn, hs, if_true, upstreamTls] at h
  split at h
  · rename_i ha
    cases h
    refine ⟨answer, rfl, ?_⟩
    simp only [ClientTls.accepts, Bool.and_eq_true, Bool.or_eq_true, bne_iff_ne] at ha
    cases hi : u.tlsInsecureSkipVerify with
    | true => exact .inl rfl
    | false =>
      obtain ⟨⟨⟨h1, _⟩, _⟩, h4⟩ := ha
      simp only [hi, Bool.false_eq_true, false_or] at h1 h4
      exact .inr ⟨h4, h1⟩
  · cases h

/-- **C124.** Nothing is sent in the clear unless the URL says http. -/
theorem C124_clear (verify : C → Str → Bool) (u : Upstream) (url : URL) (answer : ServerChoice C)
    (h : upstreamConn verify u url answer = some .plain) : toLower url.scheme = "http".toList := by
  simp only [upstreamConn, dialConn] at h
  split at h
  · split at h
    · split at h <;> simp at h
    · split at h <;> simp at h
  · split at h
    · assumption
    · cases h

/-- **C124, the other way.** An upstream that is verified, or need not be, and speaks TLS 1.2 or 1.3 with a
strong suite gets its connection. -/
theorem C124_served (verify : C → Str → Bool) (u : Upstream) (url : URL) (answer : ServerChoice C)
    (hs : toLower url.scheme = "https".toList)
    (hv : u.tlsInsecureSkipVerify = true ∨ (verify answer.chain url.host = true ∧ url.host ≠ []))
    (hstrong : (answer.version = 0x0304 ∧ answer.suite ∈ [0x1301, 0x1302, 0x1303]) ∨
      (answer.version = 0x0303 ∧
        answer.suite ∈ [0xc02b, 0xc02c, 0xc02f, 0xc030, 0xcca8, 0xcca9])) :
    upstreamConn verify u url answer = some (.tls answer) := by
  simp only [upstreamConn, dialConn, hs, if_true, upstreamTls]
  rw [if_pos]
  simp only [ClientTls.accepts, Bool.and_eq_true, Bool.or_eq_true, bne_iff_ne]
  refine ⟨⟨⟨hv.imp id And.right, ?_⟩, ?_⟩, hv.imp id And.left⟩
  · rw [up_versions]
    rcases hstrong with ⟨h, _⟩ | ⟨h, _⟩ <;> rw [h] <;> decide
  · rw [up_suites]
    rcases hstrong with ⟨h, h2⟩ | ⟨h, h2⟩
    · rw [h, if_pos (by decide)]
      simp only [List.mem_cons, List.not_mem_nil, or_false] at h2
      rcases h2 with h2 | h2 | h2 <;> rw [h2] <;> decide
    · rw [h, if_neg (by decide)]
      simp only [List.mem_cons, List.not_mem_nil, or_false] at h2
      rcases h2 with h2 | h2 | h2 | h2 | h2 | h2 <;> rw [h2] <;> decide

/-- A world in which the number 1 is the only certificate, good for the host `api`. -/
def oneCert : Nat → Str → Bool := fun c n => c == 1 && n == "api".toList

example : upstreamConn oneCert {} ⟨"https".toList, "api".toList, 443⟩ ⟨0x0304, 0x1301, 1⟩
    = some (.tls ⟨0x0304, 0x1301, 1⟩) := by decide
/-- The certificate of somebody else. -/
example : upstreamConn oneCert {} ⟨"https".toList, "api".toList, 443⟩ ⟨0x0304, 0x1301, 2⟩ = none := by
  decide
example : upstreamConn oneCert { tlsInsecureSkipVerify := true } ⟨"https".toList, "api".toList, 443⟩
    ⟨0x0304, 0x1301, 2⟩ = some (.tls ⟨0x0304, 0x1301, 2⟩) := by decide

/-! ## C123 -/

/-- C123 holds with TLS 1.3: the suite is strong. -/
theorem C123_tls13_partial (verify : C → Str → Bool) (u : Upstream) (url : URL)
    (answer s : ServerChoice C) (h : upstreamConn verify u url answer = some (.tls s))
    (hv : s.version = 0x0304) : s.suite ∈ strongSuites := by
  simp only [upstreamConn, dialConn, upstreamTls] at h
  split at h
  · simp only [if_true] at h
    split at h
    · rename_i ha
      cases h
      simp only [ClientTls.accepts, Bool.and_eq_true] at ha
      have h3 := ha.1.2
      rw [hv, if_pos (by decide)] at h3
      have := suites13_mem (aes := true) (by simpa using h3)
      simp only [List.mem_cons, List.not_mem_nil, or_false] at this
      rcases this with h | h | h <;> rw [h] <;> decide
    · cases h
  · split at h <;> cases h

/-- C123, what is left below TLS 1.3: not SSL, and not RC4. -/
theorem C123_floor_partial (verify : C → Str → Bool) (u : Upstream) (url : URL)
    (answer s : ServerChoice C) (h : upstreamConn verify u url answer = some (.tls s)) :
    s.version ∈ [0x0301, 0x0302, 0x0303, 0x0304] ∧ s.suite ∉ [0x0005, 0xc011, 0xc007] := by
  simp only [upstreamConn, dialConn, upstreamTls] at h
  split at h
  · simp only [if_true] at h
    split at h
    · rename_i ha
      cases h
      simp only [ClientTls.accepts, Bool.and_eq_true] at ha
      have h2 := ha.1.1.2
      have h3 := ha.1.2
      rw [up_versions] at h2
      refine ⟨?_, ?_⟩
      · simp only [List.contains_eq_mem, List.mem_cons, List.not_mem_nil, or_false,
          decide_eq_true_eq] at h2 ⊢
        rcases h2 with h | h | h | h <;> simp [h]
      · split at h3
        · have := suites13_mem (aes := true) (by simpa using h3)
          simp only [List.mem_cons, List.not_mem_nil, or_false] at this
          rcases this with h | h | h <;> rw [h] <;> decide
        · have h4 : answer.suite ∈ defaultSuites := by
            rw [up_suites] at h3
            simpa using h3
          have : ∀ x ∈ defaultSuites, x ∉ [0x0005, 0xc011, 0xc007] := by decide
          exact this _ h4
    · cases h
  · split at h <;> cases h

/-- **C123 is violated, whatever is configured.** Nothing can be configured that keeps the gateway from
talking TLS 1.0 to an upstream, with a suite that has neither an ephemeral key exchange nor
authenticated encryption: 0x002f is RSA with AES-128-CBC, 0x000a RSA with triple DES. -/
theorem C123_violated_always (verify : C → Str → Bool) (u : Upstream) (url : URL) (chain : C)
    (hs : toLower url.scheme = "https".toList) (hv : verify chain url.host = true) (hh : url.host ≠ [])
    (suite : Nat) (hsuite : suite = 0x002f ∨ suite = 0x000a) :
    upstreamConn verify u url ⟨0x0301, suite, chain⟩ = some (.tls ⟨0x0301, suite, chain⟩) ∧
    suite ∉ strongSuites := by
  refine ⟨?_, by rcases hsuite with rfl | rfl <;> decide⟩
  simp only [upstreamConn, dialConn, hs, if_true, upstreamTls]
  rw [if_pos]
  simp only [ClientTls.accepts, hv, Bool.or_true, Bool.and_true, Bool.and_eq_true, Bool.or_eq_true,
    bne_iff_ne]
  refine ⟨⟨.inr hh, by rw [up_versions]; decide⟩, ?_⟩
  rw [if_neg (by decide), up_suites]
  rcases hsuite with rfl | rfl <;> decide

/-- C123 is violated: with the default configuration. -/
theorem C123_violated : ∃ (url : URL) (s : ServerChoice Nat),
    upstreamConn oneCert {} url s = some (.tls s) ∧ s.version = 0x0301 ∧ s.suite = 0x000a :=
  ⟨⟨"https".toList, "api".toList, 443⟩, ⟨0x0301, 0x000a, 1⟩, by decide⟩

/-- The same choices would not do for a client of the gateway. -/
example : listenerTls.negotiate .rsa true (fun _ => true)
    { vers := 0x0301, suites := [0x002f, 0x000a] } = none := by decide

/-! ## C125 -/

/-- C125 holds without a JWKS URL: nothing is taken from the network. -/
theorem C125_static_partial (X : X509 K) (hk : Str → K) (uuid : Str)
    (fetch fetch' : Str → Option (List (Jwk K))) (j : Jwt K) (h : j.key ≠ [] ∨ j.jwksUrl = []) :
    j.validate X hk uuid fetch = j.validate X hk uuid fetch' := by
  simp only [Jwt.validate]
  rcases h with h | h
  · have : 0 < j.key.length := List.length_pos_iff.2 h
    simp [this]
  · simp [h]

/-- The same outcome with another JWKS URL. -/
def Outcome.withUrl (url : Str) : Outcome K → Outcome K
  | .panic => .panic
  | .done j e => .done { j with jwksUrl := url } e

theorem parseKey_url (X : X509 K) (hk : Str → K) (uuid url : Str) (j : Jwt K) :
    parseKey X hk uuid { j with jwksUrl := url } = (parseKey X hk uuid j).withUrl url := by
  simp only [parseKey]
  repeat' split
  all_goals first | rfl | simp_all

theorem loadLoop_url (url : Str) (ks : List (Jwk K)) : ∀ (j : Jwt K) (e : Bool),
    loadLoop { j with jwksUrl := url } e ks = (loadLoop j e ks).withUrl url := by
  induction ks with
  | nil => intro j e; rfl
  | cons k ks ih =>
    intro j e
    simp only [loadLoop]
    split
    · rfl
    · split
      · split
        · exact ih { j with rsaPublic := j.rsaPublic.upsert _ } _
        · exact ih j _
      · split
        · split
          · exact ih { j with ecdsaPublic := j.ecdsaPublic.upsert _ } _
          · exact ih j _
        · rfl
      · exact ih j _

/-- **C125 is violated, whatever the configuration.** Boot looks at the JWKS URL only to see whether there
is one: if a configuration is accepted with some URL, it is accepted with any other URL at which the
same document is found, over TLS or not. -/
theorem C125_violated_always (X : X509 K) (hk : Str → K) (uuid : Str)
    (fetch : Str → Option (List (Jwk K))) (j j' : Jwt K) (url : Str) (hurl : url ≠ [])
    (hj : j.jwksUrl ≠ []) (hsame : fetch url = fetch j.jwksUrl)
    (h : j.validate X hk uuid fetch = .done j' false) :
    { j with jwksUrl := url }.validate X hk uuid fetch = .done { j' with jwksUrl := url } false := by
  have hl : 0 < j.jwksUrl.length := List.length_pos_iff.2 hj
  have hl' : 0 < url.length := List.length_pos_iff.2 hurl
  have key : { j with jwksUrl := url }.validate X hk uuid fetch =
      (j.validate X hk uuid fetch).withUrl url := by
    have load : ∀ i : Jwt K, loadJwks { i with jwksUrl := url } (fetch url) =
        (loadJwks i (fetch j.jwksUrl)).withUrl url := by
      intro i
      rw [hsame]
      simp only [loadJwks]
      split
      · rfl
      · rfl
      · exact loadLoop_url url _ i false
    simp only [Jwt.validate, hl, hl', Nat.ne_of_gt hl, Nat.ne_of_gt hl', and_true, and_false, if_true]
    repeat' split
    all_goals first
      | rfl
      | exact parseKey_url X hk uuid url j
      | exact parseKey_url X hk uuid url { j with acceptableSkewSeconds := defaultSkew }
      | exact load j
      | exact load { j with acceptableSkewSeconds := defaultSkew }
  rw [key, h]
  rfl

/-- C125 is violated: a document from `http://k` decides which tokens are accepted. -/
theorem C125_violated : ∃ (j j' : Jwt Nat) (X : X509 Nat),
    j.jwksUrl = "http://k".toList ∧
    j.validate X (fun _ => 0) [] (fun _ => some [⟨"a".toList, "RS256".toList, .rsa 66⟩])
      = .done j' false ∧ j'.rsaPublic.map KidPair.key = [66] :=
  ⟨{ name := "n".toList, alg := "RS256".toList, jwksUrl := "http://k".toList },
   { name := "n".toList, alg := "RS256".toList, jwksUrl := "http://k".toList,
     acceptableSkewSeconds := "120".toList, rsaPublic := [⟨"a".toList, 66⟩] },
   ⟨Unit, fun _ => (none, true), fun _ => none, fun _ => none⟩, rfl, rfl, rfl⟩

/-! ## C126 -/

/-- RFC 7518, sections 3.2, 3.3 and 3.5: the least size of a key in bits. -/
inductive LeastBits : Str → Nat → Prop where
  | rsa {alg : Str} : alg ∈ rsaAlgs → LeastBits alg 2048
  | hs256 : LeastBits "HS256".toList 256
  | hs384 : LeastBits "HS384".toList 384
  | hs512 : LeastBits "HS512".toList 512

/-- C126 holds for elliptic curves: a key that is loaded, from the configuration or from a JWKS, lies on the
curve that RFC 7518 names for the algorithm. -/
theorem C126_ec_partial (X : X509 K) (hk : Str → K) (uuid : Str)
    (fetch : Str → Option (List (Jwk K))) (j j' : Jwt K) (ha : j.alg ∈ ecAlgs)
    (h : j.validate X hk uuid fetch = .done j' false) (kp : KidPair K) (hkp : kp ∈ j'.ecdsaPublic) :
    kp ∈ j.ecdsaPublic ∨ ∃ bits, CurveSize j.alg bits ∧
      (PemHolds X j.key ecPemTypes (.ec kp.key bits) ∨
        ∃ ks, fetch j.jwksUrl = some ks ∧ ∃ k ∈ ks, k.kid = kp.kid ∧ k.raw = .ec kp.key bits) := by
  have tail : ∀ i : Jwt K, i.alg = j.alg → i.key = j.key → i.ecdsaPublic = j.ecdsaPublic →
      (parseKey X hk uuid i = .done j' false ∨ loadJwks i (fetch j.jwksUrl) = .done j' false) →
      kp ∈ j.ecdsaPublic ∨ ∃ bits, CurveSize j.alg bits ∧
      (PemHolds X j.key ecPemTypes (.ec kp.key bits) ∨
        ∃ ks, fetch j.jwksUrl = some ks ∧ ∃ k ∈ ks, k.kid = kp.kid ∧ k.raw = .ec kp.key bits) := by
    intro i h1 h2 h3 h4
    rcases h4 with h4 | h4
    · obtain ⟨key, kid, bits, hp, hb, rfl⟩ := C26_ec X hk uuid i j' (h1 ▸ ha) h4
      simp only [KeySet.upsert, h3] at hkp
      split at hkp
      · exact .inl hkp
      · simp only [List.mem_append, List.mem_singleton] at hkp
        rcases hkp with hkp | rfl
        · exact .inl hkp
        · exact .inr ⟨bits, h1 ▸ hb, .inl (h2 ▸ hp)⟩
    · obtain ⟨_, hec, _⟩ := C23_only_configured_alg i j' _ _ h4
      rcases hec kp hkp with h5 | ⟨_, ks, hks, k, hk1, bits, _, hk2, hk3, hb⟩
      · exact .inl (h3 ▸ h5)
      · exact .inr ⟨bits, h1 ▸ hb, .inr ⟨ks, hks, k, hk1, hk2, hk3⟩⟩
  simp only [Jwt.validate] at h
  have hn : family j.alg = .ec := family_ec.2 ha
  repeat' split at h
  all_goals first
    | exact tail j rfl rfl rfl (.inl h)
    | exact tail j rfl rfl rfl (.inr h)
    | exact tail { j with acceptableSkewSeconds := defaultSkew } rfl rfl rfl (.inl h)
    | exact tail { j with acceptableSkewSeconds := defaultSkew } rfl rfl rfl (.inr h)
    | (simp at h; done)
    | (exfalso; simp_all; done)
    | skip

/-- **C126 is violated for RSA, whatever the key.** The size of an RSA key is not looked at: let `bits` be
any measure of keys; a key of any size is loaded and used. -/
theorem C126_violated_rsa (X : X509 K) (hk : Str → K) (uuid : Str) (bits : K → Nat) (n : Nat)
    (fetch : Str → Option (List (Jwk K))) (j : Jwt K) (hname : j.name ≠ [])
    (ha : j.alg ∈ rsaAlgs) (hkey : j.key ≠ []) (hskew : j.acceptableSkewSeconds = [])
    (hnone : j.rsaPublic = []) (key : K) (hbits : bits key = n)
    (hp : PemHolds X j.key rsaPemTypes (.rsa key)) :
    ∃ j' kp, j.validate X hk uuid fetch = .done j' false ∧ kp ∈ j'.rsaPublic ∧ bits kp.key = n := by
  obtain ⟨j', h1, h2⟩ := C26_rsa_accepts X hk uuid { j with acceptableSkewSeconds := defaultSkew } key ha hp
    (by simp [hnone])
  refine ⟨j', ⟨j.alg ++ "-".toList ++ uuid, key⟩, ?_, by simp [h2], hbits⟩
  have hn : family j.alg = .rsa := family_rsa.2 ha
  have hv : j.alg ∈ validAlg := by
    simp only [validAlg, validAlgNoNone]
    simp only [rsaAlgs, List.map_cons, List.map_nil, List.mem_cons, List.not_mem_nil, or_false] at ha
    simp only [List.map_cons, List.map_nil, List.mem_cons, List.mem_append, List.not_mem_nil, or_false]
    rcases ha with h | h | h | h | h | h <;> simp [h]
  have he : j.alg.length ≠ 0 := by
    intro h0
    rw [List.length_eq_zero_iff.1 h0] at ha
    revert ha; decide
  have hkl : 0 < j.key.length := List.length_pos_iff.2 hkey
  simp only [Jwt.validate, hn, hv, he, hskew]
  simp [hname, hkl, h1]

/-- **C126 is violated for HMAC, whatever the secret.** Any secret that is not empty is loaded and used. -/
theorem C126_violated_hmac (X : X509 K) (hk : Str → K) (uuid : Str)
    (fetch : Str → Option (List (Jwk K))) (j : Jwt K) (hname : j.name ≠ [])
    (ha : j.alg ∈ hmacAlgs) (hkey : j.key ≠ []) (hskew : j.acceptableSkewSeconds = [])
    (hnone : j.secret = []) :
    ∃ j', j.validate X hk uuid fetch = .done j' false ∧ j'.secret.map KidPair.key = [hk j.key] := by
  have hn : family j.alg = .hmac := family_hmac.2 ha
  have hv : j.alg ∈ validAlg := by
    simp only [validAlg, validAlgNoNone]
    simp only [hmacAlgs, List.map_cons, List.map_nil, List.mem_cons, List.not_mem_nil, or_false] at ha
    simp only [List.map_cons, List.map_nil, List.mem_cons, List.mem_append, List.not_mem_nil, or_false]
    rcases ha with h | h | h <;> simp [h]
  have he : j.alg.length ≠ 0 := by
    intro h0
    rw [List.length_eq_zero_iff.1 h0] at ha
    revert ha; decide
  have hkl : 0 < j.key.length := List.length_pos_iff.2 hkey
  refine ⟨{ j with acceptableSkewSeconds := defaultSkew,
                   secret := [⟨j.alg ++ "-".toList ++ uuid, hk j.key⟩] }, ?_, rfl⟩
  simp only [Jwt.validate, hn, hv, he, hskew]
  simp [hname, hkl, parseKey, hn, KeySet.upsert, hnone]

/-- C126 is violated: a secret of eight bits for HS256. -/
theorem C126_violated : ∃ (j j' : Jwt Str) (X : X509 Str) (least : Nat), j.alg = "HS256".toList ∧
    LeastBits j.alg least ∧ j.validate X id [] (fun _ => none) = .done j' false ∧
    ∃ kp ∈ j'.secret, 8 * kp.key.length = 8 ∧ 8 * kp.key.length < least :=
  ⟨{ name := "n".toList, alg := "HS256".toList, key := "x".toList },
   { name := "n".toList, alg := "HS256".toList, key := "x".toList,
     acceptableSkewSeconds := "120".toList, secret := [⟨"HS256-".toList, "x".toList⟩] },
   ⟨Unit, fun _ => (none, true), fun _ => none, fun _ => none⟩, 256, rfl, .hs256, rfl,
   ⟨"HS256-".toList, "x".toList⟩, by simp, by decide, by decide⟩

end J8a

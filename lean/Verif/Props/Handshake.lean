import Verif.Model.Handshake
/-!
# C103 to C105 — what TLS connections with clients are like

Numbers are those of the IANA registry.
-/
namespace J8a
open Go

/-- Suites with an ephemeral key exchange and authenticated encryption: those of TLS 1.3, and of TLS 1.2
ECDHE with RSA or ECDSA, AES-GCM or ChaCha20-Poly1305. -/
def strongSuites : List Nat :=
  [0x1301, 0x1302, 0x1303, 0xc02b, 0xc02c, 0xc02f, 0xc030, 0xcca8, 0xcca9]

theorem mutualVersion_mem {c : TlsConfig} {h : Hello} {v : Nat} (hv : c.mutualVersion h = some v) :
    v ∈ h.versions ∧ v ∈ c.versions := by
  unfold TlsConfig.mutualVersion at hv
  exact ⟨List.mem_of_find?_eq_some hv, by simpa using List.find?_some hv⟩

theorem listener_versions : listenerTls.versions = [tls13, tls12] := by decide

theorem selectSuite_mem {key : KeyType} {e : Bool} {ids sup : List Nat} {s : Suite}
    (h : selectSuite key e ids sup = some s) :
    s ∈ cipherSuites ∧ s.id ∈ ids ∧ s.id ∈ sup ∧ suiteOk key e s = true := by
  unfold selectSuite at h
  obtain ⟨id, h1, h2⟩ := List.exists_of_findSome?_eq_some h
  split at h2
  · cases h2
  · rename_i s' hs
    split at h2
    · rename_i hok
      cases h2
      have hid := List.find?_some hs
      simp only [beq_iff_eq] at hid
      simp only [Bool.and_eq_true, List.contains_eq_mem, decide_eq_true_eq] at hok
      exact ⟨List.mem_of_find?_eq_some hs, by rw [hid]; exact h1, by rw [hid]; exact hok.2, hok.1⟩
    · cases h2

/-- The suites up to TLS 1.2 that the listener can use. -/
theorem listener_suite {s : Suite} (h : s ∈ cipherSuites) (h2 : s.id ∈ listenerTls.cipherSuites) :
    s = ⟨0xc030, true, false⟩ ∨ s = ⟨0xc02f, true, false⟩ := by
  have : ∀ s ∈ cipherSuites, s.id ∈ listenerTls.cipherSuites →
      s = ⟨0xc030, true, false⟩ ∨ s = ⟨0xc02f, true, false⟩ := by decide
  exact this s h h2

/-- The choice of a suite, written out. -/
theorem listener_select (key : KeyType) (e : Bool) (sup : List Nat) :
    selectSuite key e listenerTls.cipherSuites sup =
      if (e && key == .rsa && sup.contains 0xc030) = true then some ⟨0xc030, true, false⟩
      else if (e && key == .rsa && sup.contains 0xc02f) = true then some ⟨0xc02f, true, false⟩ else none := by
  have e1 : cipherSuites.find? (·.id == 0x1302) = none := by decide
  have e2 : cipherSuites.find? (·.id == 0x1301) = none := by decide
  have e3 : cipherSuites.find? (·.id == 0x1303) = none := by decide
  have e4 : cipherSuites.find? (·.id == 0xc030) = some ⟨0xc030, true, false⟩ := by decide
  have e5 : cipherSuites.find? (·.id == 0xc02f) = some ⟨0xc02f, true, false⟩ := by decide
  simp only [selectSuite, listenerTls, List.findSome?_cons, e1, e2, e3, e4, e5, suiteOk, if_true,
    Bool.false_eq_true, if_false, List.findSome?_nil]
  split
  · rename_i h; split at h
    · cases h; rw [if_pos ‹_›]
    · cases h
  · rename_i h; split at h
    · cases h
    · rename_i h1
      rw [if_neg h1]
      split
      · rename_i h2; split at h2
        · cases h2; rw [if_pos ‹_›]
        · cases h2
      · rename_i h2; split at h2
        · cases h2
        · rw [if_neg ‹_›]

theorem suites13_mem {aes : Bool} {s : Nat} (h : s ∈ suitesTLS13 aes) : s ∈ [0x1301, 0x1302, 0x1303] := by
  cases aes <;> simp [suitesTLS13] at h ⊢ <;> omega

/-- C103: whatever a client offers and whatever key the certificate has, a connection that comes about
uses TLS 1.2 or 1.3, an ephemeral key exchange over one of the three NIST curves, authenticated
encryption; and nothing the client did not offer. -/
theorem C103_strong (key : KeyType) (aes : Bool) (sign : Nat → Bool) (h : Hello) (s : Session)
    (hs : listenerTls.negotiate key aes sign h = some s) :
    (s.version = 0x0303 ∨ s.version = 0x0304) ∧ s.suite ∈ strongSuites ∧ s.group ∈ [23, 24, 25] ∧
    s.version ∈ h.versions ∧ s.suite ∈ h.suites ∧ (s.group ∈ h.curves ∨ s.group ∈ h.keyShares) := by
  unfold TlsConfig.negotiate at hs
  split at hs
  · cases hs
  rename_i v hv
  obtain ⟨h1, h2⟩ := mutualVersion_mem hv
  rw [listener_versions] at h2
  simp only [List.mem_cons, List.not_mem_nil, or_false] at h2
  split at hs
  · rename_i h13
    unfold TlsConfig.negotiate13 at hs
    split at hs
    · cases hs
    split at hs
    · cases hs
    rename_i su hsu
    split at hs
    · cases hs
    rename_i g hg
    split at hs
    · cases hs
      have h3 := suites13_mem (List.mem_of_find?_eq_some hsu)
      have h4 : su ∈ h.suites := by simpa using List.find?_some hsu
      have h5 : g ∈ listenerTls.curvePreferences ∧ (g ∈ h.curves ∨ g ∈ h.keyShares) := by
        unfold TlsConfig.group13 at hg
        split at hg
        · rename_i g' hg'
          cases hg
          exact ⟨List.mem_of_find?_eq_some hg', .inr (by simpa using List.find?_some hg')⟩
        · exact ⟨List.mem_of_find?_eq_some hg, .inl (by simpa using List.find?_some hg)⟩
      refine ⟨.inr rfl, ?_, ?_, h13 ▸ h1, h4, h5.2⟩
      · simp only [List.mem_cons, List.not_mem_nil, or_false] at h3
        show su ∈ strongSuites
        rcases h3 with rfl | rfl | rfl <;> decide
      · show g ∈ [23, 24, 25]
        have := h5.1
        simp only [listenerTls, List.mem_cons, List.not_mem_nil, or_false] at this
        rcases this with rfl | rfl | rfl <;> decide
    · cases hs
  · rename_i h13
    have hv12 : v = tls12 := by
      rcases h2 with h2 | h2
      · exact absurd h2 h13
      · exact h2
    subst hv12
    unfold TlsConfig.negotiate12 at hs
    split at hs
    · cases hs
    simp only at hs
    split at hs
    · cases hs
    rename_i su hsu
    obtain ⟨h3, h4, h5, -⟩ := selectSuite_mem hsu
    have hsu' := listener_suite h3 h4
    have hec : su.ecdhe = true := by rcases hsu' with rfl | rfl <;> rfl
    rw [if_pos hec] at hs
    split at hs
    · cases hs
    rename_i g hg
    split at hs
    · cases hs
      refine ⟨.inl rfl, ?_, ?_, h1, h5, .inl (List.mem_of_find?_eq_some hg)⟩
      · show su.id ∈ strongSuites
        rcases hsu' with rfl | rfl <;> decide
      · show g ∈ [23, 24, 25]
        have : g ∈ listenerTls.curvePreferences := by simpa using List.find?_some hg
        simp only [listenerTls, List.mem_cons, List.not_mem_nil, or_false] at this
        rcases this with rfl | rfl | rfl <;> decide
    · cases hs

/-- C103: the version of every connection has a name in the log. -/
theorem C103_logged (key : KeyType) (aes : Bool) (sign : Nat → Bool) (h : Hello) (s : Session)
    (hs : listenerTls.negotiate key aes sign h = some s) :
    (s.version = 0x0303 ∧ parseTlsVersion (some s.version) = "TLS1.2".toList) ∨
    (s.version = 0x0304 ∧ parseTlsVersion (some s.version) = "TLS1.3".toList) := by
  rcases (C103_strong key aes sign h s hs).1 with h | h
  · exact .inl ⟨h, by rw [h]; decide⟩
  · exact .inr ⟨h, by rw [h]; decide⟩

/-- A client of 2012, and a client of today. -/
def oldClient : Hello where
  vers := tls12
  suites := [0xc02f, 0xc02b, 0xc030, 0xc02c, 0xc013, 0x009c, 0x002f]
  curves := [curveP256, curveP384, curveP521]
def newClient : Hello where
  vers := tls12
  supportedVersions := [tls13, tls12]
  suites := [0x1301, 0x1302, 0x1303, 0xc02b, 0xc02f, 0xc02c, 0xc030, 0xcca9, 0xcca8]
  curves := [x25519, curveP256, curveP384]
  keyShares := [x25519]

example : listenerTls.negotiate .rsa true (fun _ => true) oldClient = some ⟨0x0303, 0xc030, 23⟩ := by decide
example : listenerTls.negotiate .rsa true (fun _ => true) newClient = some ⟨0x0304, 0x1301, 24⟩ := by decide
/-- TLS 1.1 is refused. -/
example : listenerTls.negotiate .rsa true (fun _ => true) { oldClient with vers := tls11 } = none := by decide

/-- A client that can do what RFC 7525 and RFC 8446 ask for: TLS 1.2 or 1.3, the strong suites of that
version for every kind of certificate, the curve P-256. -/
structure Capable (h : Hello) : Prop where
  first : h.versions.head? = some 0x0303 ∨ h.versions.head? = some 0x0304
  suites : ∀ s ∈ strongSuites, (0x1300 ≤ s ∧ s < 0x1400 → 0x0304 ∈ h.versions) → s ∈ h.suites
  curve : 23 ∈ h.curves
  points : h.points = true
  plain : h.noCompression = true

theorem capable_old : Capable { oldClient with suites := strongSuites } :=
  ⟨.inl (by decide), fun _ h _ => h, by decide, rfl, rfl⟩
theorem capable_new : Capable newClient :=
  ⟨.inr (by decide), by decide, by decide, rfl, rfl⟩

/-- C104 holds for certificates with RSA keys, and for clients that offer TLS 1.3: a capable client gets
a connection. Missing from the full statement: TLS 1.2 with other keys. -/
theorem C104_connects_partial (key : KeyType) (aes : Bool) (sign : Nat → Bool) (h : Hello)
    (hc : Capable h) (hsign : sign 0x0303 = true ∧ sign 0x0304 = true)
    (hkey : key = .rsa ∨ h.versions.head? = some 0x0304) :
    ∃ s, listenerTls.negotiate key aes sign h = some s := by
  have hmut : ∀ v, h.versions.head? = some v → v ∈ listenerTls.versions →
      listenerTls.mutualVersion h = some v := by
    intro v hv hm
    unfold TlsConfig.mutualVersion
    cases hvs : h.versions with
    | nil => rw [hvs] at hv; cases hv
    | cons w ws =>
      rw [hvs] at hv
      simp only [List.head?_cons, Option.some.injEq] at hv
      subst hv
      simp [hm]
  have h23 : (23 : Nat) ∈ listenerTls.curvePreferences := by decide
  have hv13 : h.versions.head? = some 0x0304 → ∃ s, listenerTls.negotiate key aes sign h = some s := by
    intro hv
    have hmem : (0x0304 : Nat) ∈ h.versions := List.mem_of_mem_head? (by rw [hv]; rfl)
    have hs : (0x1301 : Nat) ∈ h.suites := hc.suites _ (by decide) fun _ => hmem
    have hfind : ((suitesTLS13 aes).find? (h.suites.contains ·)).isSome = true := by
      rw [List.find?_isSome]
      exact ⟨0x1301, by cases aes <;> decide, by simpa using hs⟩
    obtain ⟨su, hsu⟩ := Option.isSome_iff_exists.1 hfind
    have hgrp : ∃ g, listenerTls.group13 h = some g := by
      unfold TlsConfig.group13
      split
      · exact ⟨_, rfl⟩
      · refine Option.isSome_iff_exists.1 ?_
        rw [List.find?_isSome]
        exact ⟨23, h23, by simpa using hc.curve⟩
    obtain ⟨g, hg⟩ := hgrp
    refine ⟨⟨tls13, su, g⟩, ?_⟩
    unfold TlsConfig.negotiate
    rw [hmut _ hv (by rw [listener_versions]; decide)]
    simp only [show (0x0304 : Nat) = tls13 from rfl, if_true]
    unfold TlsConfig.negotiate13
    rw [hc.plain]
    simp only [Bool.not_true, Bool.false_eq_true, if_false, hsu, hg]
    exact if_pos hsign.2
  rcases hc.first with hv | hv
  · have hk : key = .rsa := by
      rcases hkey with h | h
      · exact h
      · rw [hv] at h; cases h
    subst hk
    have hany : h.curves.any (listenerTls.curvePreferences.contains ·) = true := by
      rw [List.any_eq_true]
      exact ⟨23, hc.curve, by decide⟩
    have hs : (0xc030 : Nat) ∈ h.suites := hc.suites _ (by decide) (by omega)
    have hsel : selectSuite .rsa true listenerTls.cipherSuites h.suites = some ⟨0xc030, true, false⟩ := by
      rw [listener_select]
      simp [hs]
    have hfind : (h.curves.find? (listenerTls.curvePreferences.contains ·)).isSome = true := by
      rw [List.find?_isSome]
      exact ⟨23, hc.curve, by decide⟩
    obtain ⟨g, hg⟩ := Option.isSome_iff_exists.1 hfind
    refine ⟨⟨tls12, 0xc030, g⟩, ?_⟩
    unfold TlsConfig.negotiate
    rw [hmut _ hv (by rw [listener_versions]; decide)]
    simp only [show ((0x0303 : Nat) = tls13) = False by decide, if_false]
    unfold TlsConfig.negotiate12
    rw [hc.plain, hc.points, hany]
    simp only [Bool.not_true, Bool.false_eq_true, if_false, Bool.and_true, hsel, if_true, hg]
    rw [if_pos hsign.1]
    rfl
  · exact hv13 hv

/-- C104 fails: with a certificate for an ECDSA or Ed25519 key no client gets a TLS 1.2 connection,
whatever it offers; the gateway starts with such a certificate, since nothing looks at the kind of key. -/
theorem C104_violated_always (key : KeyType) (hkey : key ≠ .rsa) (aes : Bool) (sign : Nat → Bool)
    (h : Hello) (hv : 0x0304 ∉ h.versions) : listenerTls.negotiate key aes sign h = none := by
  cases hn : listenerTls.negotiate key aes sign h with
  | none => rfl
  | some s =>
    exfalso
    have h1 := C103_strong key aes sign h s hn
    unfold TlsConfig.negotiate at hn
    split at hn
    · cases hn
    rename_i v hmv
    obtain ⟨h2, -⟩ := mutualVersion_mem hmv
    split at hn
    · rename_i h13
      rw [h13] at h2
      exact hv h2
    · unfold TlsConfig.negotiate12 at hn
      split at hn
      · cases hn
      simp only at hn
      split at hn
      · cases hn
      rename_i su hsu
      obtain ⟨h3, h4, -, h6⟩ := selectSuite_mem hsu
      rcases listener_suite h3 h4 with rfl | rfl <;>
        simp [suiteOk, hkey] at h6

/-- C104 fails: a capable client of TLS 1.2 and a certificate with an ECDSA key. -/
theorem C104_violated : ∃ h : Hello, Capable h ∧
    listenerTls.negotiate .ecdsa true (fun _ => true) h = none ∧
    ∃ s, listenerTls.negotiate .rsa true (fun _ => true) h = some s :=
  ⟨_, capable_old, by decide, _, (by decide : _ = some (⟨0x0303, 0xc030, 23⟩ : Session))⟩

/-- The first of `order` that is in `offered`. -/
def FirstOf (order offered : List Nat) (x : Nat) : Prop :=
  ∃ pre post, order = pre ++ x :: post ∧ x ∈ offered ∧ ∀ y ∈ pre, y ∉ offered

/-- C105 holds for TLS 1.2: the suite is the first in the order of server.go:199-207 that the client
offers too. -/
theorem C105_preferred_partial (key : KeyType) (aes : Bool) (sign : Nat → Bool) (h : Hello) (s : Session)
    (hs : listenerTls.negotiate key aes sign h = some s) (hv : s.version = 0x0303) :
    FirstOf [0xc030, 0xc02f] h.suites s.suite := by
  unfold TlsConfig.negotiate at hs
  split at hs
  · cases hs
  split at hs
  · exfalso
    unfold TlsConfig.negotiate13 at hs
    split at hs
    · cases hs
    split at hs
    · cases hs
    split at hs
    · cases hs
    split at hs
    · cases hs
      cases hv
    · cases hs
  · unfold TlsConfig.negotiate12 at hs
    split at hs
    · cases hs
    simp only at hs
    split at hs
    · cases hs
    rename_i su hsu
    obtain ⟨h3, h4, h5, h6⟩ := selectSuite_mem hsu
    have hsuite : s.suite = su.id := by
      split at hs
      · split at hs
        · cases hs
        · split at hs
          · cases hs; rfl
          · cases hs
      · cases hs; rfl
    rw [hsuite]
    rcases listener_suite h3 h4 with rfl | rfl
    · exact ⟨[], [0xc02f], rfl, h5, by simp⟩
    · refine ⟨[0xc030], [], rfl, h5, ?_⟩
      intro y hy hyo
      simp only [List.mem_singleton] at hy
      subst hy
      rw [listener_select] at hsu
      split at hsu
      · cases hsu
      · rename_i h1
        split at hsu
        · rename_i h2
          simp only [Bool.and_eq_true] at h1 h2
          exact h1 ⟨h2.1, by simpa using hyo⟩
        · cases hsu

/-- C105 fails for TLS 1.3, where the order of server.go:199-203 is ignored: a client that offers all
three suites never gets the one that stands first. -/
theorem C105_violated_always (key : KeyType) (aes : Bool) (sign : Nat → Bool) (h : Hello) (s : Session)
    (hs : listenerTls.negotiate key aes sign h = some s) (hv : s.version = 0x0304)
    (hall : ∀ x ∈ [0x1301, 0x1302, 0x1303], x ∈ h.suites) :
    ¬ FirstOf [0x1302, 0x1301, 0x1303] h.suites s.suite := by
  have hne : s.suite ≠ 0x1302 := by
    unfold TlsConfig.negotiate at hs
    split at hs
    · cases hs
    rename_i v hmv
    split at hs
    · unfold TlsConfig.negotiate13 at hs
      split at hs
      · cases hs
      split at hs
      · cases hs
      rename_i su hsu
      split at hs
      · cases hs
      split at hs
      · cases hs
        simp only
        have h1 : (0x1301 : Nat) ∈ h.suites := hall _ (by decide)
        have h3 : (0x1303 : Nat) ∈ h.suites := hall _ (by decide)
        cases aes
        · simp [suitesTLS13, h3] at hsu; omega
        · simp [suitesTLS13, h1] at hsu; omega
      · cases hs
    · rename_i h13
      unfold TlsConfig.negotiate12 at hs
      split at hs
      · cases hs
      simp only at hs
      split at hs
      · cases hs
      split at hs
      · split at hs
        · cases hs
        split at hs
        · cases hs; exact absurd hv h13
        · cases hs
      · cases hs; exact absurd hv h13
  rintro ⟨pre, post, he, -, hpre⟩
  cases pre with
  | nil => simp at he; exact hne he.1.symm
  | cons y pre =>
    simp at he
    exact hpre y (by simp) (by rw [← he.1]; exact hall _ (by decide))

/-- C105 fails: a client of today gets AES-128. -/
theorem C105_violated : ∃ (h : Hello) (s : Session), Capable h ∧
    listenerTls.negotiate .rsa true (fun _ => true) h = some s ∧ s.suite = 0x1301 ∧ 0x1302 ∈ h.suites ∧
    listenerTls.cipherSuites.head? = some 0x1302 :=
  ⟨newClient, ⟨0x0304, 0x1301, 24⟩, capable_new, by decide, rfl, by decide, rfl⟩

end J8a

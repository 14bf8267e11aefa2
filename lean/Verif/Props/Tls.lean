import Verif.Lemmas.Tls
/-!
# Certificate chains: C58, C59, C60, C68, C69
-/
namespace J8a
open Go

/-! ## C58 -/

/-- **C58.** For a non-empty chain there is one link per certificate, in order, exactly one of them is
marked, no link has less remaining validity than it, and of several with the same remaining validity
the first is marked; whatever the clock does meanwhile. -/
theorem C58_one_marked_minimal (now : Nat → Int) (chain : List Cert) (hne : chain ≠ []) :
    ∃ (links : List TlsLink) (k : Nat), parseTlsLinks now chain = some links ∧ links.map TlsLink.cert = chain ∧
      (∀ i (l : TlsLink), links[i]? = some l → (l.earliestExpiry = true ↔ i = k)) ∧
      (∃ lk : TlsLink, links[k]? = some lk ∧
        (∀ l ∈ links, lk.remainingValidity ≤ l.remainingValidity) ∧
        (∀ i (l : TlsLink), i < k → links[i]? = some l → lk.remainingValidity < l.remainingValidity)) ∧
      (∀ (i : Nat) l, links[i]? = some l → l.remainingValidity = timeUntil l.cert.notAfter (now i)) := by
  obtain ⟨links, k, hp, hlen, hk, hget, hmin⟩ := parseTlsLinks_spec now hne
  have hback : ∀ (i : Nat) (l : TlsLink), links[i]? = some l → ∃ c, chain[i]? = some c ∧
      l = { linkAt now i c with earliestExpiry := decide (i = k) } := by
    intro i l hl
    have hi := (List.getElem?_eq_some_iff.mp hl).1
    have hc : chain[i]? = some chain[i] := List.getElem?_eq_getElem (by omega)
    refine ⟨_, hc, ?_⟩
    have := hget i _ hc
    rw [hl] at this
    exact Option.some.inj this
  refine ⟨links, k, hp, ?_, ?_, ?_, ?_⟩
  · apply List.ext_getElem?
    intro i
    rw [List.getElem?_map]
    cases hc : chain[i]? with
    | none =>
      have := List.getElem?_eq_none_iff.mp hc
      rw [List.getElem?_eq_none_iff.mpr (by omega)]; rfl
    | some c => rw [hget i c hc]; rfl
  · intro i l hl
    obtain ⟨c, -, rfl⟩ := hback i l hl
    simp
  · have hck : chain[k]? = some chain[k] := List.getElem?_eq_getElem hk
    refine ⟨_, hget k _ hck, ?_, ?_⟩
    · intro l hl
      obtain ⟨i, hi⟩ := List.mem_iff_getElem?.mp hl
      obtain ⟨c, hc, rfl⟩ := hback i l hi
      exact (hmin i c _ hc hck).1
    · intro i l hlt hi
      obtain ⟨c, hc, rfl⟩ := hback i l hi
      exact (hmin i c _ hc hck).2 hlt
  · intro i l hl
    obtain ⟨c, -, rfl⟩ := hback i l hl
    rfl

/-- A certificate marked by `parseTlsLinks`. -/
def Marked (now : Nat → Int) (chain : List Cert) (c : Cert) : Prop :=
  ∃ links l, parseTlsLinks now chain = some links ∧ l ∈ links ∧ l.earliestExpiry = true ∧ l.cert = c

/-- **C58**, in terms of expiry dates: with a clock that stands still during the computation no
certificate expires before the marked one. Missing from the full reading "none expires earlier": a
clock that moves (see the bound below) and validities of more than 292 years. -/
theorem C58_none_expires_earlier_partial (t : Int) (chain : List Cert) (hr : InRange chain fun _ => t)
    {c : Cert} (hm : Marked (fun _ => t) chain c) : ∀ d ∈ chain, c.notAfter ≤ d.notAfter := by
  obtain ⟨links, l, hp, hl, he, rfl⟩ := hm
  have hne : chain ≠ [] := by rintro rfl; cases hp
  obtain ⟨links', k, hp', hlen, hk, hget, hmin⟩ := parseTlsLinks_spec (fun _ => t) hne
  rw [hp] at hp'
  cases hp'
  intro d hd
  obtain ⟨i, hi⟩ := List.mem_iff_getElem?.mp hl
  obtain ⟨j, hj⟩ := List.mem_iff_getElem?.mp hd
  have hi' := (List.getElem?_eq_some_iff.mp hi).1
  have hci : chain[i]? = some chain[i] := List.getElem?_eq_getElem (by omega)
  have := hget i _ hci
  rw [hi] at this
  have hl' := Option.some.inj this
  rw [hl'] at he
  have hik : i = k := by simpa using he
  subst hik
  have h1 := (hmin j d _ hj hci).1
  have h2 := hr i _ hci
  have h3 := hr j _ hj
  rw [hl']
  simp only [linkAt]
  unfold timeUntil at h1
  simp only at h1 h2 h3
  omega

/-- **C58**, with a moving clock: the marked certificate expires at most as much later than another
one as the clock has moved since the other was looked at; so none after it in the chain expires
earlier. -/
theorem C58_expiry_within_clock_progress (now : Nat → Int) (chain : List Cert)
    (hr : InRange chain now) {c : Cert} (hm : Marked now chain c) :
    ∃ k, chain[k]? = some c ∧ ∀ j d, chain[j]? = some d →
      c.notAfter ≤ d.notAfter + (now k - now j) := by
  obtain ⟨links, l, hp, hl, he, rfl⟩ := hm
  have hne : chain ≠ [] := by rintro rfl; cases hp
  obtain ⟨links', k, hp', hlen, hk, hget, hmin⟩ := parseTlsLinks_spec now hne
  rw [hp] at hp'
  cases hp'
  obtain ⟨i, hi⟩ := List.mem_iff_getElem?.mp hl
  have hi' := (List.getElem?_eq_some_iff.mp hi).1
  have hci : chain[i]? = some chain[i] := List.getElem?_eq_getElem (by omega)
  have := hget i _ hci
  rw [hi] at this
  have hl' := Option.some.inj this
  rw [hl'] at he
  have hik : i = k := by simpa using he
  subst hik
  rw [hl']
  refine ⟨i, hci, ?_⟩
  intro j d hj
  have h1 := (hmin j d _ hj hci).1
  have h2 := hr i _ hci
  have h3 := hr j _ hj
  simp only [linkAt]
  unfold timeUntil at h1
  omega

/-- The full reading of C58's title: no certificate expires before the marked one. -/
def NoneExpiresEarlier : Prop :=
  ∀ (now : Nat → Int), (∀ i j, i ≤ j → now i ≤ now j) → ∀ chain, InRange chain now →
    ∀ c, Marked now chain c → ∀ d ∈ chain, c.notAfter ≤ d.notAfter

/-- **C58's title is violated** when the clock moves while the chain is looked at: of two certificates
expiring a nanosecond apart the later one is marked when it is looked at later. -/
theorem C58_violated_clock_moves : ¬ NoneExpiresEarlier := by
  intro h
  have := h (fun i => 2 * i) (by intro i j hij; omega)
    [{ notAfter := 100 }, { notAfter := 101 }]
    (by
      intro i c hi
      have : i < 2 := (List.getElem?_eq_some_iff.mp hi).1
      have : i = 0 ∨ i = 1 := by omega
      rcases this with rfl | rfl <;> cases hi <;> decide)
    { notAfter := 101 }
    ⟨_, { cert := { notAfter := 101 }, remainingValidity := 99, earliestExpiry := true, isCA := false },
      rfl, by decide +kernel, rfl, rfl⟩
    { notAfter := 100 } (by decide)
  exact absurd this (by decide)

example : (parseTlsLinks (fun _ => 5) [{ notAfter := 30 }, { notAfter := 20 }, { notAfter := 20 },
    { notAfter := 40 }]).map (·.map (·.earliestExpiry)) = some [false, true, false, false] := by
  decide +kernel

/-! ## C59 -/

/-- **C59**, exact characterisation: formatting fails for precisely the serials with an odd number of
hexadecimal digits other than 1 and 31. -/
theorem C59_panics_iff (n : Nat) :
    formatSerial n = none ↔ ∃ k, 0 < k ∧ k ≠ 15 ∧ 16 ^ (2 * k) ≤ n ∧ n < 16 ^ (2 * k + 1) := by
  have hlen : ∀ k, 0 < k → ((toUpper (Nat.toDigits 16 n)).length ≤ k ↔ n < 16 ^ k) :=
    fun k hk => hexLen_le n k hk
  have hpos : 0 < (toUpper (Nat.toDigits 16 n)).length := by
    unfold toUpper; rw [List.length_map]; exact Nat.length_toDigits_pos
  have hform : formatSerial n =
      let hex := toUpper (Nat.toDigits 16 n)
      let hex := if hex.length = 1 ∨ hex.length = 31 then '0' :: hex else hex
      if 2 < hex.length then hexPairs hex else some hex := rfl
  rw [hform]
  simp only
  generalize toUpper (Nat.toDigits 16 n) = hex at *
  have hodd : (∃ k, 0 < k ∧ k ≠ 15 ∧ 16 ^ (2 * k) ≤ n ∧ n < 16 ^ (2 * k + 1)) ↔
      ∃ k, 0 < k ∧ k ≠ 15 ∧ hex.length = 2 * k + 1 := by
    constructor
    · rintro ⟨k, h0, h15, h1, h2⟩
      refine ⟨k, h0, h15, ?_⟩
      have a := (hlen (2 * k + 1) (by omega)).mpr h2
      have b : ¬ hex.length ≤ 2 * k := fun h => by
        have := (hlen (2 * k) (by omega)).mp h; omega
      omega
    · rintro ⟨k, h0, h15, h1⟩
      refine ⟨k, h0, h15, ?_, (hlen (2 * k + 1) (by omega)).mp (by omega)⟩
      apply Classical.byContradiction
      intro h
      have := (hlen (2 * k) (by omega)).mpr (by omega)
      omega
  rw [hodd]
  split
  · rename_i h
    constructor
    · intro hnone
      split at hnone
      · exfalso
        rename_i h2
        obtain ⟨gs, h3, -⟩ := hexPairs_even (('0' :: hex).length / 2) ('0' :: hex)
          (by simp only [List.length_cons] at h2 ⊢; omega)
        rw [h3] at hnone; cases hnone
      · cases hnone
    · rintro ⟨k, h1, h2, h3⟩
      omega
  · rename_i h
    constructor
    · intro hnone
      split at hnone
      · rename_i h2
        rcases Nat.mod_two_eq_zero_or_one hex.length with hm | hm
        · obtain ⟨gs, h3, -⟩ := hexPairs_even (hex.length / 2) hex (by omega)
          rw [h3] at hnone; cases hnone
        · exact ⟨hex.length / 2, by omega, by omega, by omega⟩
      · cases hnone
    · rintro ⟨k, h1, h2, h3⟩
      rw [if_pos (by omega)]
      exact hexPairs_odd k hex h3

/-- **C59**, for the serials it does not panic on: dash separated pairs of hexadecimal digits whose
value is the serial, zero-padded to whole bytes. Missing from the full statement: the serials of
`C59_panics_iff`. -/
theorem C59_dashed_hex_partial (n : Nat) (s : Str) (h : formatSerial n = some s) : DashedHex n s := by
  obtain ⟨hv, hd⟩ := hexDigits_spec n
  have hpos : 0 < (toUpper (Nat.toDigits 16 n)).length := by
    unfold toUpper; rw [List.length_map]; exact Nat.length_toDigits_pos
  have hl : ∀ k, 0 < k → ((toUpper (Nat.toDigits 16 n)).length ≤ k ↔ n < 16 ^ k) :=
    fun k hk => hexLen_le n k hk
  have hform : formatSerial n =
      let hex := toUpper (Nat.toDigits 16 n)
      let hex := if hex.length = 1 ∨ hex.length = 31 then '0' :: hex else hex
      if 2 < hex.length then hexPairs hex else some hex := rfl
  rw [hform] at h
  simp only at h
  generalize toUpper (Nat.toDigits 16 n) = hex at *
  -- the padded digits
  obtain ⟨pad, hpad, hpv, hpd, hpl⟩ : ∃ pad : Str,
      pad = (if hex.length = 1 ∨ hex.length = 31 then '0' :: hex else hex) ∧ hexVal pad = n ∧
      (∀ c ∈ pad, IsHexDigit c) ∧ 2 ≤ pad.length ∧
      (2 < pad.length → pad.take 2 ≠ ['0', '0']) := by
    -- a leading zero digit would make the number shorter
    have hval : ∀ (l : Str) (a : Nat), (∀ c ∈ l, IsHexDigit c) →
        l.foldl (fun n c => 16 * n + hexDigitVal c) a < (a + 1) * 16 ^ l.length := by
      intro l
      induction l with
      | nil => intro a _; simp
      | cons c l ih =>
        intro a hl
        have h1 := ih (16 * a + hexDigitVal c) (fun x hx => hl x (by simp [hx]))
        have hc := hl c (by simp)
        have h2 : hexDigitVal c < 16 := by
          unfold IsHexDigit at hc
          have : ∀ c ∈ "0123456789ABCDEF".toList, hexDigitVal c < 16 := by decide
          exact this c hc
        simp only [List.foldl_cons, List.length_cons]
        have h3 : (16 * a + hexDigitVal c + 1) * 16 ^ l.length ≤ (16 * (a + 1)) * 16 ^ l.length :=
          Nat.mul_le_mul_right _ (by omega)
        calc _ < _ := h1
          _ ≤ _ := h3
          _ = (a + 1) * 16 ^ (l.length + 1) := by rw [Nat.pow_succ]; ac_rfl
    have hlead : 1 < hex.length → ∀ r, hex ≠ '0' :: r := by
      rintro h1 r rfl
      have h2 := hval r 0 (fun c hc => hd c (by simp [hc]))
      have h3 : hexVal ('0' :: r) = r.foldl (fun n c => 16 * n + hexDigitVal c) 0 := rfl
      simp only [List.length_cons] at h1
      have h4 := (hl r.length (by omega)).mpr (by rw [← hv, h3]; omega)
      simp only [List.length_cons] at h4
      omega
    by_cases hc : hex.length = 1 ∨ hex.length = 31
    · refine ⟨'0' :: hex, by rw [if_pos hc], ?_, ?_, ?_⟩
      · rw [← hv]; rfl
      · intro c hc'
        rcases List.mem_cons.mp hc' with rfl | hc'
        · unfold IsHexDigit; decide
        · exact hd c hc'
      · refine ⟨by simp only [List.length_cons]; omega, ?_⟩
        intro h2 he
        match hex, hpos, hlead, h2, he with
        | c :: r, _, hlead, h2, he =>
          simp only [List.take_succ_cons, List.take_zero, List.cons.injEq, true_and, and_true] at he
          simp only [List.length_cons] at h2
          exact hlead (by simp only [List.length_cons]; omega) r (by rw [he])
    · refine ⟨hex, by rw [if_neg hc], hv, hd, by omega, ?_⟩
      intro h2 he
      match hex, hlead, h2, he with
      | a :: b :: r, hlead, h2, he =>
        simp only [List.take_succ_cons, List.take_zero, List.cons.injEq, and_true] at he
        exact hlead (by simp only [List.length_cons]; omega) (b :: r) (by rw [he.1])
  rw [← hpad] at h
  split at h
  · rename_i h2
    rcases Nat.mod_two_eq_zero_or_one pad.length with hm | hm
    · obtain ⟨gs, h3, h4, h5, h6, h7⟩ := hexPairs_even (pad.length / 2) pad (by omega)
      rw [h3] at h
      cases h
      rw [if_neg (by omega)] at h7
      match gs, h5, h6, h7 with
      | g :: gs, h5, h6, h7 =>
        simp only [List.head?_cons, Option.some.injEq] at h7
        refine ⟨g, gs, rfl, ?_, ?_, ?_⟩
        · intro p hp
          refine ⟨h6 p hp, fun c hc => hpd c ?_⟩
          rw [← h5]
          exact List.mem_flatten.mpr ⟨p, hp, hc⟩
        · rw [h5]; exact hpv
        · intro _; rw [h7]; exact hpl.2 h2
    · rw [hexPairs_odd (pad.length / 2) pad (by omega)] at h; cases h
  · rename_i h2
    have h := Option.some.inj h
    subst h
    refine ⟨pad, [], rfl, ?_, ?_, ?_⟩
    · intro p hp
      rcases List.mem_cons.mp hp with rfl | hp
      · exact ⟨by omega, hpd⟩
      · cases hp
    · simpa using hpv
    · simp

/-- The full statement of C59. -/
def SerialsFormatted : Prop := ∀ n : Nat, ∃ s, formatSerial n = some s ∧ DashedHex n s

/-- **C59 is violated**: a serial of three hexadecimal digits makes the program panic. -/
theorem C59_violated_three_digits : ¬ SerialsFormatted := by
  intro h
  obtain ⟨s, hs, -⟩ := h 0x100
  rw [show formatSerial ((0x100 : Nat) : Int) = none by decide +kernel] at hs
  cases hs

/-- **C59 is violated** by serials of the usual size, too: twenty bytes of which the first is below
0x10, as one in sixteen random serials is. -/
theorem C59_violated_twenty_bytes (n : Nat) (h1 : 16 ^ 38 ≤ n) (h2 : n < 16 ^ 39) :
    formatSerial n = none :=
  (C59_panics_iff n).mpr ⟨19, by decide, by decide, h1, h2⟩

example : formatSerial 0x1A2B3C = some "1A-2B-3C".toList := by decide +kernel
example : formatSerial 0 = some "00".toList := by decide +kernel
example : formatSerial 0x0123456789ABCDEF0123456789ABCDEF =
    some "01-23-45-67-89-AB-CD-EF-01-23-45-67-89-AB-CD-EF".toList := by decide +kernel

/-! ## C60 -/

variable {parse : Bytes → Option Cert} {verify : Cert → VerifyOptions → Option (List (List Cert))}
  {keyPair : Str → Str → List Bytes} {now : Nat → Int} {cert key : Str}

/-- The roots the chain itself supplies, as the code picks them. -/
def SuppliedRoot (parse : Bytes → Option Cert) (chain : List Bytes) (c : Cert) : Prop :=
  c.isCA = true ∧ c.issuer.cn = c.subject.cn ∧ ∃ d ∈ chain, parse d = some c

/-- **C60.** The listener is started only with a key pair whose leaf parses, has a DNS name and
verifies; it is verified against the supplied roots if there are any and against the system roots
otherwise. Missing from the full statement: that the supplied roots are self-signed; they are only
required to carry the same common name as issuer and subject. -/
theorem C60_started_only_verified_partial (h : startTls parse verify keyPair now cert key = true) :
    ∃ d ds leaf opts chains, keyPair cert key = d :: ds ∧ parse d = some leaf ∧
      leaf.dnsNames ≠ [] ∧ verify leaf opts = some chains ∧
      (∀ rs, opts.roots = some rs → rs ≠ [] ∧ ∀ c, c ∈ rs ↔ SuppliedRoot parse (d :: ds) c) ∧
      (opts.roots = none ↔ ¬ ∃ c, SuppliedRoot parse (d :: ds) c) := by
  unfold startTls at h
  split at h
  · cases h
  · rename_i chain htc
    unfold tlsConfig at htc
    split at htc
    · cases htc
    · rename_i d ds hkp
      split at htc
      · cases htc
        split at h
        · rename_i links hck
          unfold checkCertChain at hck
          simp only at hck
          split at hck
          · cases hck
          · rename_i leaf hleaf
            split at hck
            · cases hck
            · rename_i inter root hpools
              split at hck
              · cases hck
              · rename_i chains hver
                split at hck
                · cases hck
                · rename_i hdns
                  obtain ⟨-, hroot, -⟩ := splitCertPools_spec parse _ _ _ hpools
                  refine ⟨d, ds, leaf, _, chains, hkp, hleaf, ?_, hver, ?_, ?_⟩
                  · intro he; rw [he] at hdns; exact hdns rfl
                  · intro rs hrs
                    simp only [verifyOptions] at hrs
                    split at hrs
                    · cases hrs
                      rename_i hl
                      exact ⟨by intro he; rw [he] at hl; simp at hl, hroot⟩
                    · cases hrs
                  · simp only [verifyOptions]
                    constructor
                    · intro hn
                      split at hn
                      · cases hn
                      · rename_i hl
                        rintro ⟨c, hc⟩
                        have := (hroot c).mpr hc
                        exact hl (List.length_pos_of_mem this)
                    · intro hn
                      rw [if_neg]
                      intro hl
                      obtain ⟨c, hc⟩ := List.exists_mem_of_length_pos hl
                      exact hn ⟨c, (hroot c).mp hc⟩
        · cases h
      · cases htc

/-- **C60**, when equal common names mean equal names: the roots are exactly the self-issued CA
certificates of the chain. -/
theorem C60_roots_self_issued_partial (h : startTls parse verify keyPair now cert key = true)
    (hcn : ∀ d ∈ keyPair cert key, ∀ c, parse d = some c → c.issuer.cn = c.subject.cn → SelfIssued c) :
    ∃ d ds leaf opts chains, keyPair cert key = d :: ds ∧ parse d = some leaf ∧
      leaf.dnsNames ≠ [] ∧ verify leaf opts = some chains ∧
      (∀ rs, opts.roots = some rs →
        ∀ c, c ∈ rs ↔ c.isCA = true ∧ SelfIssued c ∧ ∃ e ∈ d :: ds, parse e = some c) := by
  obtain ⟨d, ds, leaf, opts, chains, hkp, hleaf, hdns, hver, hroots, -⟩ :=
    C60_started_only_verified_partial h
  refine ⟨d, ds, leaf, opts, chains, hkp, hleaf, hdns, hver, ?_⟩
  intro rs hrs c
  rw [(hroots rs hrs).2 c]
  unfold SuppliedRoot
  constructor
  · rintro ⟨h1, h2, e, he, hp⟩
    exact ⟨h1, hcn e (by rw [hkp]; exact he) c hp h2, e, he, hp⟩
  · rintro ⟨h1, h2, h3⟩
    exact ⟨h1, by unfold SelfIssued at h2; rw [h2], h3⟩

/-- **C60**, the other way around: a chain of certificates with a verified leaf that has a DNS name is
accepted (`Verify` returns non-empty chains). -/
theorem C60_good_chain_starts {d : Bytes} {ds : List Bytes} {leaf : Cert}
    (hkp : keyPair cert key = d :: ds) (hparse : ∀ e ∈ d :: ds, (parse e).isSome)
    (hleaf : parse d = some leaf) (hdns : leaf.dnsNames ≠ [])
    (hver : ∀ opts, ∃ v vs c cs, verify leaf opts = some (v :: vs) ∧ v = c :: cs) :
    startTls parse verify keyPair now cert key = true := by
  obtain ⟨⟨inter, root⟩, hp⟩ := Option.isSome_iff_exists.mp (splitCertPools_isSome parse hparse)
  obtain ⟨v, vs, c, cs, h1, rfl⟩ := hver (verifyOptions inter root)
  obtain ⟨links, k, hl, -⟩ := parseTlsLinks_spec now (chain := c :: cs) (by simp)
  have hlen : ¬ leaf.dnsNames.length = 0 := by
    intro h; exact hdns (List.length_eq_zero_iff.mp h)
  unfold startTls tlsConfig
  rw [hkp]
  simp only [hleaf, Option.isSome_some, if_true, checkCertChain, hp, h1, hlen, if_false, hl]

/-- The full statement of C60. -/
def RootsSelfSigned : Prop :=
  ∀ (parse : Bytes → Option Cert) (verify : Cert → VerifyOptions → Option (List (List Cert)))
    (keyPair : Str → Str → List Bytes) (now : Nat → Int) (cert key : Str),
    startTls parse verify keyPair now cert key = true →
    ∃ d ds leaf opts chains, keyPair cert key = d :: ds ∧ parse d = some leaf ∧
      leaf.dnsNames ≠ [] ∧ verify leaf opts = some chains ∧
      (∀ rs, opts.roots = some rs → ∀ c ∈ rs, SelfIssued c)

/-- A leaf and an intermediate that was issued by another organisation, neither using common names
beyond the leaf's. -/
def demoLeaf : Cert :=
  { issuer := ⟨[], "O=Intermediate".toList⟩, subject := ⟨"www.example.com".toList, []⟩,
    dnsNames := ["www.example.com".toList] }
def demoInter : Cert :=
  { issuer := ⟨[], "O=Root".toList⟩, subject := ⟨[], "O=Intermediate".toList⟩, isCA := true }

def demoParse : Bytes → Option Cert
  | [1] => some demoLeaf
  | [2] => some demoInter
  | _ => none

/-- Accepts exactly the leaf under the intermediate as a root. -/
def demoVerify (c : Cert) (o : VerifyOptions) : Option (List (List Cert)) :=
  if c = demoLeaf ∧ o.roots = some [demoInter] then some [[demoLeaf, demoInter]] else none

/-- **C60 is violated**: an intermediate without a common name, issued by a root without a common
name, is taken for a root, so the chain is accepted without any self-signed certificate. -/
theorem C60_violated_root_not_self_signed : ¬ RootsSelfSigned := by
  intro h
  obtain ⟨d, ds, leaf, opts, chains, hkp, hleaf, -, hver, hroots⟩ :=
    h demoParse demoVerify (fun _ _ => [[1], [2]]) (fun _ => 0) [] [] (by decide +kernel)
  simp only [List.cons.injEq] at hkp
  obtain ⟨rfl, rfl⟩ := hkp
  cases hleaf
  unfold demoVerify at hver
  split at hver
  · rename_i hc
    have := hroots _ hc.2 demoInter (by simp)
    exact absurd this (by unfold SelfIssued; decide)
  · cases hver

/-- A well-formed chain that satisfies the hypotheses. -/
example : startTls demoParse demoVerify (fun _ _ => [[1], [2]]) (fun _ => 0) [] [] = true := by
  decide +kernel

/-! ## C68 -/

/-- The full statement of C68: once a chain has been accepted, the health check never ends. -/
def HealthCheckGoesOn : Prop :=
  ∀ (parse : Bytes → Option Cert) (verify : Nat → Cert → VerifyOptions → Option (List (List Cert)))
    (now : Nat → Nat → Int) (chain : List Bytes),
    (∃ links, checkCertChain parse (verify 0) (now 0) chain = .ok links) →
    ∀ r, healthCheck parse verify now chain r ≠ .ended

/-- **C68 is violated**: an accepted leaf with serial 0x100 ends the health check in its first
round. -/
theorem C68_violated_by_serial : ¬ HealthCheckGoesOn := by
  intro h
  let leaf : Cert := { dnsNames := [['a']], serial := 0x100, notAfter := 10 }
  have := h (fun _ => some leaf) (fun _ _ _ => some [[leaf]]) (fun _ _ => 0) [[1]]
    ⟨[{ cert := leaf, remainingValidity := 10, earliestExpiry := true, isCA := false }],
      by decide +kernel⟩ 0
  exact this (by decide +kernel)

/-- What one round needs in order not to panic. -/
def Formattable (verify : Cert → VerifyOptions → Option (List (List Cert))) : Prop :=
  ∀ c o chains, verify c o = some chains → ∃ v vs, chains = v :: vs ∧ v ≠ [] ∧
    ∀ x ∈ v, (formatSerial x.serial).isSome

theorem checkCertChain_links {chain : List Bytes} {links : List TlsLink}
    (h : checkCertChain parse verify now chain = .ok links) :
    ∃ leaf opts v vs, verify leaf opts = some (v :: vs) ∧ parseTlsLinks now v = some links := by
  unfold checkCertChain at h
  split at h
  · cases h
  · split at h
    · cases h
    · simp only at h
      split at h
      · cases h
      · split at h
        · cases h
        · rename_i verified hver
          split at h
          · cases h
          · split at h
            · cases h
            · split at h
              · cases h
              · rename_i hl
                cases h
                exact ⟨_, _, _, _, hver, hl⟩

theorem links_certs {v : List Cert} {links : List TlsLink} (h : parseTlsLinks now v = some links) :
    links.map TlsLink.cert = v := by
  by_cases hv : v = []
  · subst hv; cases h
  · obtain ⟨links', k, hp, hm, -⟩ := C58_one_marked_minimal now v hv
    rw [h] at hp; cases hp; exact hm

/-- **C68**, when all serials of the verified chains can be formatted. Missing from the full
statement: the serials of `C59_panics_iff`. -/
theorem C68_goes_on_partial
    (verify : Nat → Cert → VerifyOptions → Option (List (List Cert))) (now : Nat → Nat → Int)
    (chain : List Bytes) (h0 : ∃ links, checkCertChain parse (verify 0) (now 0) chain = .ok links)
    (hf : ∀ r, Formattable (verify r)) : ∀ r, healthCheck parse verify now chain r ≠ .ended := by
  -- the chain parses
  have hpc : ∃ d ds leaf p, chain = d :: ds ∧ parse d = some leaf ∧
      splitCertPools parse chain = some p := by
    obtain ⟨links, hl⟩ := h0
    unfold checkCertChain at hl
    split at hl
    · cases hl
    · rename_i d ds
      split at hl
      · cases hl
      · rename_i leaf hleaf
        split at hl
        · cases hl
        · rename_i inter root hp
          exact ⟨d, ds, leaf, _, rfl, hleaf, hp⟩
  obtain ⟨d, ds, leaf, ⟨inter, root⟩, rfl, hleaf, hp⟩ := hpc
  have round : ∀ r, healthRound parse (verify r) (now r) (d :: ds) ≠ .ended := by
    intro r
    unfold healthRound
    have hnp : checkCertChain parse (verify r) (now r) (d :: ds) ≠ .panic := by
      unfold checkCertChain
      simp only [hleaf, hp]
      split
      · simp
      · rename_i chains hver
        obtain ⟨v, vs, rfl, hv, -⟩ := hf r _ _ _ hver
        split
        · simp
        · obtain ⟨links, k, hl, -⟩ := parseTlsLinks_spec (now r) hv
          simp [hl]
    split
    · exact absurd ‹_› hnp
    · simp [logCertStats]
    · rename_i links hck
      obtain ⟨leaf', opts, v, vs, hver, hlk⟩ := checkCertChain_links hck
      obtain ⟨v', vs', he, -, hser⟩ := hf r _ _ _ hver
      cases he
      have hm := links_certs hlk
      unfold logCertStats
      rw [if_neg]
      · split
        · simp
        · split <;> simp
      · simp only [List.any_eq_true, not_exists, not_and]
        intro l hl
        have := hser l.cert (by rw [← hm]; exact List.mem_map_of_mem hl)
        simpa [Option.isSome_iff_ne_none] using this
  intro r
  induction r with
  | zero => exact round 0
  | succ r ih =>
    have hs : healthCheck parse verify now (d :: ds) (r + 1) =
        match healthCheck parse verify now (d :: ds) r with
        | .ended => .ended
        | _ => healthRound parse (verify (r + 1)) (now (r + 1)) (d :: ds) := rfl
    rw [hs]
    cases hr : healthCheck parse verify now (d :: ds) r
    · exact absurd hr ih
    all_goals exact round (r + 1)

example : healthCheck demoParse (fun _ => demoVerify) (fun _ _ => 0) [[1], [2]] 3 = .warn := by
  decide +kernel

/-! ## C69 -/

/-- Thirty days in nanoseconds. -/
def thirtyDays : Int := 2592000000000000

theorem month_eq : month = thirtyDays := by decide

/-- **C69**, while the chain verifies: the round warns exactly if some certificate of the verified
chain has less than thirty days left. Missing from the full statement: a chain that no longer
verifies, for instance because it has expired; see the violation. -/
theorem C69_warns_iff_month_left_partial {chain : List Bytes} {links : List TlsLink}
    (h : checkCertChain parse verify now chain = .ok links)
    (hf : ∀ l ∈ links, (formatSerial l.cert.serial).isSome) :
    (healthRound parse verify now chain = .warn ↔ ∃ l ∈ links, l.remainingValidity < thirtyDays) ∧
    (healthRound parse verify now chain = .debug ↔ ∀ l ∈ links, thirtyDays ≤ l.remainingValidity) := by
  rw [← month_eq]
  obtain ⟨leaf', opts, v, vs, hver, hlk⟩ := checkCertChain_links h
  have hv : v ≠ [] := by rintro rfl; cases hlk
  obtain ⟨links', k, hp, hm, hmark, ⟨lk, hlk', hmin, -⟩, -⟩ := C58_one_marked_minimal now v hv
  rw [hlk] at hp
  cases hp
  have hfind : ∃ l, links.find? (·.earliestExpiry) = some l ∧ l = lk := by
    have hex : (links.find? (·.earliestExpiry)).isSome := by
      rw [List.find?_isSome]
      exact ⟨lk, List.mem_of_getElem? hlk', (hmark k lk hlk').mpr rfl⟩
    obtain ⟨l, hl⟩ := Option.isSome_iff_exists.mp hex
    refine ⟨l, hl, ?_⟩
    have h1 := List.find?_some hl
    obtain ⟨i, hi⟩ := List.mem_iff_getElem?.mp (List.mem_of_find?_eq_some hl)
    have := (hmark i l hi).mp h1
    subst this
    rw [hi] at hlk'
    exact Option.some.inj hlk'
  obtain ⟨l, hl, rfl⟩ := hfind
  have hround : healthRound parse verify now chain =
      if l.remainingValidity < month then .warn else .debug := by
    unfold healthRound
    rw [h]
    simp only [logCertStats]
    rw [if_neg, hl]
    simp only [List.any_eq_true, not_exists, not_and]
    intro x hx
    have := hf x hx
    simpa [Option.isSome_iff_ne_none] using this
  have hmem : l ∈ links := List.mem_of_getElem? hlk'
  rw [hround]
  constructor
  · constructor
    · intro hw
      split at hw
      · exact ⟨l, hmem, by assumption⟩
      · cases hw
    · rintro ⟨x, hx, hlt⟩
      have := hmin x hx
      rw [if_pos (by omega)]
  · constructor
    · intro hd x hx
      split at hd
      · cases hd
      · have := hmin x hx; omega
    · intro hall
      have := hall l hmem
      rw [if_neg (by omega)]

/-- The full statement of C69: a served chain with a certificate that has less than thirty days left,
or none, is warned about in every round. -/
def ExpiryWarned : Prop :=
  ∀ (parse : Bytes → Option Cert) (verify : Cert → VerifyOptions → Option (List (List Cert)))
    (now : Nat → Int) (d : Bytes) (ds : List Bytes) (leaf : Cert),
    parse d = some leaf → (formatSerial leaf.serial).isSome →
    (∀ i, timeUntil leaf.notAfter (now i) < thirtyDays) →
    healthRound parse verify now (d :: ds) = .warn

/-- **C69 is violated**: once the leaf has expired it no longer verifies, the error is dropped and
nothing at all is logged. -/
theorem C69_violated_after_expiry : ¬ ExpiryWarned := by
  intro h
  have := h (fun _ => some { demoLeaf with notAfter := 10 }) (fun _ _ => none) (fun _ => 11) [1] []
    { demoLeaf with notAfter := 10 } rfl (by decide +kernel)
    (by intro i; decide)
  exact absurd this (by decide +kernel)

example : healthRound (fun _ => some { demoLeaf with notAfter := 31 * 24 * 3600 * 10 ^ 9 })
    (fun c _ => some [[c]]) (fun _ => 5) [[1]] = .debug := by decide +kernel

end J8a

import Verif.Lemmas.CertReport
/-!
# What the certificate report says about time: C142
-/
namespace J8a
open Go

/-- A text tells a length of time in words. -/
def InWords (s : Str) (past : Bool) (d : Nat) : Prop := ∃ terms, Span.read s = some (past, terms) ∧ Span.Tells terms d

theorem asString_told {d : Int} (h : 1000 ≤ d.natAbs) (h1 : minInt64 < d) : InWords (asString d) (decide (d < 0)) d.natAbs :=
  durafmt_tells h h1

/-- The report consists of an introduction and one piece of text for each certificate of the chain, in its order; `p` is the
piece for number `i`. -/
def PieceOf (text : Str) (chain : List Cert) (i : Nat) (p : Str) : Prop :=
  ∃ pieces : List Str, text = "Snapshot of your cert chain size ".toList ++ natToDec chain.length ++
    " explained. ".toList ++ pieces.flatten ∧ pieces.length = chain.length ∧ pieces[i]? = some p

/-- A certificate has no longer to live than all others, and less than those before it. -/
def FirstToExpire (now : Nat → Int) (chain : List Cert) (i : Nat) : Prop :=
  ∀ j (c cj : Cert), chain[i]? = some c → chain[j]? = some cj →
    timeUntil c.notAfter (now i) ≤ timeUntil cj.notAfter (now j) ∧
    (j < i → timeUntil c.notAfter (now i) < timeUntil cj.notAfter (now j))

theorem first_unique {now : Nat → Int} {chain : List Cert} {i k : Nat} (hi : i < chain.length) (hk : k < chain.length)
    (h : FirstToExpire now chain i) (h1 : FirstToExpire now chain k) : i = k := by
  have hci := List.getElem?_eq_getElem hi
  have hck := List.getElem?_eq_getElem hk
  have a := h k _ _ hci hck
  have b := h1 i _ _ hck hci
  rcases Nat.lt_trichotomy i k with hlt | heq | hgt
  · have := b.2 hlt
    omega
  · exact heq
  · have := a.2 hgt
    omega

/-- 398 days, in nanoseconds. -/
def days398 : Int := 398 * 86400 * 1000000000

theorem browserMax_eq : browserMax = days398 := by decide

theorem days398_days : natToDec (asDays days398.toNat) = "398".toList := by
  have h : days398.toNat = 34387200 * 1000000000 := by decide
  have h1 : 34387200 / 86400 = 398 := by decide
  rw [h, asDays_seconds (by decide), h1]
  decide +kernel

theorem seconds_toNat (n : Nat) : ((n : Int) * 1000000000).toNat = n * 1000000000 := by
  have h : (n : Int) * 1000000000 = ((n * 1000000000 : Nat) : Int) := by rw [Int.natCast_mul]; rfl
  rw [h, Int.toNat_natCast]

theorem bracket_eq : "[".toList = ['['] := by decide

theorem slash_eq : "/".toList = ['/'] := by decide

theorem root_eq : "Root CA #".toList = "Root".toList ++ " CA #".toList := by decide

theorem inter_eq : "Intermediate CA #".toList = "Intermediate".toList ++ " CA #".toList := by decide

theorem max398_eq : " days is above legal browser max ".toList ++ ("398".toList ++ ". ".toList) =
    " days is above legal browser max 398. ".toList := by decide +kernel

section
variable {now clock : Nat → Int} {chain : List Cert} {links : List TlsLink} {text : Str}

/-- **C142**, certificates of authorities: the time to expiry is told, rounded down to the second of its units. Missing from
the full statement: whether it is the earliest to expire; see the violation. -/
theorem C142_authority_partial (hl : parseTlsLinks now chain = some links) (ht : certReport clock links = some text)
    {i : Nat} {c : Cert} (hc : chain[i]? = some c) (hca : c.isCA = true)
    (h : 1000 ≤ c.notAfter - now i) (h1 : c.notAfter - now i ≤ maxInt64) :
    ∃ serial span, formatSerial c.serial = some serial ∧ InWords span false (c.notAfter - now i).toNat ∧
      PieceOf text chain i ("[".toList ++ natToDec (i + 1) ++ "/".toList ++ natToDec chain.length ++ "] ".toList ++
        (if isRoot c then "Root CA #".toList else "Intermediate CA #".toList) ++ serial ++ " Common name [".toList ++
        c.subject.cn ++ "], signed by [".toList ++ c.issuer.cn ++ "], expires in ".toList ++ span ++ ". ".toList) := by
  obtain ⟨pieces, first, rfl, hlen, -, -, hp⟩ := certReport_pieces hl ht
  obtain ⟨serial, hs, hpi⟩ := hp i c hc
  have hfit : timeUntil c.notAfter (now i) = c.notAfter - now i :=
    timeUntil_fits (by unfold minInt64; omega) h1
  have told := asString_told (d := c.notAfter - now i) (by omega) (by unfold minInt64; omega)
  rw [decide_eq_false (by omega), show (c.notAfter - now i).natAbs = (c.notAfter - now i).toNat by omega] at told
  refine ⟨serial, _, hs, told, pieces, rfl, hlen, ?_⟩
  rw [hpi, if_pos hca]
  unfold caSentence
  have hcert : (linkAt now i c).cert = c := rfl
  have hrem : (linkAt now i c).remainingValidity = timeUntil c.notAfter (now i) := rfl
  simp only [hcert, hrem, hfit]
  by_cases hr : isRoot c = true
  · simp only [hr, if_true, bracket_eq, slash_eq, root_eq, List.append_assoc, List.cons_append, List.nil_append]
  · simp only [hr, if_false, Bool.false_eq_true, bracket_eq, slash_eq, inter_eq, List.append_assoc, List.cons_append,
      List.nil_append]

/-- What is left of 398 days from the beginning on. -/
def leftOf398 (c : Cert) (now : Int) : Int := c.notBefore + days398 - now

/-- **C142**, the certificate of the server: the day on which it was issued, the time to expiry, that it is the first to
expire if it is, and the length of its validity if that is more than 398 days are told, and then how much time is left of
the 398 days, or since when they are over. Missing from the full statement: distances of 292 years and more, the last
microsecond, certificates that are valid for a fraction of a second or before the year 1, and that the sentences
about disruption and about the grace period mean what they say; see the violations. -/
theorem C142_leaf_partial (hl : parseTlsLinks now chain = some links) (ht : certReport clock links = some text)
    {i : Nat} {c : Cert} (hc : chain[i]? = some c) (hca : c.isCA = false)
    (h : 1000 ≤ c.notAfter - now i) (h1 : c.notAfter - now i ≤ maxInt64)
    {began : Nat} (hb : c.notBefore / 1000000000 + Calendar.toEpoch = began) (hb1 : began ≤ Calendar.lastSecond)
    {seconds : Nat} (hs : c.notAfter - c.notBefore = seconds * 1000000000) (hs1 : c.notAfter - c.notBefore ≤ maxInt64)
    (hv : 1000 ≤ (leftOf398 c (clock i)).natAbs) (hv1 : (leftOf398 c (clock i)).natAbs ≤ maxInt64) :
    ∃ serial date span mark total last, formatSerial c.serial = some serial ∧
      (∃ d : Calendar.Date, d.Valid ∧ d.number = began / 86400 ∧ Calendar.readDate date = some (d, [])) ∧
      InWords span false (c.notAfter - now i).toNat ∧
      (FirstToExpire now chain i → mark = ", which is the earliest in your chain".toList) ∧
      (¬ FirstToExpire now chain i → mark = []) ∧
      (398 * 86400 < seconds → total = "Total validity period of ".toList ++ natToDec (seconds / 86400) ++
        " days is above legal browser max 398. ".toList) ∧
      (seconds ≤ 398 * 86400 → total = []) ∧
      (0 < leftOf398 c (clock i) → ∃ t, InWords t false (leftOf398 c (clock i)).natAbs ∧
        last = "You may experience disruption in ".toList ++ t ++ ". ".toList) ∧
      (leftOf398 c (clock i) < 0 → ∃ t, InWords t true (leftOf398 c (clock i)).natAbs ∧
        last = "Validity grace period expired ".toList ++ t ++ " ago, update now. ".toList) ∧
      PieceOf text chain i ("[".toList ++ natToDec (i + 1) ++ "/".toList ++ natToDec chain.length ++
        "] TLS cert #".toList ++ serial ++ " for DNS names [".toList ++ join [' '] c.dnsNames ++
        "], issued on ".toList ++ date ++ ", signed by [".toList ++ c.issuer.cn ++ "], expires in ".toList ++ span ++
        mark ++ ". ".toList ++ total ++ last) := by
  obtain ⟨pieces, first, rfl, hlen, hfirst, hmin, hp⟩ := certReport_pieces hl ht
  obtain ⟨serial, hser, hpi⟩ := hp i c hc
  have hi : i < chain.length := (List.getElem?_eq_some_iff.1 hc).1
  have hfit : timeUntil c.notAfter (now i) = c.notAfter - now i :=
    timeUntil_fits (by unfold minInt64; omega) h1
  have htot : totalValidity c = seconds * 1000000000 := by
    unfold totalValidity
    rw [timeUntil_fits (by unfold minInt64; omega) hs1, hs]
  have hleft : browserValidity c (clock i) = leftOf398 c (clock i) := by
    unfold browserValidity
    rw [browserMax_eq]
    exact timeUntil_fits (by unfold leftOf398 at hv1; unfold minInt64; unfold maxInt64 at hv1; omega)
      (by unfold leftOf398 at hv1; omega)
  have told := asString_told (d := c.notAfter - now i) (by omega) (by unfold minInt64; omega)
  rw [decide_eq_false (by omega), show (c.notAfter - now i).natAbs = (c.notAfter - now i).toNat by omega] at told
  have toldV := asString_told hv (by unfold minInt64; unfold maxInt64 at hv1; omega)
  obtain ⟨d, hd, hdn, hdr⟩ := Calendar.readDate_format (unix := c.notBefore / 1000000000) (offset := 0) (n := began)
    (by omega) hb1
  have hdr := hdr []
  rw [List.append_nil] at hdr
  have hmark : FirstToExpire now chain i ↔ i = first := by
    have hF : FirstToExpire now chain first := fun j c cj h1 h2 => hmin j cj c h2 h1
    exact ⟨fun h => first_unique hi hfirst h hF, fun h => h ▸ hF⟩
  refine ⟨serial, _, _, if i = first then ", which is the earliest in your chain".toList else [], totalSentence c,
    browserSentence (browserValidity c (clock i)), hser, ⟨d, hd, hdn, hdr⟩, told, ?_, ?_, ?_, ?_, ?_, ?_, pieces, rfl, hlen,
    ?_⟩
  · intro hf
    rw [if_pos (hmark.1 hf)]
  · intro hf
    rw [if_neg (fun h => hf (hmark.2 h))]
  · intro hlt
    unfold totalSentence
    rw [htot, browserMax_eq, if_pos (by unfold days398; omega)]
    rw [seconds_toNat, asDays_seconds (by unfold maxInt64 at hs1; omega), days398_days]
    simp only [List.append_assoc, max398_eq]
  · intro hle
    unfold totalSentence
    rw [htot, browserMax_eq, if_neg (by unfold days398; omega)]
  · intro hpos
    rw [decide_eq_false (by omega)] at toldV
    refine ⟨_, toldV, ?_⟩
    unfold browserSentence
    rw [hleft, if_pos hpos]
  · intro hneg
    rw [decide_eq_true hneg] at toldV
    refine ⟨_, toldV, ?_⟩
    unfold browserSentence
    rw [hleft, if_neg (by omega)]
  · rw [hpi, if_neg (by simp [hca])]
    unfold leafSentence printRemainingValidity
    have hcert : (linkAt now i c).cert = c := rfl
    have hrem : (linkAt now i c).remainingValidity = timeUntil c.notAfter (now i) := rfl
    simp only [hcert, hrem, hfit, decide_eq_true_eq, bracket_eq, slash_eq, List.append_assoc, List.cons_append,
      List.nil_append]
    rfl

end

/-! ## Examples and violations -/

/-- 16 November 2020, 10:00 UTC, the clock of the examples. -/
def reportTime : Int := 1605520800 * 1000000000

def aDay : Int := 86400 * 1000000000

/-- The report at that time. -/
def reportOf (chain : List Cert) : Option Str :=
  match parseTlsLinks (fun _ => reportTime) chain with
  | some links => certReport (fun _ => reportTime) links
  | none => none

/-- Valid for 825 days, for 425 more. -/
def longCert : Cert :=
  { issuer := { cn := "Demo CA".toList }, dnsNames := ["a.example".toList, "b.example".toList], serial := 0xabc1,
    notBefore := reportTime - 400 * aDay, notAfter := reportTime + 425 * aDay }

/-- Valid for 90 days, one of which is left. -/
def shortCert : Cert := { longCert with notBefore := reportTime - 89 * aDay, notAfter := reportTime + aDay }

def demoCa : Cert :=
  { issuer := { cn := "Demo CA".toList }, subject := { cn := "Demo CA".toList }, isCA := true, serial := 1,
    notBefore := reportTime - 4000 * aDay, notAfter := reportTime + 3 * aDay }

theorem long_report : reportOf [longCert] = some ("Snapshot of your cert chain size 1 explained. ".toList ++
    "[1/1] TLS cert #AB-C1 for DNS names [a.example b.example], issued on 2019-10-13, signed by [Demo CA], ".toList ++
    "expires in 1 year 8 weeks, which is the earliest in your chain. ".toList ++
    "Total validity period of 825 days is above legal browser max 398. ".toList ++
    "Validity grace period expired -2 days ago, update now. ".toList) := by decide +kernel

theorem short_report : reportOf [shortCert] = some ("Snapshot of your cert chain size 1 explained. ".toList ++
    "[1/1] TLS cert #AB-C1 for DNS names [a.example b.example], issued on 2020-08-19, signed by [Demo CA], ".toList ++
    "expires in 1 day, which is the earliest in your chain. ".toList ++
    "You may experience disruption in 44 weeks 1 day. ".toList) := by decide +kernel

theorem chain_report : reportOf [longCert, demoCa] = some ("Snapshot of your cert chain size 2 explained. ".toList ++
    "[1/2] TLS cert #AB-C1 for DNS names [a.example b.example], issued on 2019-10-13, signed by [Demo CA], ".toList ++
    "expires in 1 year 8 weeks. ".toList ++
    "Total validity period of 825 days is above legal browser max 398. ".toList ++
    "Validity grace period expired -2 days ago, update now. ".toList ++
    "[2/2] Root CA #01 Common name [Demo CA], signed by [Demo CA], expires in 3 days. ".toList) := by decide +kernel

/-- The hypotheses of the theorems hold of these. -/
example : 1000 ≤ longCert.notAfter - reportTime ∧ longCert.notAfter - reportTime ≤ maxInt64 ∧
    longCert.notBefore / 1000000000 + Calendar.toEpoch ≤ Calendar.lastSecond ∧
    0 ≤ longCert.notBefore / 1000000000 + Calendar.toEpoch ∧
    longCert.notAfter - longCert.notBefore = (825 * 86400 : Nat) * 1000000000 ∧
    leftOf398 longCert reportTime = - 2 * aDay ∧ longCert.isCA = false ∧ demoCa.isCA = true := by decide +kernel

/-- **C142 violated**: what the report says about disruption does not consider the expiry. For a certificate that is valid
for less than 398 days it always promises more time than there is. A certificate of which one day is left is said to serve
another 44 weeks, because it was made for 90 days. -/
theorem C142_violated_disruption :
    (∀ (c : Cert) (now : Int), c.notAfter - c.notBefore < days398 → c.notAfter - now < leftOf398 c now) ∧
    shortCert.notAfter = reportTime + aDay ∧
    (∃ pre, reportOf [shortCert] = some (pre ++ "You may experience disruption in 44 weeks 1 day. ".toList)) ∧
    InWords "44 weeks 1 day".toList false (309 * aDay).toNat := by
  refine ⟨fun c now h => ?_, rfl, ⟨_, short_report⟩, ⟨[(44, 7 * 86400 * 10 ^ 9), (1, 86400 * 10 ^ 9)], by decide +kernel, ?_⟩⟩
  · unfold leftOf398
    omega
  · refine { one_or_two := .inr rfl, below := by decide, one := fun h => (by cases h), two := fun a b h => ?_ }
    cases h
    decide

/-- **C142 violated**: 398 days after a certificate was issued, the report says that its grace period expired minus two days
ago: a time that lies two days ahead. It lies two days back. -/
theorem C142_violated_sign :
    leftOf398 longCert reportTime = - (2 * aDay) ∧
    (∃ pre, reportOf [longCert] = some (pre ++ "Validity grace period expired ".toList ++ "-2 days".toList ++
      " ago, update now. ".toList)) ∧
    InWords "-2 days".toList true (2 * aDay).toNat := by
  refine ⟨by decide, ⟨"Snapshot of your cert chain size 1 explained. ".toList ++
    "[1/1] TLS cert #AB-C1 for DNS names [a.example b.example], issued on 2019-10-13, signed by [Demo CA], ".toList ++
    "expires in 1 year 8 weeks, which is the earliest in your chain. ".toList ++
    "Total validity period of 825 days is above legal browser max 398. ".toList, ?_⟩,
    ⟨[(2, 86400 * 10 ^ 9)], by decide +kernel, ?_⟩⟩
  · rw [long_report]
    simp only [List.append_assoc]
    rfl
  · exact { one_or_two := .inl rfl, below := by decide, one := fun _ => by decide,
            two := fun a b h => by cases h }

/-- A certificate that does not expire, RFC 5280 4.1.2.5: until the last second of the year 9999. -/
def foreverCert : Cert := { demoCa with notAfter := 253402300799 * 1000000000 }

/-- **C142 violated**: a certificate that is valid for another 7973 years is said to expire in 292. -/
theorem C142_violated_saturated :
    7973 * 365 * aDay < foreverCert.notAfter - reportTime ∧
    ∃ pre, reportOf [foreverCert] = some (pre ++ "expires in 292 years 24 weeks. ".toList) := by
  refine ⟨by decide, "Snapshot of your cert chain size 1 explained. ".toList ++
    "[1/1] Root CA #01 Common name [Demo CA], signed by [Demo CA], ".toList, ?_⟩
  decide +kernel

/-- No part of `s` is `w`. -/
def Lacks (w s : Str) : Bool := ! (List.range (s.length + 1)).any fun k => w.isPrefixOf (s.drop k)

/-- **C142 violated**: that a certificate is the first of the chain to expire is not said of authorities, though it is their
expiry that decides whether the report is a warning. -/
theorem C142_violated_unmarked :
    FirstToExpire (fun _ => reportTime) [longCert, demoCa] 1 ∧
    ∃ text, reportOf [longCert, demoCa] = some text ∧ Lacks "earliest".toList text = true := by
  refine ⟨?_, _, chain_report, by decide +kernel⟩
  intro j c cj hc hj
  cases hc
  match j, hj with
  | 0, hj => cases hj; decide
  | 1, hj => cases hj; decide

example : Lacks "earliest".toList "is the earliest in".toList = false := by decide +kernel

end J8a

import Verif.Lemmas.Calendar
import Verif.Lemmas.Durafmt
import Verif.Lemmas.Stats
import Verif.Lemmas.Tls
import Verif.Model.CertReport
/-!
# The parts of the certificate report
-/
namespace J8a
open Go

/-! ## Days -/

/-- A float with few digits is not changed. -/
theorem F64.roundNat_shifted {a : Nat} (k : Nat) (h : a < 2 ^ 53) : F64.roundNat (a * 2 ^ k) = a * 2 ^ k := by
  by_cases hn : a * 2 ^ k < 2 ^ 53
  · exact F64.roundNat_small hn
  · unfold F64.roundNat
    rw [if_neg hn]
    have h0 : a * 2 ^ k ≠ 0 := by omega
    have hl := (F64.log2_bounds h0).1
    have hlt : 2 ^ (a * 2 ^ k).log2 < 2 ^ (53 + k) := by
      refine Nat.lt_of_le_of_lt hl ?_
      rw [Nat.pow_add]
      exact Nat.mul_lt_mul_of_pos_right h (Nat.two_pow_pos k)
    have hj := (Nat.pow_lt_pow_iff_right (by decide : 1 < 2)).1 hlt
    obtain ⟨j, hj⟩ : ∃ j, k = j + ((a * 2 ^ k).log2 - 52) := ⟨k - ((a * 2 ^ k).log2 - 52), by omega⟩
    generalize (a * 2 ^ k).log2 - 52 = m at hj
    rw [hj, Nat.pow_add, ← Nat.mul_assoc, F64.roundShift_exact]

/-- The rounded quotient of a float by an integer, in terms of the rounded value of twice the quotient. -/
theorem divNat_units (x c : Nat) : ∃ a, GoFloat.divNat x (c * 2 ^ 1074) = F64.roundNat a / 2 ∧
    2 * (x / c) ≤ a ∧ a ≤ 2 * (x / c) + 1 := by
  unfold GoFloat.divNat
  dsimp only
  rw [Nat.mul_div_mul_right _ _ (Nat.two_pow_pos 1074)]
  refine ⟨_, rfl, by omega, ?_⟩
  split <;> omega

theorem divNat_small (n d : Nat) : ∃ a, GoFloat.divNat n d = F64.roundNat a / 2 ∧
    2 * (n * 2 ^ 1074 / d) ≤ a ∧ a ≤ 2 * (n * 2 ^ 1074 / d) + 1 := by
  unfold GoFloat.divNat
  dsimp only
  refine ⟨_, rfl, by omega, ?_⟩
  split <;> omega

theorem days_close {U s h day r qU sU dU rU f x y a b ra rb : Nat} (hr : r < 86400)
    (hday : day < 2 ^ 20) (hq : qU = h * U) (hsU : sU = s * U) (hdU : dU = day * U) (hrU : rU = r * U)
    (hU0 : 2 ^ 60 ≤ U)
    (hS : 3600 * h + s = 86400 * day + r)
    (ha : a ≤ 2 * (sU * 1000000000 / 3600000000000) + 1) (hra : 2 ^ 53 * ra ≤ 2 ^ 53 * a + a) (hf : f = ra / 2)
    (hx : 2 ^ 53 * x ≤ 2 ^ 53 * (qU + f) + (qU + f))
    (hb : b ≤ 2 * (x / 24) + 1) (hrb : 2 ^ 53 * rb ≤ 2 ^ 53 * b + b) (hy : y = rb / 2) : y < dU + U := by
  have e : 3600 * qU + sU = 86400 * dU + rU := by
    subst hq hsU hdU hrU
    have := congrArg (· * U) hS
    simp only [Nat.add_mul, Nat.mul_assoc] at this
    exact this
  have e1 : rU + U ≤ 86400 * U := by
    subst hrU
    have : (r + 1) * U ≤ 86400 * U := Nat.mul_le_mul_right _ hr
    rw [Nat.add_mul, Nat.one_mul] at this
    exact this
  have e2 : dU ≤ 2 ^ 20 * U := by
    subst hdU
    exact Nat.mul_le_mul_right _ (Nat.le_of_lt hday)
  clear hq hsU hdU hrU hS
  omega

/-- The number of days of a length of whole seconds is not changed by rounding. -/
theorem asDays_seconds {S : Nat} (h : S < 2 ^ 35) : asDays (S * 1000000000) = S / 86400 := by
  have hh : S * 1000000000 / 3600000000000 = S / 3600 := by omega
  have hm : S * 1000000000 % 3600000000000 = S % 3600 * 1000000000 := by omega
  unfold asDays
  dsimp only
  rw [hh, hm, F64.roundNat_small (a := S / 3600) (by omega), F64.roundNat_small (a := S % 3600 * 1000000000) (by omega)]
  obtain ⟨a, ha, ha1, ha2⟩ := divNat_small (S % 3600 * 1000000000) 3600000000000
  rw [ha]
  generalize hx : F64.roundNat (S / 3600 * 2 ^ 1074 + F64.roundNat a / 2) = x
  obtain ⟨b, hb, hb1, hb2⟩ := divNat_units x 24
  rw [hb]
  have hday : S / 86400 < 2 ^ 20 := by omega
  have lower : S / 86400 * 2 ^ 1074 ≤ F64.roundNat b / 2 := by
    have h1 : S / 3600 * 2 ^ 1074 ≤ x := by
      rw [← hx]
      have := F64.roundNat_mono (Nat.le_add_right (S / 3600 * 2 ^ 1074) (F64.roundNat a / 2))
      rwa [F64.roundNat_shifted _ (by omega)] at this
    have h2 : S / 86400 * 2 ^ 1074 ≤ x / 24 := by
      rw [Nat.le_div_iff_mul_le (by decide)]
      refine Nat.le_trans ?_ h1
      have : S / 86400 * 24 ≤ S / 3600 := by omega
      calc S / 86400 * 2 ^ 1074 * 24 = S / 86400 * 24 * 2 ^ 1074 := Nat.mul_right_comm _ _ _
        _ ≤ _ := Nat.mul_le_mul_right _ this
    have h3 : S / 86400 * 2 ^ 1075 ≤ b := by
      rw [show (1075 : Nat) = 1074 + 1 from rfl, Nat.pow_succ, ← Nat.mul_assoc]
      omega
    have h4 := F64.roundNat_mono h3
    rw [F64.roundNat_shifted _ (by omega)] at h4
    rw [show (1075 : Nat) = 1074 + 1 from rfl, Nat.pow_succ, ← Nat.mul_assoc] at h4
    omega
  have upper : F64.roundNat b / 2 < S / 86400 * 2 ^ 1074 + 2 ^ 1074 := by
    have hx2 := (F64.roundNat_error (S / 3600 * 2 ^ 1074 + F64.roundNat a / 2)).1
    rw [hx] at hx2
    have hP : ∀ e, 60 ≤ e → 2 ^ 60 ≤ 2 ^ e := fun e he => Nat.pow_le_pow_right (by decide) he
    have hP := hP 1074 (by decide)
    have ha2' : a ≤ 2 * (S % 3600 * 2 ^ 1074 * 1000000000 / 3600000000000) + 1 := by
      rw [Nat.mul_right_comm]
      exact ha2
    exact days_close (s := S % 3600) (r := S % 86400) (h := S / 3600) (by omega) hday rfl rfl rfl rfl hP
      (by omega) ha2' (F64.roundNat_error a).1 rfl hx2 hb2 (F64.roundNat_error b).1 rfl
  have hpos : 0 < 2 ^ 1074 := Nat.two_pow_pos 1074
  generalize 2 ^ 1074 = U at lower upper hpos ⊢
  refine (Nat.div_eq_iff hpos).2 ⟨lower, ?_⟩
  omega

/-! ## Sentences -/

/-- The texts about the certificates, one after the other. -/
theorem linkTexts_pieces (now : Nat → Int) (n : Nat) : ∀ (links : List TlsLink) (i : Nat) {t : Str},
    linkTexts now n i links = some t → ∃ pieces : List Str, t = pieces.flatten ∧ pieces.length = links.length ∧
      ∀ k l, links[k]? = some l → pieces[k]? = linkText (now (i + k)) (i + k) n l ∧
        (linkText (now (i + k)) (i + k) n l).isSome = true
  | [], _, t, h => by
    cases h
    exact ⟨[], rfl, rfl, fun k l hk => by cases hk⟩
  | l :: ls, i, t, h => by
    unfold linkTexts at h
    cases hs : linkText (now i) i n l with
    | none => rw [hs] at h; cases h
    | some s =>
      cases hr : linkTexts now n (i + 1) ls with
      | none => rw [hs, hr] at h; cases h
      | some r =>
        rw [hs, hr] at h
        cases h
        obtain ⟨pieces, h1, h2, h3⟩ := linkTexts_pieces now n ls (i + 1) hr
        refine ⟨s :: pieces, by rw [h1]; rfl, by simp [h2], fun k l' hk => ?_⟩
        cases k with
        | zero =>
          cases hk
          simp [hs]
        | succ k =>
          have := h3 k l' hk
          rw [show i + (k + 1) = i + 1 + k by omega]
          exact this

/-- The report, by certificate of the chain. -/
theorem certReport_pieces {now clock : Nat → Int} {chain : List Cert} {links : List TlsLink} {text : Str}
    (hl : parseTlsLinks now chain = some links) (ht : certReport clock links = some text) :
    ∃ (pieces : List Str) (first : Nat), text = "Snapshot of your cert chain size ".toList ++ natToDec chain.length ++
        " explained. ".toList ++ pieces.flatten ∧ pieces.length = chain.length ∧ first < chain.length ∧
      (∀ (i : Nat) (c ck : Cert), chain[i]? = some c → chain[first]? = some ck →
        timeUntil ck.notAfter (now first) ≤ timeUntil c.notAfter (now i) ∧
        (i < first → timeUntil ck.notAfter (now first) < timeUntil c.notAfter (now i))) ∧
      ∀ i c, chain[i]? = some c → ∃ serial, formatSerial c.serial = some serial ∧
        pieces[i]? = some (if c.isCA then
            caSentence i chain.length serial { linkAt now i c with earliestExpiry := decide (i = first) }
          else leafSentence i chain.length serial { linkAt now i c with earliestExpiry := decide (i = first) } ++
            totalSentence c ++ browserSentence (browserValidity c (clock i))) := by
  have hne : chain ≠ [] := by
    rintro rfl
    cases hl
  obtain ⟨links', first, h1, h2, h3, h4, h5⟩ := parseTlsLinks_spec now hne
  rw [hl] at h1
  cases h1
  unfold certReport at ht
  cases hr : linkTexts clock links.length 0 links with
  | none => rw [hr] at ht; cases ht
  | some r =>
    rw [hr] at ht
    cases ht
    obtain ⟨pieces, rfl, h6, h7⟩ := linkTexts_pieces clock links.length links 0 hr
    refine ⟨pieces, first, by rw [h2], by omega, h3, h5, fun i c hc => ?_⟩
    obtain ⟨h8, h9⟩ := h7 i _ (h4 i c hc)
    rw [Nat.zero_add] at h8 h9
    unfold linkText at h8 h9
    have hcert : (linkAt now i c).cert = c := rfl
    have hca : (linkAt now i c).isCA = c.isCA := rfl
    simp only [hcert, hca, h2] at h8 h9
    cases hs : formatSerial c.serial with
    | none => rw [hs] at h9; cases h9
    | some serial =>
      rw [hs] at h8
      exact ⟨serial, rfl, h8⟩

theorem timeUntil_fits {t now : Int} (h : minInt64 ≤ t - now) (h1 : t - now ≤ maxInt64) : timeUntil t now = t - now := by
  unfold timeUntil
  omega

end J8a

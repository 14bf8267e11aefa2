import Verif.Lemmas.Jwt
import Verif.Lemmas.Str
/-!
# C16–C19 — bearer tokens
-/
namespace J8a
open Go

variable {K : Type}

/-! ## C16 -/

/-- A library for the examples: tokens verify iff the first character is the key's number as a
digit; the token `t…` parses with the claims `exp = 2000000000`. -/
def exJwx : Jwx Nat where
  signatures t := if t = [] then none else some 1
  parseVerify _ k t := if t = natToDec k then some { exp := some 2000000000 } else none
  parse t := if t = [] then none else some { exp := some 2000000000 }
  kid t := t
  nbfStrict := true
  skipsEpoch := true

/-- C16 fails: a token presented with another scheme is accepted. -/
theorem C16_violated : ¬ ∀ (L : Jwx Nat) (j : Jwt Nat) (now : Int) (auth : Str),
    validateToken L j now auth = .accept → ∃ token, IsBearer auth token := by
  intro h
  obtain ⟨t, scheme, rest, hs, ha, _⟩ := h exJwx
    { name := "n".toList, alg := "HS256".toList, secret := [⟨[], 7⟩],
      acceptableSkewSeconds := "120".toList } 1700000000 "Basic 7".toList (by decide)
  have hlen : scheme.length = 6 := by
    have := congrArg List.length hs
    simpa [toLower] using this
  have h6 := congrArg (fun l => l.take 6) ha
  rw [List.append_assoc, List.take_left' hlen] at h6
  rw [← h6] at hs
  revert hs
  decide

theorem split_two {sep : Char} {s a b : Str} {r : List Str} (h : split sep s = a :: b :: r) :
    sep ∉ a ∧ sep ∉ b ∧ ∃ t, s = a ++ sep :: b ++ t ∧ (t = [] ∨ ∃ u, t = sep :: u) := by
  have one : ∀ {s a : Str} {r : List Str}, split sep s = a :: r →
      sep ∉ a ∧ ∃ t, s = a ++ t ∧ (t = [] ∨ ∃ u, t = sep :: u ∧ split sep u = r) := by
    intro s
    induction s with
    | nil => intro a r h; simp only [split, List.cons.injEq] at h; simp [← h.1]
    | cons c cs ih =>
      intro a r h
      unfold split at h
      split at h
      · rename_i hc
        simp only [List.cons.injEq] at h
        exact ⟨by simp [← h.1], c :: cs, by simp [← h.1], .inr ⟨cs, by simp [hc], h.2⟩⟩
      · rename_i hc
        split at h
        · rename_i hnil
          exact absurd hnil (split_ne_nil _ _)
        · rename_i w ws hw
          simp only [List.cons.injEq] at h
          obtain ⟨h1, t, h2, h3⟩ := ih hw
          refine ⟨?_, t, by simp [← h.1, h2], ?_⟩
          · rw [← h.1]
            simp only [List.mem_cons, not_or]
            exact ⟨fun hh => hc hh.symm, h1⟩
          · rw [← h.2]; exact h3
  obtain ⟨h1, t, h2, h3⟩ := one h
  rcases h3 with h3 | ⟨u, h3, h4⟩
  · exfalso
    rw [h3, List.append_nil] at h2
    rw [h2] at h
    rw [split_no_occ sep a h1] at h
    simp at h
  · obtain ⟨h5, t', h6, h7⟩ := one h4
    refine ⟨h1, h5, t', by simp [h2, h3, h6], ?_⟩
    rcases h7 with h7 | ⟨u', h7, _⟩
    · exact .inl h7
    · exact .inr ⟨u', h7⟩

/-- C16, the part that holds: nothing is accepted from a header without the form
`<scheme> <token>`, and the token checked is the one in that place. Missing from the full
statement: that the scheme is `Bearer`. -/
theorem C16_scheme_token_partial (L : Jwx K) (j : Jwt K) (now : Int) (auth : Str)
    (h : validateToken L j now auth = .accept) :
    ∃ scheme token rest, ' ' ∉ scheme ∧ ' ' ∉ token ∧ auth = scheme ++ ' ' :: token ++ rest ∧
      (rest = [] ∨ ∃ r, rest = ' ' :: r) ∧ (L.parse token).isSome := by
  unfold validateToken at h
  split at h
  · cases h
  · rename_i token hb
    unfold bearerToken at hb
    split at hb
    · rename_i scheme t ws hs
      simp only [Option.some.injEq] at hb
      subst hb
      obtain ⟨h1, h2, r, h3, h4⟩ := split_two hs
      refine ⟨scheme, t, r, h1, h2, h3, h4, ?_⟩
      simp only at h
      split at h
      · cases h
      · cases h
      · split at h
        · cases h
        · rename_i c hc
          simp [hc]
    · cases hb

/-- Any proper bearer header is taken apart as intended. -/
theorem C16_bearer_taken_partial (token : Str) (h : ' ' ∉ token) :
    bearerToken ("Bearer ".toList ++ token) = some token := by
  have : split ' ' ("Bearer ".toList ++ token) = ["Bearer".toList, token] := by
    show split ' ' ('B' :: 'e' :: 'a' :: 'r' :: 'e' :: 'r' :: ' ' :: token) = _
    simp [split, split_no_occ ' ' token h]
  unfold bearerToken
  rw [this]

/-! ## C17 -/

/-- C17: for a token with a signature, verification succeeds iff some key of the set verifies it;
kid and position play no role. -/
theorem C17_some_key (L : Jwx K) (alg token : Str) (ks : KeySet K) (n : Nat)
    (hs : L.signatures token = some n) (hn : 0 < n) :
    (∃ c, verifySignature L alg token ks = .ok (some c)) ↔
      ∃ kp ∈ ks, ∃ c, L.parseVerify alg kp.key token = some c := by
  have hiff : (∃ kp ∈ ks, ∃ c, L.parseVerify alg kp.key token = some c) ↔
      ∃ kp ∈ ks, (L.parseVerify alg kp.key token).isSome := by
    simp [Option.isSome_iff_exists]
  rw [hiff]
  have hmem : ∀ kid key, KeySet.find ks kid = some key → ∃ kp ∈ ks, kp.key = key := by
    intro kid key h
    simp only [KeySet.find, Option.map_eq_some_iff] at h
    obtain ⟨a, ha, hk⟩ := h
    exact ⟨a, List.mem_of_find?_eq_some ha, hk⟩
  simp only [verifySignature, hs, hn, if_true]
  generalize hkey : (if 0 < (L.kid token).length then KeySet.find ks (L.kid token) else none) = key
  cases key with
  | none =>
    simp only [Option.isNone_none, true_or, or_true, if_true]
    rw [← tryKeys_isSome L alg token ks none (by simp)]
    simp [Option.isSome_iff_exists]
  | some key =>
    have hpos : 0 < (L.kid token).length := by
      refine Classical.byContradiction fun hh => ?_
      rw [if_neg hh] at hkey
      cases hkey
    rw [if_pos hpos] at hkey
    obtain ⟨kp, hkp, hk⟩ := hmem _ _ hkey
    simp only [Option.isNone_some, Bool.false_eq_true, false_or]
    cases hf : L.parseVerify alg key token with
    | some c =>
      have : ∃ kp ∈ ks, (L.parseVerify alg kp.key token).isSome := ⟨kp, hkp, by simp [hk, hf]⟩
      simp only [this, iff_true]
      split
      · rename_i hc
        rcases hc with hc | hc
        · omega
        · simp at hc
      · exact ⟨c, rfl⟩
    | none =>
      split
      · rw [← tryKeys_isSome L alg token ks none (by simp)]
        simp [Option.isSome_iff_exists]
      · rename_i hc
        have hl : ks.length ≤ 1 := by
          refine Classical.byContradiction fun hh => hc (.inr ⟨by simp, by omega⟩)
        simp only [TokenResult.ok.injEq, reduceCtorEq, exists_false, false_iff]
        rintro ⟨kp', hkp', hv⟩
        have : kp' = kp := by
          match ks, hl, hkp, hkp' with
          | [a], _, h1, h2 =>
            simp only [List.mem_singleton] at h1 h2
            rw [h1, h2]
        rw [this, hk, hf] at hv
        cases hv

/-- Three keys; the kid names the first, the last one verifies. -/
example : verifySignature { exJwx with kid := fun _ => "a".toList } "HS256".toList "7".toList
    [⟨"a".toList, 1⟩, ⟨"b".toList, 2⟩, ⟨"c".toList, 7⟩]
    = .ok (some { exp := some 2000000000 }) := by decide

/-! ## C18 -/

/-- C18 fails for large skews: with a skew of 2000000 seconds (23 days), which boot accepts, a
token issued ten seconds in the future is refused, because `skew*1000` exceeds the current time
and the claim is then left unadjusted. -/
theorem C18_violated : ¬ ∀ (skips strict : Bool) (skew now : Int) (c : Claims), 0 ≤ skew → c.Present →
    (dateClaimsOk skips strict skew now c = true ↔ DatesOk strict skew now c) := by
  intro h
  have := (h false true 2000000 1700000000 { iat := some 1700000010 } (by decide) (by decide)).2
    ⟨by simp, by simp, by simp⟩
  revert this
  decide

/-- C18 also fails by overflow: with a skew of 9223372037 seconds an unexpired token is refused. -/
theorem C18_violated_overflow : ∃ (skew now : Int) (c : Claims), 0 ≤ skew ∧ c.Present ∧
    atoi "9223372037".toList = some skew ∧
    dateClaimsOk false true skew now c = false ∧ DatesOk true skew now c :=
  ⟨9223372037, 1700000000, { exp := some 1700000100 }, by decide, by decide, by decide,
   by decide, ⟨by simp, by simp, by simp⟩⟩

theorem wrap64_id {x : Int} (h1 : -(2 ^ 63) ≤ x) (h2 : x < 2 ^ 63) : wrap64 x = x := by
  unfold wrap64
  omega

theorem addDuration_sec (t s : Int) : addDuration t (10 ^ 9 * s) = t + s := by
  unfold addDuration
  omega

theorem shiftBack_eq {skew t : Int} (h0 : 0 ≤ skew) (h1 : skew ≤ 9000000000) :
    shiftBack skew t = if t > skew * 1000 then t - skew else t := by
  unfold shiftBack
  rw [wrap64_id (by omega) (by omega), wrap64_id (by omega) (by omega)]
  have : -(10 ^ 9) * skew = 10 ^ 9 * (-skew) := by omega
  rw [this, addDuration_sec]
  split <;> omega

theorem shiftForward_eq {skew t : Int} (h0 : 0 ≤ skew) (h1 : skew ≤ 9000000000) :
    shiftForward skew t = if t > 1 then t + skew else t := by
  unfold shiftForward secondsDuration
  rw [wrap64_id (by omega) (by omega), addDuration_sec]

theorem unchecked_iff {skips : Bool} {t : Int} :
    unchecked skips t = true ↔ t = zeroUnix ∨ (skips = true ∧ t = 0) := by
  simp [unchecked]

/-- C18 also fails if the library takes second 0 for no date at all: a token that expired then is
valid for ever. -/
theorem C18_violated_epoch (strict : Bool) (skew now : Int) (h0 : 0 ≤ skew) (h1 : skew ≤ 9000000000)
    (h : skew ≤ now) :
    dateClaimsOk true strict skew now { exp := some 0 } = true ∧
    ({ exp := some 0 } : Claims).Present ∧ ¬ DatesOk strict skew now { exp := some 0 } := by
  refine ⟨?_, by decide, fun hd => ?_⟩
  · have hz : shiftBack skew zeroUnix = zeroUnix := by
      rw [shiftBack_eq h0 h1, if_neg]
      unfold zeroUnix
      omega
    unfold dateClaimsOk
    simp only [Option.getD_none, Option.getD_some, hz]
    cases strict <;> rfl
  · have := hd.exp 0 rfl
    omega

/-- An expiry at the epoch, with the default skew, today. -/
example : (0 : Int) ≤ 120 ∧ (120 : Int) ≤ 9000000000 ∧ (120 : Int) ≤ 1700000000 := by decide

/-- C18 for skews below a thousandth of the current Unix time (about 19 days today) and clocks up
to the year 285000. If the library takes second 0 for no date, not for tokens that expired then.
Missing from the full statement: larger skews, and those tokens. -/
theorem C18_date_claims_partial (skips strict : Bool) (skew now : Int) (c : Claims) (h0 : 0 ≤ skew)
    (h1 : skew * 1000 < now) (h2 : now ≤ 9000000000000) (hp : c.Present)
    (hz : skips = false ∨ c.NotEpoch) :
    dateClaimsOk skips strict skew now c = true ↔ DatesOk strict skew now c := by
  have hs : skew ≤ 9000000000 := by omega
  obtain ⟨pe, pi, pn⟩ := hp
  unfold dateClaimsOk verifyClaims
  simp only [shiftBack_eq h0 hs, shiftForward_eq h0 hs, Bool.and_eq_true, Bool.or_eq_true,
    unchecked_iff, decide_eq_true_eq]
  have he : (((if c.exp.getD zeroUnix > 1 then c.exp.getD zeroUnix + skew else c.exp.getD zeroUnix)
        = zeroUnix ∨ (skips = true ∧ (if c.exp.getD zeroUnix > 1 then c.exp.getD zeroUnix + skew
        else c.exp.getD zeroUnix) = 0)) ∨
      now < (if c.exp.getD zeroUnix > 1 then c.exp.getD zeroUnix + skew else c.exp.getD zeroUnix)) ↔
      ∀ t, c.exp = some t → now - skew < t := by
    cases hc : c.exp with
    | none => simp [zeroUnix]
    | some t =>
      have : t ≠ zeroUnix := fun hh => pe (by rw [hc, hh])
      have h' : skips = false ∨ t ≠ 0 := hz.imp id (fun hn hh => hn (by rw [hc, hh]))
      unfold zeroUnix at *
      simp only [Option.getD_some, Option.some.injEq, forall_eq']
      rcases h' with h' | h'
      · simp only [h', Bool.false_eq_true, false_and, or_false]
        split <;> omega
      · split <;> omega
  have hi : (((if c.iat.getD zeroUnix > skew * 1000 then c.iat.getD zeroUnix - skew
        else c.iat.getD zeroUnix) = zeroUnix ∨ (skips = true ∧
        (if c.iat.getD zeroUnix > skew * 1000 then c.iat.getD zeroUnix - skew
        else c.iat.getD zeroUnix) = 0)) ∨
      (if c.iat.getD zeroUnix > skew * 1000 then c.iat.getD zeroUnix - skew
        else c.iat.getD zeroUnix) ≤ now) ↔
      ∀ t, c.iat = some t → t ≤ now + skew := by
    cases hc : c.iat with
    | none => unfold zeroUnix; simp; omega
    | some t =>
      have : t ≠ zeroUnix := fun hh => pi (by rw [hc, hh])
      unfold zeroUnix at *
      simp only [Option.getD_some, Option.some.injEq, forall_eq']
      split <;> omega
  have hn : (((if c.nbf.getD zeroUnix > skew * 1000 then c.nbf.getD zeroUnix - skew
        else c.nbf.getD zeroUnix) = zeroUnix ∨ (skips = true ∧
        (if c.nbf.getD zeroUnix > skew * 1000 then c.nbf.getD zeroUnix - skew
        else c.nbf.getD zeroUnix) = 0)) ∨
      (if strict = true then decide ((if c.nbf.getD zeroUnix > skew * 1000 then
          c.nbf.getD zeroUnix - skew else c.nbf.getD zeroUnix) < now)
        else decide ((if c.nbf.getD zeroUnix > skew * 1000 then c.nbf.getD zeroUnix - skew
        else c.nbf.getD zeroUnix) ≤ now)) = true) ↔
      ∀ t, c.nbf = some t → if strict then t < now + skew else t ≤ now + skew := by
    cases hc : c.nbf with
    | none => unfold zeroUnix; simp; omega
    | some t =>
      have : t ≠ zeroUnix := fun hh => pn (by rw [hc, hh])
      unfold zeroUnix at *
      simp only [Option.getD_some, Option.some.injEq, forall_eq']
      cases strict <;> simp only [Bool.false_eq_true, if_false, if_true, decide_eq_true_eq] <;>
        split <;> omega
  rw [he, hi, hn]
  exact ⟨fun ⟨⟨a, b⟩, d⟩ => ⟨a, b, d⟩, fun ⟨a, b, d⟩ => ⟨⟨a, b⟩, d⟩⟩

/-- The default skew today, a token with all three claims, inside the tolerance on each side. -/
example : (120 : Int) * 1000 < 1700000000 ∧
    (Claims.mk (some 1700000119) (some 1700000119) (some 1699999881)).Present ∧
    DatesOk true 120 1700000000 ⟨some 1700000119, some 1700000119, some 1699999881⟩ :=
  ⟨by decide, by decide, ⟨by simp, by simp, by simp⟩⟩

/-! ## C19 -/

/-- C19 fails: a token that passes with a skew of 100 seconds is refused with 2000000 seconds. -/
theorem C19_violated : ¬ ∀ (skips strict : Bool) (s s' now : Int) (c : Claims), 0 ≤ s → s ≤ s' →
    c.Present → dateClaimsOk skips strict s now c = true → dateClaimsOk skips strict s' now c = true := by
  intro h
  have := h false true 100 2000000 1700000000 { iat := some 1700000010 } (by decide) (by decide)
    (by decide) (by decide)
  revert this
  decide

/-- If second 0 is no date for the library, an expiry then is as good as none. -/
theorem dateClaimsOk_epoch (strict : Bool) (s now : Int) (c : Claims) (h : c.exp = some 0) :
    dateClaimsOk true strict s now c = dateClaimsOk true strict s now { c with exp := none } := by
  have h1 : shiftForward s 0 = 0 := rfl
  have h2 : shiftForward s zeroUnix = zeroUnix := rfl
  unfold dateClaimsOk verifyClaims
  simp only [h, Option.getD_some, Option.getD_none, h1, h2]
  rfl

/-- C19 for skews below a thousandth of the current Unix time. Missing from the full statement:
larger skews. -/
theorem C19_monotone_partial (skips strict : Bool) (s s' now : Int) (c : Claims) (h0 : 0 ≤ s)
    (h1 : s ≤ s') (h2 : s' * 1000 < now) (h3 : now ≤ 9000000000000) (hp : c.Present)
    (h : dateClaimsOk skips strict s now c = true) : dateClaimsOk skips strict s' now c = true := by
  have main : ∀ c : Claims, c.Present → (skips = false ∨ c.NotEpoch) →
      dateClaimsOk skips strict s now c = true → dateClaimsOk skips strict s' now c = true := by
    intro c hp hz h
    rw [C18_date_claims_partial skips strict s now c h0 (by omega) h3 hp hz] at h
    rw [C18_date_claims_partial skips strict s' now c (by omega) h2 h3 hp hz]
    refine ⟨fun t ht => ?_, fun t ht => ?_, fun t ht => ?_⟩
    · have := h.exp t ht; omega
    · have := h.iat t ht; omega
    · have := h.nbf t ht
      cases strict <;> simp only [Bool.false_eq_true, if_false, if_true] at * <;> omega
  by_cases hz : c.exp = some 0
  · cases skips with
    | false => exact main c hp (.inl rfl) h
    | true =>
      rw [dateClaimsOk_epoch strict _ now c hz] at h ⊢
      exact main { c with exp := none } ⟨by simp, hp.2⟩ (.inr (by simp [Claims.NotEpoch])) h
  · exact main c hp (.inr hz) h

/-- Expiry alone never fails with a larger skew below the overflow (about 292 years). -/
theorem C19_exp_monotone_partial (skips strict : Bool) (s s' now t : Int) (h0 : 0 ≤ s) (h1 : s ≤ s')
    (h2 : s' ≤ 9000000000) (ht : t ≠ zeroUnix)
    (h : dateClaimsOk skips strict s now { exp := some t } = true) :
    dateClaimsOk skips strict s' now { exp := some t } = true := by
  unfold dateClaimsOk verifyClaims at h ⊢
  simp only [shiftBack_eq h0 (by omega : s ≤ 9000000000), shiftBack_eq (by omega : 0 ≤ s') h2,
    shiftForward_eq h0 (by omega : s ≤ 9000000000), shiftForward_eq (by omega : 0 ≤ s') h2,
    Option.getD_some, Option.getD_none, Bool.and_eq_true, Bool.or_eq_true, unchecked_iff,
    decide_eq_true_eq] at h ⊢
  have z1 : ¬ zeroUnix > s * 1000 := by unfold zeroUnix; omega
  have z2 : ¬ zeroUnix > s' * 1000 := by unfold zeroUnix; omega
  simp only [z1, z2, if_false, true_or, and_true] at h ⊢
  unfold zeroUnix at *
  by_cases ht1 : t > 1
  · simp only [ht1, if_true] at h ⊢; omega
  · simp only [ht1, if_false] at h ⊢; exact h

end J8a

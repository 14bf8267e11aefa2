import Verif.Lemmas.Utf8
import Verif.Go.Base64
import Verif.Spec.JsonText
/-!
# base64url: decoding undoes encoding
-/
namespace J8a
open Go

theorem b64Val_char (n : Nat) : b64Val (b64Char n) = some (n % 64) := by
  have h : ∀ k : Fin 64, b64Val (b64Alphabet.getD k.1 'A') = some k.1 := by decide +kernel
  exact h ⟨n % 64, Nat.mod_lt _ (by decide)⟩

theorem b64Char_plain (n : Nat) : b64Char n ≠ '\n' ∧ b64Char n ≠ '\r' ∧ b64Char n ≠ '.' := by
  have h : ∀ k : Fin 64, b64Alphabet.getD k.1 'A' ≠ '\n' ∧ b64Alphabet.getD k.1 'A' ≠ '\r' ∧
    b64Alphabet.getD k.1 'A' ≠ '.' := by decide +kernel
  exact h ⟨n % 64, Nat.mod_lt _ (by decide)⟩

theorem base64url_plain (s : Str) : ∀ c ∈ base64url s, c ≠ '\n' ∧ c ≠ '\r' ∧ c ≠ '.' := by
  induction s using base64url.induct with
  | case1 => simp [base64url]
  | case2 a => intro c hc; simp only [base64url, List.mem_cons, List.not_mem_nil, or_false] at hc
               rcases hc with rfl | rfl <;> exact b64Char_plain _
  | case3 a b => intro c hc; simp only [base64url, List.mem_cons, List.not_mem_nil, or_false] at hc
                 rcases hc with rfl | rfl | rfl <;> exact b64Char_plain _
  | case4 a b d r ih =>
    intro c hc; simp only [base64url, List.mem_cons] at hc
    rcases hc with rfl | rfl | rfl | rfl | hc
    · exact b64Char_plain _
    · exact b64Char_plain _
    · exact b64Char_plain _
    · exact b64Char_plain _
    · exact ih c hc

theorem byteChar_eq {n : Nat} {c : Char} (h : n % 256 = c.toNat) : byteChar n = c := by
  unfold byteChar
  rw [h]
  exact Char.ofNat_toNat c

theorem base64url_vals (s : Str) (hs : ∀ c ∈ s, c.toNat < 256) :
    ((base64url s).mapM b64Val).bind b64Groups = some s := by
  induction s using base64url.induct with
  | case1 => rfl
  | case2 a =>
    have ha := hs a (by simp)
    simp only [base64url, List.mapM_cons, List.mapM_nil, b64Val_char, Option.pure_def,
      Option.bind_eq_bind, Option.bind_some, b64Groups]
    rw [byteChar_eq (c := a) (by omega)]
  | case3 a b =>
    have ha := hs a (by simp)
    have hb := hs b (by simp)
    simp only [base64url, List.mapM_cons, List.mapM_nil, b64Val_char, Option.pure_def,
      Option.bind_eq_bind, Option.bind_some, b64Groups]
    rw [byteChar_eq (c := a) (by omega), byteChar_eq (c := b) (by omega)]
  | case4 a b c r ih =>
    have ha := hs a (by simp)
    have hb := hs b (by simp)
    have hc := hs c (by simp)
    have ih := ih (fun x hx => hs x (by simp [hx]))
    obtain ⟨l, hl, hg⟩ := Option.bind_eq_some_iff.1 ih
    simp only [base64url, List.mapM_cons, b64Val_char, Option.pure_def,
      Option.bind_eq_bind, Option.bind_some, hl, b64Groups, hg, Option.map_some]
    rw [byteChar_eq (c := a) (by omega), byteChar_eq (c := b) (by omega),
      byteChar_eq (c := c) (by omega)]

theorem b64Decode_base64url (s : Str) (hs : ∀ c ∈ s, c.toNat < 256) :
    b64Decode (base64url s) = some s := by
  unfold b64Decode
  rw [List.filter_eq_self.2, base64url_vals s hs]
  intro c hc
  have := base64url_plain s c hc
  simp [this.1, this.2.1]

theorem b64Val_inv {c : Char} {n : Nat} (h : b64Val c = some n) : c = b64Char n ∧ n < 64 := by
  have key : ∀ k : Fin 256, ∀ n : Nat, b64Val (Char.ofNat k) = some n → Char.ofNat k = b64Char n ∧ n < 64 := by
    have h : ∀ k : Fin 256, ((b64Val (Char.ofNat k)).all fun n => decide (Char.ofNat k = b64Char n ∧ n < 64)) = true := by
      decide +kernel
    intro k n hn
    have := h k
    rw [hn] at this
    simpa using this
  by_cases hlt : c.toNat < 256
  · have := key ⟨c.toNat, hlt⟩ n
    simp only [Char.ofNat_toNat] at this
    exact this h
  · have hgt : ∀ x : Char, x.toNat < 256 → ¬ c ≤ x := by
      intro x hx hle
      have : c.toNat ≤ x.toNat := hle
      omega
    unfold b64Val at h
    rw [if_neg (fun h => hgt 'Z' (by decide) h.2), if_neg (fun h => hgt 'z' (by decide) h.2),
      if_neg (fun h => hgt '9' (by decide) h.2), if_neg (by rintro rfl; exact hlt (by decide)),
      if_neg (by rintro rfl; exact hlt (by decide))] at h
    cases h

theorem mapM_b64Val : ∀ {s : Str} {ns : List Nat}, s.mapM b64Val = some ns → s = ns.map b64Char ∧ ∀ n ∈ ns, n < 64
  | [], ns, h => by
    cases h
    exact ⟨rfl, fun n hn => by cases hn⟩
  | c :: s, ns, h => by
    rw [List.mapM_cons] at h
    cases hc : b64Val c with
    | none => rw [hc] at h; cases h
    | some n =>
      cases hs : s.mapM b64Val with
      | none => rw [hc, hs] at h; cases h
      | some ns' =>
        rw [hc, hs] at h
        cases h
        obtain ⟨h1, h2⟩ := b64Val_inv hc
        obtain ⟨h3, h4⟩ := mapM_b64Val hs
        refine ⟨by rw [h1, h3]; rfl, fun m hm => ?_⟩
        rcases List.mem_cons.1 hm with rfl | hm
        · exact h2
        · exact h4 m hm

theorem byteChar_toNat (n : Nat) : (byteChar n).toNat = n % 256 := by
  unfold byteChar
  exact ofNat_toNat_lt (by omega)

theorem b64Groups_bits : ∀ (ns : List Nat) {bs : Str}, (∀ n ∈ ns, n < 64) → b64Groups ns = some bs →
    (∀ c ∈ bs, c.toNat < 256) ∧ ∃ extra : List Nat, ns.flatMap bits6 = bs.flatMap (fun c => bits8 c.toNat) ++ extra ∧
      extra.length < 6
  | [], bs, _, h => by
    cases h
    exact ⟨fun c hc => (by cases hc), [], rfl, Nat.zero_lt_succ 5⟩
  | [_], bs, _, h => by cases h
  | [a, b], bs, hn, h => by
    cases h
    have ha := hn a (by simp)
    have hb := hn b (by simp)
    refine ⟨fun c hc => ?_, [b / 8 % 2, b / 4 % 2, b / 2 % 2, b % 2], ?_, by simp⟩
    · simp only [List.mem_cons, List.not_mem_nil, or_false] at hc
      subst hc
      rw [byteChar_toNat]
      omega
    · simp only [List.flatMap_cons, List.flatMap_nil, bits6, bits8, byteChar_toNat, List.cons_append, List.nil_append,
        List.append_nil, List.cons.injEq, and_true]
      omega
  | [a, b, c], bs, hn, h => by
    cases h
    have ha := hn a (by simp)
    have hb := hn b (by simp)
    have hc := hn c (by simp)
    refine ⟨fun x hx => ?_, [c / 2 % 2, c % 2], ?_, by simp⟩
    · simp only [List.mem_cons, List.not_mem_nil, or_false] at hx
      rcases hx with rfl | rfl <;> rw [byteChar_toNat] <;> omega
    · simp only [List.flatMap_cons, List.flatMap_nil, bits6, bits8, byteChar_toNat, List.cons_append, List.nil_append,
        List.append_nil, List.cons.injEq, and_true]
      omega
  | a :: b :: c :: d :: ns, bs, hn, h => by
    have ha := hn a (by simp)
    have hb := hn b (by simp)
    have hc := hn c (by simp)
    have hd := hn d (by simp)
    unfold b64Groups at h
    cases hr : b64Groups ns with
    | none => rw [hr] at h; cases h
    | some r =>
      rw [hr] at h
      cases h
      obtain ⟨h1, extra, h2, h3⟩ := b64Groups_bits ns (fun n hm => hn n (by simp [hm])) hr
      refine ⟨fun x hx => ?_, extra, ?_, h3⟩
      · simp only [List.mem_cons] at hx
        rcases hx with rfl | rfl | rfl | hx
        · rw [byteChar_toNat]; omega
        · rw [byteChar_toNat]; omega
        · rw [byteChar_toNat]; omega
        · exact h1 x hx
      · simp only [List.flatMap_cons, h2, bits6, bits8, byteChar_toNat, List.cons_append, List.nil_append,
          List.cons.injEq, and_true]
        omega

/-- What is decoded is what the text stands for. -/
theorem b64Decode_sound {s bs : Str} (h : b64Decode s = some bs) : Base64Of s bs := by
  unfold b64Decode at h
  cases hm : (s.filter fun c => decide (c ≠ '\n' ∧ c ≠ '\r')).mapM b64Val with
  | none => rw [hm] at h; cases h
  | some ns =>
    rw [hm] at h
    obtain ⟨h1, h2⟩ := mapM_b64Val hm
    obtain ⟨h3, extra, h4, h5⟩ := b64Groups_bits ns h2 h
    exact ⟨ns, extra, h1, h2, h3, h4, h5⟩

end J8a

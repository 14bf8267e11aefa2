import Verif.Go.Json
import Verif.Spec.Json
/-!
# The UTF-8 decoder of the library agrees with the definition of UTF-8
-/
namespace J8a
open Go

theorem ofNat_toNat {n : Nat} (h : n.isValidChar) : (Char.ofNat n).toNat = n := by
  unfold Char.ofNat
  rw [dif_pos h]
  rfl

theorem ofNat_toNat_lt {n : Nat} (h : n < 0xd800) : (Char.ofNat n).toNat = n :=
  ofNat_toNat (.inl h)

theorem char_valid (u : Char) : u.toNat < 0xd800 ∨ (0xdfff < u.toNat ∧ u.toNat < 0x110000) := u.valid

/-- A character from the number the bytes denote. -/
theorem exists_char {n : Nat} (h : n < 0xd800 ∨ (0xdfff < n ∧ n < 0x110000)) :
    ∃ u : Char, u.toNat = n := ⟨Char.ofNat n, ofNat_toNat h⟩

theorem eq_ofNat {c : Char} {n : Nat} (h : c.toNat = n) : c = Char.ofNat n := by
  rw [← h, Char.ofNat_toNat]

theorem inRange_iff {lo hi : Nat} {c : Char} : inRange lo hi c = true ↔ lo ≤ c.toNat ∧ c.toNat ≤ hi := by
  unfold inRange; simp

theorem inRange_second {a b : Char} : inRange (secondLo a) (secondHi a) b = true ↔
    0x80 ≤ b.toNat ∧ b.toNat ≤ 0xbf ∧ (a.toNat = 0xe0 → 0xa0 ≤ b.toNat) ∧
      (a.toNat = 0xf0 → 0x90 ≤ b.toNat) ∧ (a.toNat = 0xed → b.toNat ≤ 0x9f) ∧
      (a.toNat = 0xf4 → b.toNat ≤ 0x8f) := by
  rw [inRange_iff]
  unfold secondLo secondHi
  by_cases h1 : a.toNat = 0xe0
  · simp [h1]; omega
  by_cases h2 : a.toNat = 0xf0
  · simp [h2]; omega
  by_cases h3 : a.toNat = 0xed
  · simp [h3]; omega
  by_cases h4 : a.toNat = 0xf4
  · simp [h4]; omega
  simp [h1, h2, h3, h4]

theorem utf8Char_one {u : Char} (h : u.toNat < 0x80) : utf8Char u = [u] := by
  unfold utf8Char
  simp [h]

theorem utf8Char_two {u a b : Char} (ha : 0xc2 ≤ a.toNat ∧ a.toNat ≤ 0xdf)
    (hb : 0x80 ≤ b.toNat ∧ b.toNat ≤ 0xbf)
    (hu : u.toNat = (a.toNat - 0xc0) * 64 + (b.toNat - 0x80)) : utf8Char u = [a, b] := by
  unfold utf8Char
  simp only [hu]
  rw [if_neg (by omega), if_pos (by omega), ← eq_ofNat (c := a) (by omega),
    ← eq_ofNat (c := b) (by omega)]

theorem utf8Char_three {u a b c : Char} (ha : 0xe0 ≤ a.toNat ∧ a.toNat ≤ 0xef)
    (hb : 0x80 ≤ b.toNat ∧ b.toNat ≤ 0xbf) (hc : 0x80 ≤ c.toNat ∧ c.toNat ≤ 0xbf)
    (h2 : a.toNat = 0xe0 → 0xa0 ≤ b.toNat)
    (hu : u.toNat = (a.toNat - 0xe0) * 4096 + (b.toNat - 0x80) * 64 + (c.toNat - 0x80)) :
    utf8Char u = [a, b, c] := by
  unfold utf8Char
  simp only [hu]
  rw [if_neg (by omega), if_neg (by omega), if_pos (by omega), ← eq_ofNat (c := a) (by omega),
    ← eq_ofNat (c := b) (by omega), ← eq_ofNat (c := c) (by omega)]

theorem utf8Char_four {u a b c d : Char} (ha : 0xf0 ≤ a.toNat ∧ a.toNat ≤ 0xf4)
    (hb : 0x80 ≤ b.toNat ∧ b.toNat ≤ 0xbf) (hc : 0x80 ≤ c.toNat ∧ c.toNat ≤ 0xbf)
    (hd : 0x80 ≤ d.toNat ∧ d.toNat ≤ 0xbf) (h2 : a.toNat = 0xf0 → 0x90 ≤ b.toNat)
    (hu : u.toNat = (a.toNat - 0xf0) * 262144 + (b.toNat - 0x80) * 4096 + (c.toNat - 0x80) * 64 +
      (d.toNat - 0x80)) : utf8Char u = [a, b, c, d] := by
  unfold utf8Char
  simp only [hu]
  rw [if_neg (by omega), if_neg (by omega), if_neg (by omega), ← eq_ofNat (c := a) (by omega),
    ← eq_ofNat (c := b) (by omega), ← eq_ofNat (c := c) (by omega), ← eq_ofNat (c := d) (by omega)]

/-- What the decoder accepts is a character. -/
theorem runeSize_sound {s : Str} {k : Nat} (h : runeSize s = some k) :
    ∃ u r, s = utf8Char u ++ r ∧ k = (utf8Char u).length := by
  have fin : ∀ {u : Char} {l r : Str}, utf8Char u = l → k = l.length →
      ∃ u r', l ++ r = utf8Char u ++ r' ∧ k = (utf8Char u).length := by
    intro u l r h1 h2
    exact ⟨u, r, by rw [h1], by rw [h1, h2]⟩
  unfold runeSize at h
  split at h
  · cases h
  rename_i a s
  split at h
  · rename_i ha
    rw [inRange_iff] at ha
    cases h
    exact fin (u := a) (l := [a]) (utf8Char_one (by omega)) rfl
  split at h
  · rename_i ha
    rw [inRange_iff] at ha
    split at h
    · rename_i b r
      split at h
      · rename_i hb
        rw [inRange_iff] at hb
        cases h
        obtain ⟨u, hu⟩ := exists_char (n := (a.toNat - 0xc0) * 64 + (b.toNat - 0x80)) (by omega)
        exact fin (l := [a, b]) (utf8Char_two ha hb hu) rfl
      · cases h
    · cases h
  split at h
  · rename_i ha
    rw [inRange_iff] at ha
    split at h
    · rename_i b c r
      split at h
      · rename_i hb
        rw [Bool.and_eq_true, inRange_second, inRange_iff] at hb
        cases h
        obtain ⟨u, hu⟩ := exists_char
          (n := (a.toNat - 0xe0) * 4096 + (b.toNat - 0x80) * 64 + (c.toNat - 0x80)) (by omega)
        exact fin (l := [a, b, c]) (utf8Char_three ha (by omega) hb.2 (by omega) hu) rfl
      · cases h
    · cases h
  split at h
  · rename_i ha
    rw [inRange_iff] at ha
    split at h
    · rename_i b c d r
      split at h
      · rename_i hb
        rw [Bool.and_eq_true, Bool.and_eq_true, inRange_second, inRange_iff, inRange_iff] at hb
        cases h
        obtain ⟨u, hu⟩ := exists_char
          (n := (a.toNat - 0xf0) * 262144 + (b.toNat - 0x80) * 4096 + (c.toNat - 0x80) * 64 +
            (d.toNat - 0x80)) (by omega)
        exact fin (l := [a, b, c, d]) (utf8Char_four ha (by omega) hb.1.2 hb.2 (by omega) hu) rfl
      · cases h
    · cases h
  · cases h

/-- Every character is accepted. -/
theorem runeSize_complete (u : Char) (r : Str) :
    runeSize (utf8Char u ++ r) = some (utf8Char u).length := by
  have hv := char_valid u
  unfold utf8Char
  dsimp only
  split
  · have ha : (Char.ofNat u.toNat).toNat = u.toNat := ofNat_toNat_lt (by omega)
    simp only [List.cons_append, List.nil_append, runeSize]
    rw [if_pos (by rw [inRange_iff, ha]; omega)]
    rfl
  split
  · have ha : (Char.ofNat (0xc0 + u.toNat / 64)).toNat = _ := ofNat_toNat_lt (by omega)
    have hb : (Char.ofNat (0x80 + u.toNat % 64)).toNat = _ := ofNat_toNat_lt (by omega)
    simp only [List.cons_append, List.nil_append, runeSize]
    rw [if_neg (by rw [inRange_iff, ha]; omega), if_pos (by rw [inRange_iff, ha]; omega),
      if_pos (by rw [inRange_iff, hb]; omega)]
    rfl
  split
  · have ha : (Char.ofNat (0xe0 + u.toNat / 4096)).toNat = _ := ofNat_toNat_lt (by omega)
    have hb : (Char.ofNat (0x80 + u.toNat / 64 % 64)).toNat = _ := ofNat_toNat_lt (by omega)
    have hc : (Char.ofNat (0x80 + u.toNat % 64)).toNat = _ := ofNat_toNat_lt (by omega)
    simp only [List.cons_append, List.nil_append, runeSize]
    rw [if_neg (by rw [inRange_iff, ha]; omega), if_neg (by rw [inRange_iff, ha]; omega),
      if_pos (by rw [inRange_iff, ha]; omega),
      if_pos (by rw [Bool.and_eq_true, inRange_second, inRange_iff, ha, hb, hc]; omega)]
    rfl
  · have ha : (Char.ofNat (0xf0 + u.toNat / 262144)).toNat = _ := ofNat_toNat_lt (by omega)
    have hb : (Char.ofNat (0x80 + u.toNat / 4096 % 64)).toNat = _ := ofNat_toNat_lt (by omega)
    have hc : (Char.ofNat (0x80 + u.toNat / 64 % 64)).toNat = _ := ofNat_toNat_lt (by omega)
    have hd : (Char.ofNat (0x80 + u.toNat % 64)).toNat = _ := ofNat_toNat_lt (by omega)
    simp only [List.cons_append, List.nil_append, runeSize]
    rw [if_neg (by rw [inRange_iff, ha]; omega), if_neg (by rw [inRange_iff, ha]; omega),
      if_neg (by rw [inRange_iff, ha]; omega), if_pos (by rw [inRange_iff, ha]; omega),
      if_pos (by
        rw [Bool.and_eq_true, Bool.and_eq_true, inRange_second, inRange_iff, inRange_iff, ha, hb, hc, hd]
        omega)]
    rfl

theorem utf8Char_ne_nil (u : Char) : utf8Char u ≠ [] := by
  unfold utf8Char
  dsimp only
  repeat' split
  all_goals simp

/-- The number of a character from its bytes. -/
def runeOf : Str → Nat
  | [a] => a.toNat
  | [a, b] => (a.toNat - 0xc0) * 64 + (b.toNat - 0x80)
  | [a, b, c] => (a.toNat - 0xe0) * 4096 + (b.toNat - 0x80) * 64 + (c.toNat - 0x80)
  | [a, b, c, d] => (a.toNat - 0xf0) * 262144 + (b.toNat - 0x80) * 4096 +
      (c.toNat - 0x80) * 64 + (d.toNat - 0x80)
  | _ => 0

theorem runeOf_utf8Char (u : Char) : runeOf (utf8Char u) = u.toNat := by
  have hv := char_valid u
  by_cases h1 : u.toNat < 0x80
  · exact congrArg runeOf (utf8Char_one h1)
  by_cases h2 : u.toNat < 0x800
  · have ha : (Char.ofNat (0xc0 + u.toNat / 64)).toNat = _ := ofNat_toNat_lt (by omega)
    have hb : (Char.ofNat (0x80 + u.toNat % 64)).toNat = _ := ofNat_toNat_lt (by omega)
    have he : utf8Char u = [Char.ofNat (0xc0 + u.toNat / 64), Char.ofNat (0x80 + u.toNat % 64)] := by
      unfold utf8Char
      simp only [h1, h2, if_false, if_true]
    generalize Char.ofNat (0xc0 + u.toNat / 64) = a at *
    generalize Char.ofNat (0x80 + u.toNat % 64) = b at *
    refine (congrArg runeOf he).trans ?_
    show (a.toNat - 0xc0) * 64 + (b.toNat - 0x80) = _
    omega
  by_cases h3 : u.toNat < 0x10000
  · have ha : (Char.ofNat (0xe0 + u.toNat / 4096)).toNat = _ := ofNat_toNat_lt (by omega)
    have hb : (Char.ofNat (0x80 + u.toNat / 64 % 64)).toNat = _ := ofNat_toNat_lt (by omega)
    have hc : (Char.ofNat (0x80 + u.toNat % 64)).toNat = _ := ofNat_toNat_lt (by omega)
    have he : utf8Char u = [Char.ofNat (0xe0 + u.toNat / 4096), Char.ofNat (0x80 + u.toNat / 64 % 64),
        Char.ofNat (0x80 + u.toNat % 64)] := by
      unfold utf8Char
      simp only [h1, h2, h3, if_false, if_true]
    generalize Char.ofNat (0xe0 + u.toNat / 4096) = a at *
    generalize Char.ofNat (0x80 + u.toNat / 64 % 64) = b at *
    generalize Char.ofNat (0x80 + u.toNat % 64) = c at *
    refine (congrArg runeOf he).trans ?_
    show (a.toNat - 0xe0) * 4096 + (b.toNat - 0x80) * 64 + (c.toNat - 0x80) = _
    omega
  · have ha : (Char.ofNat (0xf0 + u.toNat / 262144)).toNat = _ := ofNat_toNat_lt (by omega)
    have hb : (Char.ofNat (0x80 + u.toNat / 4096 % 64)).toNat = _ := ofNat_toNat_lt (by omega)
    have hc : (Char.ofNat (0x80 + u.toNat / 64 % 64)).toNat = _ := ofNat_toNat_lt (by omega)
    have hd : (Char.ofNat (0x80 + u.toNat % 64)).toNat = _ := ofNat_toNat_lt (by omega)
    have he : utf8Char u = [Char.ofNat (0xf0 + u.toNat / 262144),
        Char.ofNat (0x80 + u.toNat / 4096 % 64), Char.ofNat (0x80 + u.toNat / 64 % 64),
        Char.ofNat (0x80 + u.toNat % 64)] := by
      unfold utf8Char
      simp only [h1, h2, h3, if_false]
    generalize Char.ofNat (0xf0 + u.toNat / 262144) = a at *
    generalize Char.ofNat (0x80 + u.toNat / 4096 % 64) = b at *
    generalize Char.ofNat (0x80 + u.toNat / 64 % 64) = c at *
    generalize Char.ofNat (0x80 + u.toNat % 64) = d at *
    refine (congrArg runeOf he).trans ?_
    show (a.toNat - 0xf0) * 262144 + (b.toNat - 0x80) * 4096 + (c.toNat - 0x80) * 64 +
      (d.toNat - 0x80) = _
    omega

/-- The bytes determine the character. -/
theorem utf8Char_inj {u v : Char} (h : utf8Char u = utf8Char v) : u = v := by
  have h1 := runeOf_utf8Char u
  have h2 := runeOf_utf8Char v
  rw [h] at h1
  exact Char.toNat_inj.1 (h1.symm.trans h2)

/-- UTF-8 is a prefix code. -/
theorem utf8Char_cancel {u v : Char} {r s : Str} (h : utf8Char u ++ r = utf8Char v ++ s) :
    u = v ∧ r = s := by
  have hl : (utf8Char u).length = (utf8Char v).length := by
    have h1 := runeSize_complete u r
    rw [h, runeSize_complete v s] at h1
    simpa using h1.symm
  have := List.append_inj h hl
  exact ⟨utf8Char_inj this.1, this.2⟩

theorem utf8_ascii {t : List Char} (h : ∀ c ∈ t, c.toNat < 0x80) : utf8 t = t := by
  induction t with
  | nil => rfl
  | cons c t ih =>
    show utf8Char c ++ utf8 t = _
    rw [utf8Char_one (h c (by simp)), ih (fun d hd => h d (by simp [hd]))]
    rfl

theorem utf8_append (s t : List Char) : utf8 (s ++ t) = utf8 s ++ utf8 t := by
  unfold utf8; exact List.flatMap_append

theorem utf8_cons (u : Char) (t : List Char) : utf8 (u :: t) = utf8Char u ++ utf8 t := rfl

end J8a

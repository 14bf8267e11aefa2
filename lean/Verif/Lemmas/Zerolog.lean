import Verif.Lemmas.Json
import Verif.Model.Logger
/-!
# What zerolog writes can be read back, and is one line
-/
namespace J8a
open Go

/-- One ASCII byte. -/
theorem zAscii_spec {c : Char} (hc : c.toNat < 0x80) :
    utf8 (zAscii c) = zAscii c ∧ ∀ r v r', Json.string r = some (v, r') →
      Json.string (zAscii c ++ r) = some (c :: v, r') := by
  unfold zAscii
  split
  · rename_i h
    refine ⟨utf8_ascii ?_, fun r v r' hr => string_escape ?_ hr⟩
    · intro d hd
      rcases h with rfl | rfl <;> simp at hd <;> rcases hd with rfl | rfl <;> decide
    · rcases h with rfl | rfl <;> rfl
  split
  · rename_i h
    rw [eq_ofNat h]
    exact ⟨by decide, fun r v r' hr => string_escape rfl hr⟩
  split
  · rename_i h
    rw [eq_ofNat h]
    exact ⟨by decide, fun r v r' hr => string_escape rfl hr⟩
  split
  · rename_i h
    subst h
    exact ⟨by decide, fun r v r' hr => string_escape rfl hr⟩
  split
  · rename_i h
    subst h
    exact ⟨by decide, fun r v r' hr => string_escape rfl hr⟩
  split
  · rename_i h
    subst h
    exact ⟨by decide, fun r v r' hr => string_escape rfl hr⟩
  split
  · refine ⟨utf8_ascii ?_, fun r v r' hr => string_hex (hex4_ascii hc) hr⟩
    intro d hd
    simp only [List.mem_append, List.mem_cons, List.not_mem_nil, or_false] at hd
    rcases hd with hd | rfl | rfl
    · revert d; decide
    · exact hexDigit_ascii (by omega)
    · exact hexDigit_ascii (by omega)
  · rename_i h1 _ _ _ _ _ h2
    refine ⟨utf8_ascii (by simpa using hc), fun r v r' hr => string_plain ?_ ?_ ?_ hr⟩
    · exact fun h => h1 (.inr h)
    · exact fun h => h1 (.inl h)
    · exact Nat.le_of_not_lt fun h => h2 (.inl h)

/-- A control character; a line break is one. -/
def IsCtl (c : Char) : Prop := c.toNat < 0x20 ∨ c.toNat = 0x7f

theorem hexDigit_plain {n : Nat} (h : n < 16) : ¬ IsCtl (hexDigit n) := by
  have : ∀ n : Fin 16, ¬ ((hexDigit n.val).toNat < 0x20 ∨ (hexDigit n.val).toNat = 0x7f) := by decide
  exact this ⟨n, h⟩

theorem zAscii_noCtl {c : Char} (hc : c.toNat < 0x80) : ∀ d ∈ zAscii c, ¬ IsCtl d := by
  have hp : ∀ d ∈ ['\\', '"', 'b', 'f', 'n', 'r', 't', 'u', '0'], ¬ IsCtl d := by
    unfold IsCtl; decide
  intro d hd
  unfold zAscii at hd
  split at hd
  · rename_i h
    apply hp
    rcases h with rfl | rfl <;> simp only [List.mem_cons, List.not_mem_nil, or_false] at hd <;>
      rcases hd with rfl | rfl <;> decide
  split at hd
  · apply hp
    revert d; decide
  split at hd
  · apply hp
    revert d; decide
  split at hd
  · apply hp
    revert d; decide
  split at hd
  · apply hp
    revert d; decide
  split at hd
  · apply hp
    revert d; decide
  split at hd
  · simp only [List.mem_append, List.mem_cons, List.not_mem_nil, or_false] at hd
    rcases hd with hd | rfl | rfl
    · apply hp
      revert d; decide
    · exact hexDigit_plain (by omega)
    · exact hexDigit_plain (by omega)
  · rename_i h
    simp only [List.mem_singleton] at hd
    rw [hd]
    exact h

/-- The content of a string literal: it is UTF-8 for a text that reads back; what is read is the
string if that was UTF-8. -/
theorem zEscape_spec : ∀ (n : Nat) (s : Str), s.length ≤ n → ∃ text val,
    zEscape n s = utf8 text ∧ (∀ r, Json.string (text ++ '"' :: r) = some (val, r)) ∧
    (∀ cs, s = utf8 cs → val = cs) ∧ (s ≠ [] → val ≠ []) := by
  intro n
  induction n with
  | zero =>
    intro s hs
    have : s = [] := List.length_eq_zero_iff.1 (by omega)
    subst this
    refine ⟨[], [], rfl, fun r => string_quote r, fun cs hcs => ?_, fun h => absurd rfl h⟩
    cases cs with
    | nil => rfl
    | cons u t =>
      have := congrArg List.length hcs
      have h2 := List.length_pos_iff.2 (utf8Char_ne_nil u)
      simp [utf8_cons] at this
      omega
  | succ n ih =>
    intro s hs
    cases s with
    | nil =>
      refine ⟨[], [], rfl, fun r => string_quote r, fun cs hcs => ?_, fun h => absurd rfl h⟩
      cases cs with
      | nil => rfl
      | cons u t =>
        have := congrArg List.length hcs
        have h2 := List.length_pos_iff.2 (utf8Char_ne_nil u)
        simp [utf8_cons] at this
        omega
    | cons c s =>
      simp only [List.length_cons] at hs
      rw [zEscape]
      split
      · rename_i hn
        obtain ⟨t, v, h1, h2, h3, h4⟩ := ih s (by omega)
        refine ⟨"\\ufffd".toList ++ t, Char.ofNat 0xfffd :: v, ?_, ?_, ?_, by simp⟩
        · rw [utf8_append, ← h1, utf8_ascii (by decide)]
        · intro r
          exact string_hex (by decide) (h2 r)
        · intro cs hcs
          cases cs with
          | nil => cases hcs
          | cons u t => rw [hcs, utf8_cons, runeSize_complete] at hn; cases hn
      · rename_i k hk
        split
        · rename_i h1
          subst h1
          have hc := runeSize_one hk
          obtain ⟨t, v, h1, h2, h3, h4⟩ := ih s (by omega)
          obtain ⟨ha, hb⟩ := zAscii_spec hc
          refine ⟨zAscii c ++ t, c :: v, ?_, ?_, ?_, by simp⟩
          · rw [utf8_append, ← h1, ha]
          · intro r
            rw [List.append_assoc]
            exact hb _ _ _ (h2 r)
          · intro cs hcs
            cases cs with
            | nil => cases hcs
            | cons u t' =>
              rw [utf8_cons, ← List.singleton_append, ← utf8Char_one hc] at hcs
              obtain ⟨rfl, hcs'⟩ := utf8Char_cancel hcs
              rw [h3 _ hcs']
        · rename_i hne
          obtain ⟨u, r0, hs0, hk0⟩ := runeSize_sound hk
          have hu : 0x80 ≤ u.toNat := by
            apply Nat.le_of_not_lt
            intro hlt
            rw [utf8Char_one hlt] at hk0
            exact hne hk0
          have hlen : r0.length ≤ n := by
            have := congrArg List.length hs0
            have h2 := List.length_pos_iff.2 (utf8Char_ne_nil u)
            simp only [List.length_cons, List.length_append] at this
            omega
          obtain ⟨t, v, h1, h2, h3, h4⟩ := ih r0 hlen
          have hfin : ∀ cs, c :: s = utf8 cs → u :: v = cs := by
            intro cs hcs
            cases cs with
            | nil => cases hcs
            | cons u' t' =>
              rw [hs0, utf8_cons] at hcs
              obtain ⟨rfl, hcs'⟩ := utf8Char_cancel hcs
              rw [h3 _ hcs']
          refine ⟨u :: t, u :: v, ?_, ?_, hfin, by simp⟩
          · rw [hs0, hk0, List.take_left, List.drop_left, utf8_cons, h1]
          · intro r
            refine string_plain ?_ ?_ (by omega) (h2 r)
            · rintro rfl; exact absurd hu (by decide)
            · rintro rfl; exact absurd hu (by decide)

/-- What is read for a field. -/
def ZReads : ZVal → Json.Value → Prop
  | .str s, .str v => (∀ cs, s = utf8 cs → v = cs) ∧ (s ≠ [] → v ≠ [])
  | .int n, .int m => n = m
  | .bool a, .bool b => a = b
  | _, _ => False

theorem zString_spec (s : Str) : ∃ text val, zString s = utf8 ('"' :: text) ∧
    (∀ r, Json.string (text ++ r) = some (val, r)) ∧
    (∀ cs, s = utf8 cs → val = cs) ∧ (s ≠ [] → val ≠ []) := by
  obtain ⟨t, v, h1, h2, h3, h4⟩ := zEscape_spec s.length s (Nat.le_refl _)
  refine ⟨t ++ ['"'], v, ?_, ?_, h3, h4⟩
  · unfold zString
    rw [utf8_cons, utf8_append, ← h1, utf8_ascii (t := ['"']) (by decide),
      utf8Char_one (u := '"') (by decide)]
    rfl
  · intro r
    rw [List.append_assoc]
    exact h2 r

theorem zVal_spec (f : ZVal) : ∃ text val, zVal f = utf8 text ∧ text ≠ [] ∧
    (∀ c r, c.isDigit = false → Json.value (text ++ c :: r) = some (val, c :: r)) ∧ ZReads f val := by
  cases f with
  | str s =>
    obtain ⟨t, v, h1, h2, h3, h4⟩ := zString_spec s
    refine ⟨_, .str v, h1, by simp, fun c r _ => ?_, h3, h4⟩
    show Json.value ('"' :: (t ++ c :: r)) = _
    unfold Json.value
    simp only [h2, Option.map_some]
  | int n =>
    refine ⟨itoa n, .int n, (itoa_ascii n).symm, ?_, fun c r hc => value_itoa n hc r, rfl⟩
    cases n with
    | ofNat n => exact natToDec_ne_nil n
    | negSucc n => simp [itoa]
  | bool b =>
    refine ⟨zVal (.bool b), .bool b, ?_, ?_, fun c r _ => ?_, rfl⟩
    · cases b <;> decide
    · cases b <;> decide
    · cases b <;> rfl

/-- The fields and what is read for them. -/
inductive ZReadsAll : List (Str × ZVal) → List (List Char × Json.Value) → Prop where
  | nil : ZReadsAll [] []
  | cons {k : Str} {f : ZVal} {v : Json.Value} {fs vs} : ZReads f v → ZReadsAll fs vs →
      ZReadsAll ((k, f) :: fs) ((k, v) :: vs)

theorem zmembers_spec : ∀ (fields : List (Str × ZVal)), fields ≠ [] →
    (∀ f ∈ fields, ∀ c ∈ f.1, c.toNat < 0x80) → ∃ text vals,
    join [','] (fields.map fun f => zString f.1 ++ ':' :: zVal f.2) = utf8 text ∧
    fields.length ≤ text.length ∧
    (∀ n r, fields.length ≤ n → Json.members n (text ++ '}' :: r) = some (vals, r)) ∧
    ZReadsAll fields vals := by
  intro fields
  induction fields with
  | nil => intro h; exact absurd rfl h
  | cons f fs ih =>
    intro _ hk
    obtain ⟨k, f⟩ := f
    obtain ⟨kt, kv, k1, k2, k3, k4⟩ := zString_spec k
    obtain ⟨vt, vv, v1, v2, v3, v4⟩ := zVal_spec f
    have hkv : kv = k := k3 k (utf8_ascii (hk (k, f) (by simp))).symm
    subst hkv
    have hcolon : utf8 ('"' :: kt ++ ':' :: vt) = zString kv ++ ':' :: zVal f := by
      rw [utf8_append, utf8_cons ':', k1, v1, utf8Char_one (u := ':') (by decide)]
      rfl
    cases fs with
    | nil =>
      refine ⟨'"' :: kt ++ ':' :: vt, [(kv, vv)], ?_, by simp, ?_, .cons v4 .nil⟩
      · rw [hcolon]; rfl
      · intro n r hn
        cases n with
        | zero => simp at hn
        | succ n =>
          show Json.members (n + 1) ('"' :: (kt ++ ':' :: vt ++ '}' :: r)) = _
          simp only [Json.members, List.append_assoc, k2, bind, Option.bind, List.cons_append,
            v3 '}' r (by decide)]
    | cons g gs =>
      obtain ⟨t, vals, t1, t2, t3, t4⟩ := ih (by simp) (fun f hf => hk f (by simp [hf]))
      refine ⟨'"' :: kt ++ ':' :: vt ++ ',' :: t, (kv, vv) :: vals, ?_, ?_, ?_, .cons v4 t4⟩
      · rw [utf8_append, hcolon, utf8_cons ',', ← t1, utf8Char_one (u := ',') (by decide)]
        simp [join]
      · simp only [List.length_cons, List.length_append] at t2 ⊢
        omega
      · intro n r hn
        cases n with
        | zero => simp at hn
        | succ n =>
          have hlen : (g :: gs).length ≤ n := by simpa using hn
          have := t3 n r hlen
          show Json.members (n + 1) ('"' :: (kt ++ ':' :: vt ++ ',' :: t ++ '}' :: r)) = _
          simp only [Json.members, List.append_assoc, k2, bind, Option.bind, List.cons_append,
            v3 ',' _ (by decide), this, pure]

/-- The text of an object reads back. -/
theorem zObject_spec (fields : List (Str × ZVal)) (hne : fields ≠ [])
    (hk : ∀ f ∈ fields, ∀ c ∈ f.1, c.toNat < 0x80) : ∃ text vals,
    zObject fields = utf8 text ∧ Json.parse text = some vals ∧ ZReadsAll fields vals := by
  obtain ⟨t, vals, h1, h2, h3, h4⟩ := zmembers_spec fields hne hk
  refine ⟨'{' :: t ++ ['}'], vals, ?_, ?_, h4⟩
  · unfold zObject
    rw [utf8_append, utf8_cons, ← h1, utf8Char_one (u := '{') (by decide),
      utf8_ascii (t := ['}']) (by decide)]
    rfl
  · have := h3 (t ++ ['}']).length [] (by simp; omega)
    cases t with
    | nil =>
      exfalso
      have : fields.length = 0 := by simpa using h2
      exact hne (List.length_eq_zero_iff.1 this)
    | cons c t =>
      have hc : c ≠ '}' := by
        rintro rfl
        simp only [List.cons_append, List.length_cons, Json.members] at this
        cases this
      simp only [List.cons_append] at this ⊢
      unfold Json.parse
      split
      · rename_i heq
        exact absurd (List.cons.inj (List.cons.inj heq).2).1 hc
      · rename_i heq
        cases heq
        rw [this]
      · rename_i h
        exact (h _ rfl).elim

/-! ## One line -/

theorem utf8Char_high {u : Char} (h : 0x80 ≤ u.toNat) : ∀ d ∈ utf8Char u, 0x80 ≤ d.toNat ∧ d.toNat < 0x100 := by
  have hv := char_valid u
  intro d hd
  unfold utf8Char at hd
  simp only at hd
  split at hd
  · omega
  split at hd
  · simp only [List.mem_cons, List.not_mem_nil, or_false] at hd
    rcases hd with rfl | rfl <;> rw [ofNat_toNat_lt (by omega)] <;> omega
  split at hd
  · simp only [List.mem_cons, List.not_mem_nil, or_false] at hd
    rcases hd with rfl | rfl | rfl <;> rw [ofNat_toNat_lt (by omega)] <;> omega
  · simp only [List.mem_cons, List.not_mem_nil, or_false] at hd
    rcases hd with rfl | rfl | rfl | rfl <;> rw [ofNat_toNat_lt (by omega)] <;> omega

theorem zEscape_noCtl : ∀ (n : Nat) (s : Str), ∀ d ∈ zEscape n s, ¬ IsCtl d := by
  intro n
  induction n with
  | zero => intro s d hd; simp [zEscape] at hd
  | succ n ih =>
    intro s d hd
    cases s with
    | nil => simp [zEscape] at hd
    | cons c s =>
      rw [zEscape] at hd
      split at hd
      · rw [List.mem_append] at hd
        rcases hd with hd | hd
        · have : ∀ d ∈ "\\ufffd".toList, ¬ (d.toNat < 0x20 ∨ d.toNat = 0x7f) := by decide
          exact this d hd
        · exact ih _ d hd
      · rename_i k hk
        split at hd
        · rename_i h1
          subst h1
          rw [List.mem_append] at hd
          rcases hd with hd | hd
          · exact zAscii_noCtl (runeSize_one hk) d hd
          · exact ih _ d hd
        · rename_i hne
          obtain ⟨u, r0, hs0, hk0⟩ := runeSize_sound hk
          have hu : 0x80 ≤ u.toNat := by
            apply Nat.le_of_not_lt
            intro hlt
            rw [utf8Char_one hlt] at hk0
            exact hne hk0
          rw [hs0, hk0, List.take_left, List.drop_left, List.mem_append] at hd
          rcases hd with hd | hd
          · have := utf8Char_high hu d hd
            unfold IsCtl
            omega
          · exact ih _ d hd

theorem zString_noCtl (s : Str) : ∀ d ∈ zString s, ¬ IsCtl d := by
  intro d hd
  unfold zString at hd
  simp only [List.cons_append, List.mem_cons, List.mem_append, List.not_mem_nil, or_false] at hd
  rcases hd with rfl | hd | rfl
  · unfold IsCtl; decide
  · exact zEscape_noCtl _ _ d hd
  · unfold IsCtl; decide

theorem itoa_noCtl (n : Int) : ∀ d ∈ itoa n, ¬ IsCtl d := by
  have hdig : ∀ d : Char, d.isDigit = true → ¬ IsCtl d := by
    intro d hd
    have : 48 ≤ d.toNat ∧ d.toNat ≤ 57 := by
      simp only [Char.isDigit, Bool.and_eq_true, decide_eq_true_eq] at hd
      exact hd
    unfold IsCtl
    omega
  intro d hd
  cases n with
  | ofNat n => exact hdig d (natToDec_isDigit hd)
  | negSucc n =>
    simp only [itoa, List.mem_cons] at hd
    rcases hd with rfl | hd
    · unfold IsCtl; decide
    · exact hdig d (natToDec_isDigit hd)

theorem zVal_noCtl (v : ZVal) : ∀ d ∈ zVal v, ¬ IsCtl d := by
  cases v with
  | str s => exact zString_noCtl s
  | int n => exact itoa_noCtl n
  | bool b => cases b <;> (unfold IsCtl; decide)

theorem mem_join {sep : Str} {c : Char} : ∀ {l : List Str}, c ∈ join sep l → c ∈ sep ∨ ∃ x ∈ l, c ∈ x
  | [], h => by simp [join] at h
  | [x], h => .inr ⟨x, by simp, by simpa [join] using h⟩
  | x :: y :: l, h => by
    simp only [join, List.mem_append] at h
    rcases h with (h | h) | h
    · exact .inr ⟨x, by simp, h⟩
    · exact .inl h
    · rcases mem_join h with h | ⟨z, hz, h⟩
      · exact .inl h
      · exact .inr ⟨z, by simp [hz], h⟩

theorem zObject_noCtl (fields : List (Str × ZVal)) : ∀ d ∈ zObject fields, ¬ IsCtl d := by
  intro d hd
  unfold zObject at hd
  simp only [List.cons_append, List.mem_cons, List.mem_append, List.not_mem_nil, or_false] at hd
  rcases hd with rfl | hd | rfl
  · unfold IsCtl; decide
  · rcases mem_join hd with hd | ⟨x, hx, hd⟩
    · simp only [List.mem_cons, List.not_mem_nil, or_false] at hd
      subst hd
      unfold IsCtl; decide
    · rw [List.mem_map] at hx
      obtain ⟨f, -, rfl⟩ := hx
      simp only [List.mem_append, List.mem_cons] at hd
      rcases hd with hd | rfl | hd
      · exact zString_noCtl _ d hd
      · unfold IsCtl; decide
      · exact zVal_noCtl _ d hd
  · unfold IsCtl; decide

end J8a

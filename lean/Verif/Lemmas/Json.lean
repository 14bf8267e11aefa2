import Verif.Lemmas.Utf8
import Verif.Lemmas.Num
/-!
# What `encoding/json` writes can be read back
-/
namespace J8a
open Go

theorem runeSize_one {c : Char} {s : Str} (h : runeSize (c :: s) = some 1) : c.toNat < 0x80 := by
  unfold runeSize at h
  simp only at h
  split at h
  · rename_i ha
    rw [inRange_iff] at ha
    omega
  · repeat' split at h
    all_goals cases h

/-- A character that stands for itself. -/
theorem string_plain {c : Char} (h1 : c ≠ '"') (h2 : c ≠ '\\') (h3 : 0x20 ≤ c.toNat)
    {r v r' : List Char} (h : Json.string r = some (v, r')) :
    Json.string (c :: r) = some (c :: v, r') := by
  rw [Json.string.eq_def]
  split
  · rename_i heq; cases heq
  · rename_i heq; cases heq; exact absurd rfl h2
  · rename_i heq; cases heq; exact absurd rfl h2
  · rename_i heq; cases heq
    rw [if_neg h1, if_neg (fun hh => hh.elim h2 fun hh => by omega), h]

theorem string_quote (r : List Char) : Json.string ('"' :: r) = some ([], r) := by
  rw [Json.string.eq_def]
  split
  · rename_i heq; cases heq
  · rename_i heq; cases heq
  · rename_i heq; cases heq
  · rename_i heq; cases heq
    rw [if_pos rfl]

theorem string_escape {e u : Char} (he : Json.escape e = some u) {r v r' : List Char}
    (h : Json.string r = some (v, r')) : Json.string ('\\' :: e :: r) = some (u :: v, r') := by
  have hu : e ≠ 'u' := by rintro rfl; cases he
  rw [Json.string.eq_def]
  split
  · rename_i heq; cases heq
  · rename_i heq; cases heq; exact absurd rfl hu
  · rename_i heq; cases heq
    rw [he, h]
  · rename_i h1 h2 heq; cases heq
    exact (h2 _ _ rfl rfl).elim

theorem string_hex {a b c d u : Char} (he : Json.hex4 a b c d = some u) {r v r' : List Char}
    (h : Json.string r = some (v, r')) :
    Json.string ('\\' :: 'u' :: a :: b :: c :: d :: r) = some (u :: v, r') := by
  rw [Json.string.eq_def]
  simp only [he, h]

theorem hex4_ascii {c : Char} (h : c.toNat < 0x80) :
    Json.hex4 '0' '0' (hexDigit (c.toNat / 16)) (hexDigit (c.toNat % 16)) = some c := by
  have : ∀ n : Fin 128, Json.hex4 '0' '0' (hexDigit (n.val / 16)) (hexDigit (n.val % 16)) =
      some (Char.ofNat n.val) := by decide
  have h' := this ⟨c.toNat, h⟩
  simpa using h'

theorem hexDigit_ascii {n : Nat} (h : n < 16) : (hexDigit n).toNat < 0x80 := by
  have : ∀ n : Fin 16, (hexDigit n.val).toNat < 0x80 := by decide
  exact this ⟨n, h⟩

/-- One ASCII byte. -/
theorem jsonAscii_spec {c : Char} (hc : c.toNat < 0x80) :
    utf8 (jsonAscii c) = jsonAscii c ∧ ∀ r v r', Json.string r = some (v, r') →
      Json.string (jsonAscii c ++ r) = some (c :: v, r') := by
  unfold jsonAscii
  split
  · rename_i h
    refine ⟨utf8_ascii ?_, fun r v r' hr => string_escape ?_ hr⟩
    · intro d hd
      rcases h with rfl | rfl <;> simp at hd <;> rcases hd with rfl | rfl <;> decide
    · rcases h with rfl | rfl <;> rfl
  split
  · rename_i h
    subst h
    exact ⟨by decide, fun r v r' hr => string_escape rfl hr⟩
  split
  · rename_i h
    subst h
    exact ⟨by decide, fun r v r' hr => string_escape rfl hr⟩
  split
  · rename_i h
    subst h
    exact ⟨by decide, fun r v r' hr => string_escape rfl hr⟩
  split
  · refine ⟨utf8_ascii ?_, fun r v r' hr => string_hex (hex4_ascii hc) hr⟩
    intro d hd
    simp only [List.mem_append, List.mem_cons, List.not_mem_nil, or_false] at hd
    rcases hd with hd | rfl | rfl
    · revert d; decide
    · exact hexDigit_ascii (by omega)
    · exact hexDigit_ascii (by omega)
  · rename_i h1 _ _ _ h2
    refine ⟨utf8_ascii (by simpa using hc), fun r v r' hr => string_plain ?_ ?_ ?_ hr⟩
    · exact fun h => h1 (.inr h)
    · exact fun h => h1 (.inl h)
    · exact Nat.le_of_not_lt fun h => h2 (.inl h)

/-- The content of a string literal: it is UTF-8 for a text that reads back; what is read is the
string if that was UTF-8. -/
theorem jsonEscape_spec : ∀ (n : Nat) (s : Str), s.length ≤ n → ∃ text val,
    jsonEscape n s = utf8 text ∧ (∀ r, Json.string (text ++ '"' :: r) = some (val, r)) ∧
    (∀ cs, s = utf8 cs → val = cs) ∧ (s ≠ [] → val ≠ []) := by
  intro n
  induction n with
  | zero =>
    intro s hs
    have : s = [] := List.length_eq_zero_iff.1 (by omega)
    subst this
    refine ⟨[], [], rfl, fun r => string_quote r, fun cs hcs => ?_, fun h => absurd rfl h⟩
    cases cs with
    | nil => rfl
    | cons u t =>
      have := congrArg List.length hcs
      have h2 := List.length_pos_iff.2 (utf8Char_ne_nil u)
      simp [utf8_cons] at this
      omega
  | succ n ih =>
    intro s hs
    cases s with
    | nil =>
      refine ⟨[], [], rfl, fun r => string_quote r, fun cs hcs => ?_, fun h => absurd rfl h⟩
      cases cs with
      | nil => rfl
      | cons u t =>
        have := congrArg List.length hcs
        have h2 := List.length_pos_iff.2 (utf8Char_ne_nil u)
        simp [utf8_cons] at this
        omega
    | cons c s =>
      simp only [List.length_cons] at hs
      rw [jsonEscape]
      split
      · rename_i hn
        obtain ⟨t, v, h1, h2, h3, h4⟩ := ih s (by omega)
        refine ⟨"\\ufffd".toList ++ t, Char.ofNat 0xfffd :: v, ?_, ?_, ?_, by simp⟩
        · rw [utf8_append, ← h1, utf8_ascii (by decide)]
        · intro r
          exact string_hex (by decide) (h2 r)
        · intro cs hcs
          cases cs with
          | nil => cases hcs
          | cons u t => rw [hcs, utf8_cons, runeSize_complete] at hn; cases hn
      · rename_i k hk
        split
        · rename_i h1
          subst h1
          have hc := runeSize_one hk
          obtain ⟨t, v, h1, h2, h3, h4⟩ := ih s (by omega)
          obtain ⟨ha, hb⟩ := jsonAscii_spec hc
          refine ⟨jsonAscii c ++ t, c :: v, ?_, ?_, ?_, by simp⟩
          · rw [utf8_append, ← h1, ha]
          · intro r
            rw [List.append_assoc]
            exact hb _ _ _ (h2 r)
          · intro cs hcs
            cases cs with
            | nil => cases hcs
            | cons u t' =>
              rw [utf8_cons, ← List.singleton_append, ← utf8Char_one hc] at hcs
              obtain ⟨rfl, hcs'⟩ := utf8Char_cancel hcs
              rw [h3 _ hcs']
        · rename_i hne
          obtain ⟨u, r0, hs0, hk0⟩ := runeSize_sound hk
          have hu : 0x80 ≤ u.toNat := by
            apply Nat.le_of_not_lt
            intro hlt
            rw [utf8Char_one hlt] at hk0
            exact hne hk0
          have hlen : r0.length ≤ n := by
            have := congrArg List.length hs0
            have h2 := List.length_pos_iff.2 (utf8Char_ne_nil u)
            simp only [List.length_cons, List.length_append] at this
            omega
          obtain ⟨t, v, h1, h2, h3, h4⟩ := ih r0 hlen
          have hfin : ∀ cs, c :: s = utf8 cs → u :: v = cs := by
            intro cs hcs
            cases cs with
            | nil => cases hcs
            | cons u' t' =>
              rw [hs0, utf8_cons] at hcs
              obtain ⟨rfl, hcs'⟩ := utf8Char_cancel hcs
              rw [h3 _ hcs']
          split
          · rename_i hl
            unfold isLineSep at hl
            split at hl
            · rename_i a b d r1 heq
              simp only [Bool.and_eq_true, Bool.or_eq_true, beq_iff_eq] at hl
              obtain ⟨⟨ha, hb⟩, hd⟩ := hl
              have ha := eq_ofNat ha
              have hb := eq_ofNat hb
              obtain ⟨rfl, rfl⟩ := List.cons.inj heq
              rcases hd with hd | hd
              · have hd := eq_ofNat hd
                have hu' : utf8Char (Char.ofNat 0x2028) = [c, b, d] := by
                  rw [ha, hb, hd]; decide
                rw [show c :: b :: d :: r1 = [c, b, d] ++ r1 from rfl, ← hu'] at hs0
                obtain ⟨rfl, rfl⟩ := utf8Char_cancel hs0
                refine ⟨"\\u2028".toList ++ t, _, ?_, ?_, hfin, by simp⟩
                · rw [utf8_append, ← h1, utf8_ascii (by decide)]
                  exact congrArg (· ++ jsonEscape n r1) (show "\\u202".toList ++
                    [hexDigit (d.toNat % 16)] = _ by rw [hd]; decide)
                · intro r
                  exact string_hex (by decide) (h2 r)
              · have hd := eq_ofNat hd
                have hu' : utf8Char (Char.ofNat 0x2029) = [c, b, d] := by
                  rw [ha, hb, hd]; decide
                rw [show c :: b :: d :: r1 = [c, b, d] ++ r1 from rfl, ← hu'] at hs0
                obtain ⟨rfl, rfl⟩ := utf8Char_cancel hs0
                refine ⟨"\\u2029".toList ++ t, _, ?_, ?_, hfin, by simp⟩
                · rw [utf8_append, ← h1, utf8_ascii (by decide)]
                  exact congrArg (· ++ jsonEscape n r1) (show "\\u202".toList ++
                    [hexDigit (d.toNat % 16)] = _ by rw [hd]; decide)
                · intro r
                  exact string_hex (by decide) (h2 r)
            · cases hl
          · refine ⟨u :: t, u :: v, ?_, ?_, hfin, by simp⟩
            · rw [hs0, hk0, List.take_left, List.drop_left, utf8_cons, h1]
            · intro r
              refine string_plain ?_ ?_ (by omega) (h2 r)
              · rintro rfl; exact absurd hu (by decide)
              · rintro rfl; exact absurd hu (by decide)

/-! ## Numbers -/

theorem natToDec_zero_head {n : Nat} (h : (natToDec n).head? = some '0') : n = 0 := by
  induction n using Nat.strongRecOn with
  | _ n ih =>
    unfold natToDec at h ih
    by_cases hn : n < 10
    · rw [Nat.toDigits_of_lt_base hn] at h
      have : ∀ n : Fin 10, Nat.digitChar n.val = '0' → n.val = 0 := by decide
      exact this ⟨n, hn⟩ (by simpa using h)
    · rw [Nat.toDigits_of_base_le (by decide) (by omega)] at h
      have hne : Nat.toDigits 10 (n / 10) ≠ [] := Nat.toDigits_ne_nil
      rw [List.head?_append, List.head?_eq_some_head hne, Option.some_or, ← List.head?_eq_some_head hne] at h
      have := ih (n / 10) (by omega) h
      omega

theorem natural_natToDec (n : Nat) {c : Char} (hc : c.isDigit = false) (r : List Char) :
    Json.natural (natToDec n ++ c :: r) = some (n, c :: r) := by
  have hd : ∀ c ∈ natToDec n, c.isDigit = true := fun c hc => natToDec_isDigit hc
  have h1 : (natToDec n ++ c :: r).takeWhile Char.isDigit = natToDec n := by
    rw [List.takeWhile_append_of_pos hd, List.takeWhile_cons_of_neg (by simp [hc])]
    simp
  have h2 : (natToDec n ++ c :: r).dropWhile Char.isDigit = c :: r := by
    rw [List.dropWhile_append_of_pos hd, List.dropWhile_cons_of_neg (by simp [hc])]
  unfold Json.natural
  simp only [h1, h2]
  rw [if_neg]
  · have := digitsVal_natToDec n
    unfold digitsVal at this
    rw [this]
  · rintro (h | ⟨h, h'⟩)
    · exact natToDec_ne_nil n h
    · have := natToDec_zero_head h
      subst this
      exact h' (by decide)

theorem value_itoa (n : Int) {c : Char} (hc : c.isDigit = false) (r : List Char) :
    Json.value (itoa n ++ c :: r) = some (.int n, c :: r) := by
  cases n with
  | ofNat n =>
    have hnat := natural_natToDec n hc r
    have hd : ∀ c ∈ natToDec n, c.isDigit = true := fun c hc => natToDec_isDigit hc
    simp only [itoa]
    cases hs : natToDec n with
    | nil => exact absurd hs (natToDec_ne_nil n)
    | cons d ds =>
      rw [hs] at hnat hd
      have hdd := hd d (by simp)
      unfold Json.value
      split
      · rename_i heq; cases heq; cases hdd
      · rename_i heq; cases heq; cases hdd
      · rename_i heq; rw [(List.cons.inj heq).1] at hdd; cases hdd
      · rename_i heq; rw [(List.cons.inj heq).1] at hdd; cases hdd
      · rw [hnat]; rfl
  | negSucc n =>
    show Json.value ('-' :: (natToDec (n + 1) ++ c :: r)) = _
    unfold Json.value
    simp only [natural_natToDec (n + 1) hc r]
    simp only [Option.map_some]
    congr 3

theorem itoa_ascii (n : Int) : utf8 (itoa n) = itoa n := by
  apply utf8_ascii
  intro c hc
  have hdig : ∀ d : Char, d.isDigit = true → d.toNat < 0x80 := by
    intro d hd
    have : d.toNat ≤ 57 := by
      simp only [Char.isDigit, Bool.and_eq_true, decide_eq_true_eq] at hd
      exact hd.2
    omega
  cases n with
  | ofNat n => exact hdig c (natToDec_isDigit hc)
  | negSucc n =>
    simp only [itoa, List.mem_cons] at hc
    rcases hc with rfl | hc
    · decide
    · exact hdig c (natToDec_isDigit hc)

/-! ## Objects -/

/-- What is read for a field. -/
def Reads : JsonField → Json.Value → Prop
  | .str s, .str v => (∀ cs, s = utf8 cs → v = cs) ∧ (s ≠ [] → v ≠ [])
  | .int n, .int m => n = m
  | _, _ => False

theorem jsonString_spec (s : Str) : ∃ text val, jsonString s = utf8 ('"' :: text) ∧
    (∀ r, Json.string (text ++ r) = some (val, r)) ∧
    (∀ cs, s = utf8 cs → val = cs) ∧ (s ≠ [] → val ≠ []) := by
  obtain ⟨t, v, h1, h2, h3, h4⟩ := jsonEscape_spec s.length s (Nat.le_refl _)
  refine ⟨t ++ ['"'], v, ?_, ?_, h3, h4⟩
  · unfold jsonString
    rw [utf8_cons, utf8_append, ← h1, utf8_ascii (t := ['"']) (by decide),
      utf8Char_one (u := '"') (by decide)]
    rfl
  · intro r
    rw [List.append_assoc]
    exact h2 r

theorem jsonField_spec (f : JsonField) : ∃ text val, jsonField f = utf8 text ∧ text ≠ [] ∧
    (∀ c r, c.isDigit = false → Json.value (text ++ c :: r) = some (val, c :: r)) ∧ Reads f val := by
  cases f with
  | str s =>
    obtain ⟨t, v, h1, h2, h3, h4⟩ := jsonString_spec s
    refine ⟨_, .str v, h1, by simp, fun c r _ => ?_, h3, h4⟩
    show Json.value ('"' :: (t ++ c :: r)) = _
    unfold Json.value
    simp only [h2, Option.map_some]
  | int n =>
    refine ⟨itoa n, .int n, (itoa_ascii n).symm, ?_, fun c r hc => value_itoa n hc r, rfl⟩
    cases n with
    | ofNat n => exact natToDec_ne_nil n
    | negSucc n => simp [itoa]

/-- The fields and what is read for them. -/
inductive ReadsAll : List (Str × JsonField) → List (List Char × Json.Value) → Prop where
  | nil : ReadsAll [] []
  | cons {k : Str} {f : JsonField} {v : Json.Value} {fs vs} : Reads f v → ReadsAll fs vs →
      ReadsAll ((k, f) :: fs) ((k, v) :: vs)

theorem members_spec : ∀ (fields : List (Str × JsonField)), fields ≠ [] →
    (∀ f ∈ fields, ∀ c ∈ f.1, c.toNat < 0x80) → ∃ text vals,
    join [','] (fields.map fun f => jsonString f.1 ++ ':' :: jsonField f.2) = utf8 text ∧
    fields.length ≤ text.length ∧
    (∀ n r, fields.length ≤ n → Json.members n (text ++ '}' :: r) = some (vals, r)) ∧
    ReadsAll fields vals := by
  intro fields
  induction fields with
  | nil => intro h; exact absurd rfl h
  | cons f fs ih =>
    intro _ hk
    obtain ⟨k, f⟩ := f
    obtain ⟨kt, kv, k1, k2, k3, k4⟩ := jsonString_spec k
    obtain ⟨vt, vv, v1, v2, v3, v4⟩ := jsonField_spec f
    have hkv : kv = k := k3 k (utf8_ascii (hk (k, f) (by simp))).symm
    subst hkv
    have hcolon : utf8 ('"' :: kt ++ ':' :: vt) = jsonString kv ++ ':' :: jsonField f := by
      rw [utf8_append, utf8_cons ':', k1, v1, utf8Char_one (u := ':') (by decide)]
      rfl
    cases fs with
    | nil =>
      refine ⟨'"' :: kt ++ ':' :: vt, [(kv, vv)], ?_, by simp, ?_, .cons v4 .nil⟩
      · rw [hcolon]; rfl
      · intro n r hn
        cases n with
        | zero => simp at hn
        | succ n =>
          show Json.members (n + 1) ('"' :: (kt ++ ':' :: vt ++ '}' :: r)) = _
          simp only [Json.members, List.append_assoc, k2, bind, Option.bind, List.cons_append,
            v3 '}' r (by decide)]
    | cons g gs =>
      obtain ⟨t, vals, t1, t2, t3, t4⟩ := ih (by simp) (fun f hf => hk f (by simp [hf]))
      refine ⟨'"' :: kt ++ ':' :: vt ++ ',' :: t, (kv, vv) :: vals, ?_, ?_, ?_, .cons v4 t4⟩
      · rw [utf8_append, hcolon, utf8_cons ',', ← t1, utf8Char_one (u := ',') (by decide)]
        simp [join]
      · simp only [List.length_cons, List.length_append] at t2 ⊢
        omega
      · intro n r hn
        cases n with
        | zero => simp at hn
        | succ n =>
          have hlen : (g :: gs).length ≤ n := by simpa using hn
          have := t3 n r hlen
          show Json.members (n + 1) ('"' :: (kt ++ ':' :: vt ++ ',' :: t ++ '}' :: r)) = _
          simp only [Json.members, List.append_assoc, k2, bind, Option.bind, List.cons_append,
            v3 ',' _ (by decide), this, pure]

/-- The text of an object reads back. -/
theorem jsonObject_spec (fields : List (Str × JsonField)) (hne : fields ≠ [])
    (hk : ∀ f ∈ fields, ∀ c ∈ f.1, c.toNat < 0x80) : ∃ text vals,
    jsonObject fields = utf8 text ∧ Json.parse text = some vals ∧ ReadsAll fields vals := by
  obtain ⟨t, vals, h1, h2, h3, h4⟩ := members_spec fields hne hk
  refine ⟨'{' :: t ++ ['}'], vals, ?_, ?_, h4⟩
  · unfold jsonObject
    rw [utf8_append, utf8_cons, ← h1, utf8Char_one (u := '{') (by decide),
      utf8_ascii (t := ['}']) (by decide)]
    rfl
  · have := h3 (t ++ ['}']).length [] (by simp; omega)
    cases t with
    | nil =>
      exfalso
      have : fields.length = 0 := by simpa using h2
      exact hne (List.length_eq_zero_iff.1 this)
    | cons c t =>
      have hc : c ≠ '}' := by
        rintro rfl
        simp only [List.cons_append, List.length_cons, Json.members] at this
        cases this
      simp only [List.cons_append] at this ⊢
      unfold Json.parse
      split
      · rename_i heq
        exact absurd (List.cons.inj (List.cons.inj heq).2).1 hc
      · rename_i heq
        cases heq
        rw [this]
      · rename_i h
        exact (h _ rfl).elim

end J8a

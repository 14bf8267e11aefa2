import Verif.Spec.JsonText
import Verif.Lemmas.Utf8
/-! # The JSON decoder reads what the grammar says -/
namespace J8a
open Go

/-! ## Characters -/

theorem encodeRune_eq (u : Char) : encodeRune u.toNat = utf8Char u := rfl

theorem hexVal_eq (c : Char) : hexDigitVal c = Json.hexVal c := rfl

theorem hexVal_ascii {c : Char} {n : Nat} (h : Json.hexVal c = some n) : c.toNat < 0x80 := by
  unfold Json.hexVal at h
  split at h
  · rename_i hc; have h2 : c.toNat ≤ '9'.toNat := hc.2; have : '9'.toNat = 57 := rfl; omega
  · split at h
    · rename_i hc; have h2 : c.toNat ≤ 'f'.toNat := hc.2; have : 'f'.toNat = 102 := rfl; omega
    · split at h
      · rename_i hc; have h2 : c.toNat ≤ 'F'.toNat := hc.2; have : 'F'.toNat = 70 := rfl; omega
      · cases h

theorem hexNat_ascii {a b c d : Char} {n : Nat} (h : hexNat a b c d = some n) (r : Str) :
    utf8 [a, b, c, d] ++ r = a :: b :: c :: d :: r := by
  unfold hexNat at h
  cases ha : Json.hexVal a with
  | none => simp [ha] at h
  | some a' => cases hb : Json.hexVal b with
    | none => simp [ha, hb] at h
    | some b' => cases hc : Json.hexVal c with
      | none => simp [ha, hb, hc] at h
      | some c' => cases hd : Json.hexVal d with
        | none => simp [ha, hb, hc, hd] at h
        | some d' =>
          rw [utf8_ascii]
          · rfl
          · intro x hx
            simp only [List.mem_cons, List.not_mem_nil, or_false] at hx
            rcases hx with rfl | rfl | rfl | rfl
            · exact hexVal_ascii ha
            · exact hexVal_ascii hb
            · exact hexVal_ascii hc
            · exact hexVal_ascii hd

theorem getu4_eq {a b c d : Char} {n : Nat} (h : hexNat a b c d = some n) (r : Str) :
    getu4 (a :: b :: c :: d :: r) = some n := by
  unfold hexNat at h
  cases ha : Json.hexVal a with
  | none => simp [ha] at h
  | some a' => cases hb : Json.hexVal b with
    | none => simp [ha, hb] at h
    | some b' => cases hc : Json.hexVal c with
      | none => simp [ha, hb, hc] at h
      | some c' => cases hd : Json.hexVal d with
        | none => simp [ha, hb, hc, hd] at h
        | some d' =>
          simp [ha, hb, hc, hd] at h
          simp [getu4, hexVal_eq, ha, hb, hc, hd, h]

theorem escape_eq {e u : Char} (h : Json.escape e = some u) :
    unquoteEscape e = some u ∧ e ≠ 'u' ∧ utf8Char u = [u] ∧ utf8Char e = [e] := by
  unfold Json.escape at h
  split at h <;> cases h <;> exact ⟨by decide, by decide, by decide, by decide⟩

/-- The first byte of a character. -/
theorem utf8Char_head (u : Char) : ∃ b bs, utf8Char u = b :: bs ∧
    ((u.toNat < 0x80 ∧ b = u) ∨ 0x80 ≤ b.toNat) := by
  by_cases h : u.toNat < 0x80
  · exact ⟨u, [], utf8Char_one h, .inl ⟨h, rfl⟩⟩
  · have hv := char_valid u
    unfold utf8Char
    simp only [if_neg h]
    split
    · refine ⟨_, _, rfl, .inr ?_⟩
      rw [ofNat_toNat_lt (by omega)]; omega
    · split
      · refine ⟨_, _, rfl, .inr ?_⟩
        rw [ofNat_toNat_lt (by omega)]; omega
      · refine ⟨_, _, rfl, .inr ?_⟩
        rw [ofNat_toNat_lt (by omega)]; omega

theorem utf8_length (t : List Char) : t.length ≤ (utf8 t).length := by
  induction t with
  | nil => simp
  | cons u t ih =>
    rw [utf8_cons, List.length_append, List.length_cons]
    have := List.length_pos_iff.2 (utf8Char_ne_nil u)
    omega

/-! ## Strings -/

theorem jstring_spec {t v : List Char} (h : JsonChars t v) : ∀ (n : Nat) (rest : Str),
    t.length + 1 ≤ n → jstring n (utf8 t ++ '"' :: rest) = some (utf8 v, rest) := by
  induction h with
  | nil =>
    intro n rest hn
    obtain ⟨n, rfl⟩ : ∃ m, n = m + 1 := ⟨n - 1, by simp at hn; omega⟩
    simp [utf8, jstring]
  | @plain c t v h1 h2 h3 _ ih =>
    intro n rest hn
    obtain ⟨n, rfl⟩ : ∃ m, n = m + 1 := ⟨n - 1, by simp at hn; omega⟩
    have ih' := ih n rest (by simp at hn; omega)
    have hsize := runeSize_complete c (utf8 t ++ '"' :: rest)
    have hdrop : (utf8Char c ++ (utf8 t ++ '"' :: rest)).drop (utf8Char c).length =
        utf8 t ++ '"' :: rest := List.drop_left
    have htake : (utf8Char c ++ (utf8 t ++ '"' :: rest)).take (utf8Char c).length =
        utf8Char c := List.take_left
    rw [utf8_cons, utf8_cons, List.append_assoc]
    obtain ⟨b, bs, hb, hb2⟩ := utf8Char_head c
    have q1 : b ≠ '"' := by
      rcases hb2 with ⟨_, rfl⟩ | h
      · exact h1
      · rintro rfl; revert h; decide
    have q2 : b ≠ '\\' := by
      rcases hb2 with ⟨_, rfl⟩ | h
      · exact h2
      · rintro rfl; revert h; decide
    have q3 : ¬ b.toNat < 0x20 := by
      rcases hb2 with ⟨_, rfl⟩ | h <;> omega
    rw [hb] at hsize hdrop htake
    rw [hb]
    simp only [List.cons_append] at hsize hdrop htake ⊢
    simp only [jstring, q1, q2, q3, hsize, hdrop, htake, ih', if_false]
    simp
  | @escape e u t v h1 _ ih =>
    intro n rest hn
    obtain ⟨n, rfl⟩ : ∃ m, n = m + 1 := ⟨n - 1, by simp at hn; omega⟩
    obtain ⟨e1, e2, e3, e4⟩ := escape_eq h1
    have ih' := ih n rest (by simp at hn; omega)
    rw [utf8_cons, utf8_cons, utf8_cons, e3, e4, utf8Char_one (by decide)]
    simp only [List.cons_append, List.nil_append]
    rw [jstring, if_neg (by decide), if_pos rfl]
    simp [e2, e1, ih']
  | @hex a b c d u t v h1 _ ih =>
    intro n rest hn
    obtain ⟨n, rfl⟩ : ∃ m, n = m + 1 := ⟨n - 1, by simp at hn; omega⟩
    have ih' := ih n rest (by simp at hn; omega)
    have hv := char_valid u
    have hx : utf8 ('\\' :: 'u' :: a :: b :: c :: d :: t) ++ '"' :: rest =
        '\\' :: 'u' :: a :: b :: c :: d :: (utf8 t ++ '"' :: rest) := by
      rw [show '\\' :: 'u' :: a :: b :: c :: d :: t = ['\\', 'u'] ++ ([a, b, c, d] ++ t) from rfl,
        utf8_append, utf8_append, utf8_ascii (by decide), List.append_assoc, List.append_assoc,
        hexNat_ascii h1]
      rfl
    rw [hx, jstring, if_neg (by decide), if_pos rfl]
    simp only [if_true, getu4_eq h1, unquoteHex, List.drop_succ_cons, List.drop_zero]
    rw [if_neg (by omega)]
    simp only [List.drop_zero, ih', Option.map_some, encodeRune_eq, utf8_cons]
  | @pair a b c d a' b' c' d' u n' m t v h1 g1 g2 h2 g3 g4 hu _ ih =>
    intro n rest hn
    obtain ⟨n, rfl⟩ : ∃ m, n = m + 1 := ⟨n - 1, by simp at hn; omega⟩
    have ih' := ih n rest (by simp at hn; omega)
    have hx : utf8 ('\\' :: 'u' :: a :: b :: c :: d :: '\\' :: 'u' :: a' :: b' :: c' :: d' :: t) ++
        '"' :: rest =
        '\\' :: 'u' :: a :: b :: c :: d :: '\\' :: 'u' :: a' :: b' :: c' :: d' ::
          (utf8 t ++ '"' :: rest) := by
      rw [show '\\' :: 'u' :: a :: b :: c :: d :: '\\' :: 'u' :: a' :: b' :: c' :: d' :: t =
          ['\\', 'u'] ++ ([a, b, c, d] ++ (['\\', 'u'] ++ ([a', b', c', d'] ++ t))) from rfl,
        utf8_append, utf8_append, utf8_append, utf8_append, utf8_ascii (by decide)]
      simp only [List.append_assoc]
      rw [hexNat_ascii h2, hexNat_ascii h1]
      rfl
    rw [hx, jstring, if_neg (by decide), if_pos rfl]
    simp only [if_true, getu4_eq h1, unquoteHex, List.drop_succ_cons, List.drop_zero]
    rw [if_pos (by omega)]
    simp only [getu4_eq h2]
    rw [if_pos (by omega)]
    have : (n' - 0xd800) * 1024 + (m - 0xdc00) + 0x10000 = u.toNat := by omega
    simp only [List.drop_succ_cons, List.drop_zero, ih', Option.map_some, this, encodeRune_eq,
      utf8_cons]

/-! ## White space and numbers -/

theorem skipSpace_ws {w : List Char} (h : JsonWs w) (r : Str) : skipSpace (w ++ r) = skipSpace r := by
  induction w with
  | nil => rfl
  | cons c w ih =>
    have hc : isJsonSpace c = true := by
      rcases h c (by simp) with rfl | rfl | rfl | rfl <;> decide
    have : JsonWs w := fun x hx => h x (List.mem_cons_of_mem _ hx)
    simp only [skipSpace, List.cons_append, List.dropWhile_cons, hc, if_true]
    exact ih this

theorem skipSpace_cons {c : Char} (h : isJsonSpace c = false) (r : Str) :
    skipSpace (c :: r) = c :: r := by
  simp [skipSpace, h]

theorem ws_ascii {w : List Char} (h : JsonWs w) : utf8 w = w :=
  utf8_ascii fun c hc => by rcases h c hc with rfl | rfl | rfl | rfl <;> decide

theorem isDigit_of {c : Char} (h : '0' ≤ c ∧ c ≤ '9') : c.isDigit = true := by
  simp only [Char.isDigit, Bool.and_eq_true, decide_eq_true_eq]
  exact ⟨h.1, h.2⟩

theorem spanDigits_append {ds : List Char} (h : ∀ c ∈ ds, '0' ≤ c ∧ c ≤ '9') {r : Str}
    (hr : ∀ c, r.head? = some c → c.isDigit = false) : spanDigits (ds ++ r) = (ds, r) := by
  induction ds with
  | nil =>
    cases r with
    | nil => rfl
    | cons c r => simp [spanDigits, hr c rfl]
  | cons c ds ih =>
    have := ih fun x hx => h x (List.mem_cons_of_mem _ hx)
    simp only [spanDigits, Prod.mk.injEq] at this
    simp [spanDigits, isDigit_of (h c (by simp)), this.1, this.2]

/-- What may follow a value. -/
def Stops (r : Str) : Prop := ∀ c, r.head? = some c →
  c = ',' ∨ c = '}' ∨ c = ']' ∨ isJsonSpace c = true

theorem Stops.not {r : Str} (h : Stops r) {c : Char} (hc : r.head? = some c) :
    c.isDigit = false ∧ c ≠ '.' ∧ c ≠ 'e' ∧ c ≠ 'E' := by
  rcases h c hc with rfl | rfl | rfl | hs
  · decide
  · decide
  · decide
  · simp only [isJsonSpace, Bool.or_eq_true, decide_eq_true_eq] at hs
    rcases hs with ((rfl | rfl) | rfl) | rfl <;> decide

theorem scanInt_spec {int : List Char}
    (h : int = ['0'] ∨ (Digits int ∧ int.head? ≠ some '0')) {r : Str}
    (hr : ∀ c, r.head? = some c → c.isDigit = false) : scanInt (int ++ r) = some (int, r) := by
  rcases h with rfl | ⟨⟨hne, hd⟩, h0⟩
  · rfl
  · cases int with
    | nil => exact absurd rfl hne
    | cons c ds =>
      have hc : c ≠ '0' := fun h => h0 (by simp [h])
      have := spanDigits_append hd hr
      unfold scanInt
      split
      · rename_i heq; cases heq; exact absurd rfl hc
      · rename_i heq
        cases heq
        rw [if_pos (isDigit_of (hd c (by simp))), this]
      · rename_i heq; cases heq

theorem scanFrac_spec {frac : List Char} (h : frac = [] ∨ ∃ ds, Digits ds ∧ frac = '.' :: ds) {r : Str}
    (hr : ∀ c, r.head? = some c → c.isDigit = false ∧ c ≠ '.') :
    scanFrac (frac ++ r) = some (frac, r) := by
  rcases h with rfl | ⟨ds, ⟨hne, hd⟩, rfl⟩
  · unfold scanFrac
    split
    · rename_i r' heq
      exact absurd rfl (hr '.' (by simp only [List.nil_append] at heq; simp [heq])).2
    · rfl
  · simp only [scanFrac, List.cons_append]
    rw [spanDigits_append hd fun c hc => (hr c hc).1, if_neg hne]

theorem scanExp_spec {exp : List Char} (h : exp = [] ∨ ∃ e sign ds, (e = 'e' ∨ e = 'E') ∧
      (sign = [] ∨ sign = ['+'] ∨ sign = ['-']) ∧ Digits ds ∧ exp = e :: sign ++ ds) {r : Str}
    (hr : ∀ c, r.head? = some c → c.isDigit = false ∧ c ≠ 'e' ∧ c ≠ 'E') :
    scanExp (exp ++ r) = some (exp, r) := by
  rcases h with rfl | ⟨e, sign, ds, he, hs, ⟨hne, hd⟩, rfl⟩
  · cases r with
    | nil => rfl
    | cons c r =>
      have := hr c rfl
      simp [scanExp, this.2.1, this.2.2]
  · have hsign : scanSign (sign ++ (ds ++ r)) = (sign, ds ++ r) := by
      rcases hs with rfl | rfl | rfl
      · cases ds with
        | nil => exact absurd rfl hne
        | cons c ds =>
          have hc := isDigit_of (hd c (by simp))
          unfold scanSign
          split
          · rename_i heq; cases heq; exact absurd hc (by decide)
          · rename_i heq; cases heq; exact absurd hc (by decide)
          · rfl
      · rfl
      · rfl
    simp only [scanExp, List.cons_append, List.append_assoc]
    rw [if_pos he, hsign]
    simp only
    rw [spanDigits_append hd fun c hc => (hr c hc).1, if_neg hne]

theorem scanNumber_spec {t : List Char} (h : JsonNumber t) {r : Str} (hr : Stops r) :
    scanNumber (t ++ r) = some (t, r) := by
  obtain ⟨minus, int, frac, exp, rfl, h1, h2, h3, h4⟩ := h.parts
  have hexp : ∀ c, (exp ++ r).head? = some c → c.isDigit = false ∧ c ≠ '.' := by
    intro c hc
    rcases h4 with rfl | ⟨e, sign, ds, he, _, _, rfl⟩
    · have := hr.not hc
      exact ⟨this.1, this.2.1⟩
    · simp only [List.cons_append, List.head?_cons, Option.some.injEq] at hc
      subst hc
      rcases he with rfl | rfl <;> decide
  have hfrac : ∀ c, (frac ++ (exp ++ r)).head? = some c → c.isDigit = false := by
    intro c hc
    rcases h3 with rfl | ⟨ds, _, rfl⟩
    · exact (hexp c hc).1
    · simp only [List.cons_append, List.head?_cons, Option.some.injEq] at hc
      subst hc; decide
  have e1 := scanInt_spec h2 hfrac
  have e2 := scanFrac_spec h3 hexp
  have e3 := scanExp_spec h4 fun c hc => ⟨(hr.not hc).1, (hr.not hc).2.2⟩
  have hint : ∀ c r', int ++ (frac ++ (exp ++ r)) = c :: r' → c ≠ '-' := by
    rintro c r' heq rfl
    rcases h2 with rfl | ⟨⟨hne, hd⟩, _⟩
    · cases heq
    · cases int with
      | nil => exact hne rfl
      | cons c int =>
        simp only [List.cons_append, List.cons.injEq] at heq
        have := hd c (by simp)
        rw [heq.1] at this
        exact absurd this (by decide)
  rcases h1 with rfl | rfl
  · simp only [List.nil_append, List.append_assoc]
    have hm : scanMinus (int ++ (frac ++ (exp ++ r))) = ([], int ++ (frac ++ (exp ++ r))) := by
      unfold scanMinus
      split
      · rename_i r' heq; exact absurd rfl (hint _ _ heq)
      · rfl
    unfold scanNumber
    rw [hm]
    simp [e1, e2, e3]
  · simp [scanNumber, scanMinus, e1, e2, e3]

theorem number_ascii {t : List Char} (h : JsonNumber t) : utf8 t = t := by
  obtain ⟨minus, int, frac, exp, rfl, h1, h2, h3, h4⟩ := h.parts
  have dig : ∀ {ds : List Char}, Digits ds → ∀ c ∈ ds, c.toNat < 0x80 := by
    intro ds hds c hc
    have h2 : c.toNat ≤ '9'.toNat := (hds.2 c hc).2
    have : '9'.toNat = 57 := rfl
    omega
  apply utf8_ascii
  intro c hc
  simp only [List.mem_append] at hc
  rcases hc with ((hc | hc) | hc) | hc
  · rcases h1 with rfl | rfl
    · simp at hc
    · simp at hc; subst hc; decide
  · rcases h2 with rfl | ⟨h2, _⟩
    · simp at hc; subst hc; decide
    · exact dig h2 c hc
  · rcases h3 with rfl | ⟨ds, hd, rfl⟩
    · simp at hc
    · simp only [List.mem_cons] at hc
      rcases hc with rfl | hc
      · decide
      · exact dig hd c hc
  · rcases h4 with rfl | ⟨e, sign, ds, he, hs, hd, rfl⟩
    · simp at hc
    · simp only [List.mem_append, List.mem_cons] at hc
      rcases hc with (rfl | hc) | hc
      · rcases he with rfl | rfl <;> decide
      · rcases hs with rfl | rfl | rfl
        · simp at hc
        · simp at hc; subst hc; decide
        · simp at hc; subst hc; decide
      · exact dig hd c hc

/-- The first character of a number. -/
theorem number_head {t : List Char} (h : JsonNumber t) : ∃ c r, t = c :: r ∧
    (c = '-' ∨ ('0' ≤ c ∧ c ≤ '9')) := by
  obtain ⟨minus, int, frac, exp, rfl, h1, h2, _, _⟩ := h.parts
  rcases h1 with rfl | rfl
  · rcases h2 with rfl | ⟨⟨hne, hd⟩, _⟩
    · exact ⟨'0', _, rfl, .inr (by decide)⟩
    · cases int with
      | nil => exact absurd rfl hne
      | cons c int => exact ⟨c, _, rfl, .inr (hd c (by simp))⟩
  · exact ⟨'-', _, rfl, .inl rfl⟩

/-! ## Values -/

/-- What the decoder has to do with a piece of text. -/
def JsonDecoded (fits : Str → Bool) (h : Nat) (t : List Char) : JsonPart → Prop
  | .value v => (∃ c r, utf8 t = c :: r ∧ isJsonSpace c = false ∧ c ≠ ']' ∧ c ≠ '}') ∧
    ∀ (n d : Nat) (rest : Str), 2 * t.length ≤ n → d + h ≤ maxNesting → Stops rest →
      jvalue fits n d (utf8 t ++ rest) = some (v, rest)
  | .members ms => (∃ w r, JsonWs w ∧ utf8 t = w ++ '"' :: r) ∧
    ∀ (n d : Nat) (rest : Str), 2 * t.length + 1 ≤ n → d + h ≤ maxNesting →
      jmembers fits n d (skipSpace (utf8 t ++ '}' :: rest)) = some (ms, rest)
  | .elems vs => (∃ w c r, JsonWs w ∧ utf8 t = w ++ c :: r ∧ isJsonSpace c = false ∧ c ≠ ']') ∧
    ∀ (n d : Nat) (rest : Str), 2 * t.length + 1 ≤ n → d + h ≤ maxNesting →
      jelems fits n d (skipSpace (utf8 t ++ ']' :: rest)) = some (vs, rest)

theorem stops_ws {w : List Char} (h : JsonWs w) {c : Char} (hc : c = ',' ∨ c = '}' ∨ c = ']')
    (r : Str) : Stops (w ++ c :: r) := by
  intro x hx
  cases w with
  | nil =>
    simp only [List.nil_append, List.head?_cons, Option.some.injEq] at hx
    subst hx
    rcases hc with h | h | h <;> simp [h]
  | cons y w =>
    simp only [List.cons_append, List.head?_cons, Option.some.injEq] at hx
    subst hx
    refine .inr (.inr (.inr ?_))
    rcases h y (by simp) with rfl | rfl | rfl | rfl <;> decide

theorem jvalue_num {fits : Str → Bool} {n d : Nat} {s t r : Str} {c : Char}
    (hc : c = '-' ∨ ('0' ≤ c ∧ c ≤ '9')) (hs : scanNumber (c :: s) = some (t, r))
    (hf : fits t = true) : jvalue fits (n + 1) d (c :: s) = some (.num t, r) := by
  have key : ∀ x : Char, x = '"' ∨ x = '{' ∨ x = '[' ∨ x = 't' ∨ x = 'f' ∨ x = 'n' → c ≠ x := by
    rintro x hx rfl
    rcases hx with rfl | rfl | rfl | rfl | rfl | rfl <;> revert hc <;> decide
  rw [jvalue.eq_def]
  simp only
  split
  · rename_i heq; cases heq; exact absurd rfl (key _ (by simp))
  · rename_i heq; cases heq; exact absurd rfl (key _ (by simp))
  · rename_i heq; cases heq; exact absurd rfl (key _ (by simp))
  · rename_i heq; cases heq; exact absurd rfl (key _ (by simp))
  · rename_i heq; cases heq; exact absurd rfl (key _ (by simp))
  · rename_i heq; cases heq; exact absurd rfl (key _ (by simp))
  · rw [hs]; simp [hf]

theorem quote_ascii (r : List Char) : utf8 ('"' :: r) = '"' :: utf8 r := by
  rw [utf8_cons, utf8Char_one (by decide)]; rfl

theorem jsonText_decoded {fits : Str → Bool} {h : Nat} {t : List Char} {p : JsonPart}
    (ht : JsonText (fun s => fits s = true) h t p) : JsonDecoded fits h t p := by
  induction ht with
  | null =>
    refine ⟨⟨'n', _, rfl, by decide, by decide, by decide⟩, fun n d rest hn _ _ => ?_⟩
    obtain ⟨n, rfl⟩ : ∃ m, n = m + 1 := ⟨n - 1, by simp at hn; omega⟩
    rfl
  | true =>
    refine ⟨⟨'t', _, rfl, by decide, by decide, by decide⟩, fun n d rest hn _ _ => ?_⟩
    obtain ⟨n, rfl⟩ : ∃ m, n = m + 1 := ⟨n - 1, by simp at hn; omega⟩
    rfl
  | false =>
    refine ⟨⟨'f', _, rfl, by decide, by decide, by decide⟩, fun n d rest hn _ _ => ?_⟩
    obtain ⟨n, rfl⟩ : ∃ m, n = m + 1 := ⟨n - 1, by simp at hn; omega⟩
    rfl
  | @num h t h1 h2 =>
    obtain ⟨c, r, rfl, hc⟩ := number_head h1
    rw [JsonDecoded, number_ascii h1]
    refine ⟨⟨c, r, rfl, ?_, ?_, ?_⟩, fun n d rest hn _ hr => ?_⟩
    · rcases hc with rfl | hc
      · decide
      · cases hs : isJsonSpace c with
        | false => rfl
        | true =>
          simp only [isJsonSpace, Bool.or_eq_true, decide_eq_true_eq] at hs
          rcases hs with ((rfl | rfl) | rfl) | rfl <;> exact absurd hc (by decide)
    · rintro rfl; revert hc; decide
    · rintro rfl; revert hc; decide
    · obtain ⟨n, rfl⟩ : ∃ m, n = m + 1 := ⟨n - 1, by simp at hn; omega⟩
      exact jvalue_num hc (scanNumber_spec h1 hr) h2
  | @str h t v h1 =>
    obtain ⟨v, h1, rfl⟩ := h1
    have e : utf8 ('"' :: t ++ ['"']) = '"' :: (utf8 t ++ ['"']) := by
      rw [List.cons_append, quote_ascii, utf8_append]; rfl
    rw [JsonDecoded, e]
    refine ⟨⟨'"', _, rfl, by decide, by decide, by decide⟩, fun n d rest hn _ hr => ?_⟩
    obtain ⟨n, rfl⟩ : ∃ m, n = m + 1 := ⟨n - 1, by simp at hn; omega⟩
    simp only [List.cons_append, List.append_assoc, List.nil_append, jvalue]
    rw [jstring_spec h1 _ _ (by have := utf8_length t; simp; omega)]
    rfl
  | @noMembers h w hw =>
    have e : utf8 ('{' :: w ++ ['}']) = '{' :: (w ++ ['}']) := by
      rw [List.cons_append, utf8_cons, utf8_append, ws_ascii hw, utf8Char_one (by decide)]; rfl
    rw [JsonDecoded, e]
    refine ⟨⟨'{', _, rfl, by decide, by decide, by decide⟩, fun n d rest hn hd hr => ?_⟩
    obtain ⟨n, rfl⟩ : ∃ m, n = m + 1 := ⟨n - 1, by simp at hn; omega⟩
    simp only [List.cons_append, List.append_assoc, List.nil_append, jvalue]
    rw [if_neg (by omega), skipSpace_ws hw, skipSpace_cons (by decide)]
    rfl
  | @obj h t ms _ ih =>
    obtain ⟨⟨w, r, hw, hr⟩, ih⟩ := ih
    have e : utf8 ('{' :: t ++ ['}']) = '{' :: (utf8 t ++ ['}']) := by
      rw [List.cons_append, utf8_cons, utf8_append, utf8Char_one (by decide)]; rfl
    rw [JsonDecoded, e]
    refine ⟨⟨'{', _, rfl, by decide, by decide, by decide⟩, fun n d rest hn hd _ => ?_⟩
    obtain ⟨n, rfl⟩ : ∃ m, n = m + 1 := ⟨n - 1, by simp at hn; omega⟩
    have ih' := ih n (d + 1) rest (by simp at hn; omega) (by omega)
    simp only [List.cons_append, List.append_assoc, List.nil_append, jvalue]
    rw [if_neg (by omega)]
    have hs : skipSpace (utf8 t ++ '}' :: rest) = '"' :: (r ++ '}' :: rest) := by
      rw [hr, List.append_assoc, skipSpace_ws hw, List.cons_append, skipSpace_cons (by decide)]
    rw [hs] at ih' ⊢
    split
    · rename_i heq; cases heq
    · rw [ih']; rfl
  | @noElems h w hw =>
    have e : utf8 ('[' :: w ++ [']']) = '[' :: (w ++ [']']) := by
      rw [List.cons_append, utf8_cons, utf8_append, ws_ascii hw, utf8Char_one (by decide)]; rfl
    rw [JsonDecoded, e]
    refine ⟨⟨'[', _, rfl, by decide, by decide, by decide⟩, fun n d rest hn hd hr => ?_⟩
    obtain ⟨n, rfl⟩ : ∃ m, n = m + 1 := ⟨n - 1, by simp at hn; omega⟩
    simp only [List.cons_append, List.append_assoc, List.nil_append, jvalue]
    rw [if_neg (by omega), skipSpace_ws hw, skipSpace_cons (by decide)]
    rfl
  | @arr h t vs _ ih =>
    obtain ⟨⟨w, c, r, hw, hr, hc1, hc2⟩, ih⟩ := ih
    have e : utf8 ('[' :: t ++ [']']) = '[' :: (utf8 t ++ [']']) := by
      rw [List.cons_append, utf8_cons, utf8_append, utf8Char_one (by decide)]; rfl
    rw [JsonDecoded, e]
    refine ⟨⟨'[', _, rfl, by decide, by decide, by decide⟩, fun n d rest hn hd _ => ?_⟩
    obtain ⟨n, rfl⟩ : ∃ m, n = m + 1 := ⟨n - 1, by simp at hn; omega⟩
    have ih' := ih n (d + 1) rest (by simp at hn; omega) (by omega)
    simp only [List.cons_append, List.append_assoc, List.nil_append, jvalue]
    rw [if_neg (by omega)]
    have hs : skipSpace (utf8 t ++ ']' :: rest) = c :: (r ++ ']' :: rest) := by
      rw [hr, List.append_assoc, skipSpace_ws hw, List.cons_append, skipSpace_cons hc1]
    rw [hs] at ih' ⊢
    split
    · rename_i heq; cases heq; exact absurd rfl hc2
    · rw [ih']; rfl
  | @member h w1 w2 w3 w4 kt vt k v hw1 hw2 hw3 hw4 hk _ ih =>
    obtain ⟨k, hk, rfl⟩ := hk
    obtain ⟨⟨c, r, hr, hc1, hc2⟩, ih⟩ := ih
    have e : utf8 (w1 ++ '"' :: kt ++ '"' :: w2 ++ ':' :: w3 ++ vt ++ w4) =
        w1 ++ '"' :: (utf8 kt ++ '"' :: (w2 ++ ':' :: (w3 ++ (utf8 vt ++ w4)))) := by
      simp only [utf8_append, utf8_cons, ws_ascii hw1, ws_ascii hw2, ws_ascii hw3, ws_ascii hw4,
        utf8Char_one (show ('"' : Char).toNat < 0x80 by decide),
        utf8Char_one (show (':' : Char).toNat < 0x80 by decide)]
      simp
    rw [JsonDecoded, e]
    refine ⟨⟨w1, _, hw1, rfl⟩, fun n d rest hn hd => ?_⟩
    obtain ⟨n, rfl⟩ : ∃ m, n = m + 1 := ⟨n - 1, by simp at hn; omega⟩
    have ih' := ih n d (w4 ++ '}' :: rest) (by simp at hn; omega) hd (stops_ws hw4 (by simp) rest)
    simp only [List.append_assoc, List.cons_append]
    rw [skipSpace_ws hw1, skipSpace_cons (by decide)]
    simp only [jmembers]
    rw [jstring_spec hk _ _ (by have := utf8_length kt; simp; omega)]
    simp only
    rw [skipSpace_ws hw2, skipSpace_cons (by decide)]
    simp only
    rw [skipSpace_ws hw3]
    rw [hr] at ih' ⊢
    rw [List.cons_append] at ih' ⊢
    rw [skipSpace_cons hc1, ih']
    simp only
    rw [skipSpace_ws hw4, skipSpace_cons (by decide)]
    rfl
  | @moreMembers h w1 w2 w3 w4 kt vt t k v ms hw1 hw2 hw3 hw4 hk _ _ ih ih2 =>
    obtain ⟨k, hk, rfl⟩ := hk
    obtain ⟨⟨c, r, hr, hc1, hc2⟩, ih⟩ := ih
    obtain ⟨_, ih2⟩ := ih2
    have e : utf8 (w1 ++ '"' :: kt ++ '"' :: w2 ++ ':' :: w3 ++ vt ++ w4 ++ ',' :: t) =
        w1 ++ '"' :: (utf8 kt ++ '"' :: (w2 ++ ':' :: (w3 ++ (utf8 vt ++ (w4 ++ ',' :: utf8 t))))) := by
      simp only [utf8_append, utf8_cons, ws_ascii hw1, ws_ascii hw2, ws_ascii hw3, ws_ascii hw4,
        utf8Char_one (show ('"' : Char).toNat < 0x80 by decide),
        utf8Char_one (show (',' : Char).toNat < 0x80 by decide),
        utf8Char_one (show (':' : Char).toNat < 0x80 by decide)]
      simp
    rw [JsonDecoded, e]
    refine ⟨⟨w1, _, hw1, rfl⟩, fun n d rest hn hd => ?_⟩
    obtain ⟨n, rfl⟩ : ∃ m, n = m + 1 := ⟨n - 1, by simp at hn; omega⟩
    have ih' := ih n d (w4 ++ ',' :: (utf8 t ++ '}' :: rest)) (by simp at hn; omega) hd
      (stops_ws hw4 (by simp) _)
    have ih2' := ih2 n d rest (by simp at hn; omega) hd
    simp only [List.append_assoc, List.cons_append]
    rw [skipSpace_ws hw1, skipSpace_cons (by decide)]
    simp only [jmembers]
    rw [jstring_spec hk _ _ (by have := utf8_length kt; simp; omega)]
    simp only
    rw [skipSpace_ws hw2, skipSpace_cons (by decide)]
    simp only
    rw [skipSpace_ws hw3]
    rw [hr] at ih' ⊢
    rw [List.cons_append] at ih' ⊢
    rw [skipSpace_cons hc1, ih']
    simp only
    rw [skipSpace_ws hw4, skipSpace_cons (by decide)]
    simp only
    rw [ih2']
    rfl
  | @elem h w1 w2 vt v hw1 hw2 _ ih =>
    obtain ⟨⟨c, r, hr, hc1, hc2, _⟩, ih⟩ := ih
    have e : utf8 (w1 ++ vt ++ w2) = w1 ++ (utf8 vt ++ w2) := by
      simp only [utf8_append, ws_ascii hw1, ws_ascii hw2, List.append_assoc]
    rw [JsonDecoded, e]
    refine ⟨⟨w1, c, r ++ w2, hw1, by rw [hr]; rfl, hc1, hc2⟩, fun n d rest hn hd => ?_⟩
    obtain ⟨n, rfl⟩ : ∃ m, n = m + 1 := ⟨n - 1, by simp at hn; omega⟩
    have ih' := ih n d (w2 ++ ']' :: rest) (by simp at hn; omega) hd (stops_ws hw2 (by simp) rest)
    simp only [List.append_assoc]
    rw [skipSpace_ws hw1]
    rw [hr] at ih' ⊢
    rw [List.cons_append] at ih' ⊢
    rw [skipSpace_cons hc1]
    simp only [jelems]
    rw [ih']
    simp only
    rw [skipSpace_ws hw2, skipSpace_cons (by decide)]
    rfl
  | @moreElems h w1 w2 vt t v vs hw1 hw2 _ _ ih ih2 =>
    obtain ⟨⟨c, r, hr, hc1, hc2, _⟩, ih⟩ := ih
    obtain ⟨_, ih2⟩ := ih2
    have e : utf8 (w1 ++ vt ++ w2 ++ ',' :: t) = w1 ++ (utf8 vt ++ (w2 ++ ',' :: utf8 t)) := by
      simp only [utf8_append, utf8_cons, ws_ascii hw1, ws_ascii hw2, List.append_assoc,
        utf8Char_one (show (',' : Char).toNat < 0x80 by decide)]
      rfl
    rw [JsonDecoded, e]
    refine ⟨⟨w1, c, _, hw1, by rw [hr]; rfl, hc1, hc2⟩, fun n d rest hn hd => ?_⟩
    obtain ⟨n, rfl⟩ : ∃ m, n = m + 1 := ⟨n - 1, by simp at hn; omega⟩
    have ih' := ih n d (w2 ++ ',' :: (utf8 t ++ ']' :: rest)) (by simp at hn; omega) hd
      (stops_ws hw2 (by simp) _)
    have ih2' := ih2 n d rest (by simp at hn; omega) hd
    simp only [List.append_assoc, List.cons_append]
    rw [skipSpace_ws hw1]
    rw [hr] at ih' ⊢
    rw [List.cons_append] at ih' ⊢
    rw [skipSpace_cons hc1]
    simp only [jelems]
    rw [ih']
    simp only
    rw [skipSpace_ws hw2, skipSpace_cons (by decide)]
    simp only
    rw [ih2']
    rfl

/-- A JSON document, with white space around it. -/
theorem jsonDecode_spec {fits : Str → Bool} {t w1 w2 : List Char} {v : JTree} (h1 : JsonWs w1)
    (h2 : JsonWs w2) (ht : JsonText (fun s => fits s = true) maxNesting t (.value v)) :
    jsonDecode fits (utf8 (w1 ++ t ++ w2)) = some v := by
  obtain ⟨⟨c, r, hr, hc1, _⟩, hd⟩ := jsonText_decoded ht
  have e : utf8 (w1 ++ t ++ w2) = w1 ++ (utf8 t ++ w2) := by
    simp only [utf8_append, ws_ascii h1, ws_ascii h2, List.append_assoc]
  have hstop : Stops w2 := by
    intro x hx
    cases w2 with
    | nil => cases hx
    | cons y w =>
      simp only [List.head?_cons, Option.some.injEq] at hx
      subst hx
      refine .inr (.inr (.inr ?_))
      rcases h2 y (by simp) with rfl | rfl | rfl | rfl <;> decide
  have hs : skipSpace (w1 ++ (utf8 t ++ w2)) = utf8 t ++ w2 := by
    rw [skipSpace_ws h1, hr, List.cons_append, skipSpace_cons hc1]
  have he : skipSpace w2 = [] := by
    have := skipSpace_ws h2 []
    rw [List.append_nil] at this
    rw [this]; rfl
  simp only [jsonDecode, e, hs]
  rw [hd _ 0 w2 (by have := utf8_length t; simp; omega) (by omega) hstop]
  simp [he]

end J8a

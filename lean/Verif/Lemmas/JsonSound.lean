import Verif.Lemmas.JsonDecode
/-!
# What the JSON decoder accepts is JSON
-/
namespace J8a
open Go

theorem getu4_inv {s : Str} {n : Nat} (h : getu4 s = some n) :
    ∃ a b c d r, s = a :: b :: c :: d :: r ∧ hexNat a b c d = some n := by
  unfold getu4 at h
  split at h
  · rename_i a b c d r
    refine ⟨a, b, c, d, r, rfl, ?_⟩
    split at h
    · rename_i a' b' c' d' ha hb hc hd
      cases h
      rw [hexVal_eq] at ha hb hc hd
      simp [hexNat, ha, hb, hc, hd]
    · cases h
  · cases h

theorem unquoteEscape_inv {e u : Char} (h : unquoteEscape e = some u) : Json.escape e = some u := by
  unfold unquoteEscape at h
  split at h
  · rename_i he
    cases h
    rcases he with rfl | rfl | rfl <;> rfl
  · repeat' split at h
    all_goals first
      | cases h
      | skip
    all_goals (rename_i he; cases he; rfl)

theorem replacement_eq : encodeRune 0xfffd = replacement := rfl

theorem exists_bmp {n : Nat} (h : ¬ (0xd800 ≤ n ∧ n < 0xe000)) (h1 : n < 0x10000) : ∃ u : Char, u.toNat = n :=
  exists_char (by omega)

theorem hexVal_lt {c : Char} {n : Nat} (h : Json.hexVal c = some n) : n < 16 := by
  unfold Json.hexVal at h
  split at h
  · rename_i hc; have h2 : c.toNat ≤ '9'.toNat := hc.2; have : '9'.toNat = 57 := rfl; cases h; omega
  · split at h
    · rename_i hc; have h2 : c.toNat ≤ 'f'.toNat := hc.2; have : 'f'.toNat = 102 := rfl; cases h; omega
    · split at h
      · rename_i hc; have h2 : c.toNat ≤ 'F'.toNat := hc.2; have : 'F'.toNat = 70 := rfl; cases h; omega
      · cases h

theorem hexNat_lt {a b c d : Char} {n : Nat} (h : hexNat a b c d = some n) : n < 0x10000 := by
  unfold hexNat at h
  cases ha : Json.hexVal a with
  | none => simp [ha] at h
  | some a' => cases hb : Json.hexVal b with
    | none => simp [ha, hb] at h
    | some b' => cases hc : Json.hexVal c with
      | none => simp [ha, hb, hc] at h
      | some c' => cases hd : Json.hexVal d with
        | none => simp [ha, hb, hc, hd] at h
        | some d' =>
          simp [ha, hb, hc, hd] at h
          have := hexVal_lt ha
          have := hexVal_lt hb
          have := hexVal_lt hc
          have := hexVal_lt hd
          omega

/-- What `unquoteHex` does. -/
theorem unquoteHex_inv (n : Nat) (s : Str) (hn : n < 0x10000) :
    (∃ u : Char, u.toNat = n ∧ unquoteHex n s = (utf8Char u, 0)) ∨
    (0xd800 ≤ n ∧ n ≤ 0xdfff ∧ ¬ (n ≤ 0xdbff ∧ LowHalf s) ∧ unquoteHex n s = (replacement, 0)) ∨
    (0xd800 ≤ n ∧ n ≤ 0xdbff ∧ ∃ a b c d r m u, s = '\\' :: 'u' :: a :: b :: c :: d :: r ∧ hexNat a b c d = some m ∧
      0xdc00 ≤ m ∧ m ≤ 0xdfff ∧ u.toNat = 0x10000 + (n - 0xd800) * 0x400 + (m - 0xdc00) ∧
      unquoteHex n s = (utf8Char u, 6)) := by
  by_cases h : 0xd800 ≤ n ∧ n < 0xe000
  · by_cases hl : n ≤ 0xdbff ∧ LowHalf s
    · obtain ⟨hn1, a, b, c, d, r, m, rfl, hm, hm1, hm2⟩ := hl
      obtain ⟨u, hu⟩ := exists_char (n := 0x10000 + (n - 0xd800) * 0x400 + (m - 0xdc00)) (by omega)
      refine .inr (.inr ⟨h.1, hn1, a, b, c, d, r, m, u, rfl, hm, hm1, hm2, hu, ?_⟩)
      unfold unquoteHex
      rw [if_pos h]
      simp only [getu4_eq hm]
      rw [if_pos (by omega), show (n - 0xd800) * 1024 + (m - 0xdc00) + 0x10000 = u.toNat by omega, encodeRune_eq]
    · refine .inr (.inl ⟨h.1, by omega, hl, ?_⟩)
      unfold unquoteHex
      rw [if_pos h]
      split
      · rename_i r
        cases hg : getu4 r with
        | none => rfl
        | some m =>
          obtain ⟨a, b, c, d, r', rfl, hm⟩ := getu4_inv hg
          dsimp only
          rw [if_neg]
          · rfl
          · rintro ⟨h1, h2, h3⟩
            exact hl ⟨by omega, a, b, c, d, r', m, rfl, hm, h2, by omega⟩
      · rfl
  · obtain ⟨u, hu⟩ := exists_bmp h hn
    refine .inl ⟨u, hu, ?_⟩
    unfold unquoteHex
    rw [if_neg h, ← hu, encodeRune_eq]

theorem lowHalf_append {t : Str} (h : LowHalf t) (r : Str) : LowHalf (t ++ r) := by
  obtain ⟨a, b, c, d, r', m, rfl, h⟩ := h
  exact ⟨a, b, c, d, r' ++ r, m, rfl, h⟩

/-- What a string is, and what it denotes. -/
theorem jstring_sound : ∀ (n : Nat) {s v r : Str}, jstring n s = some (v, r) →
    ∃ t, s = t ++ '"' :: r ∧ LooseChars t v
  | 0, s, v, r, h => by simp [jstring] at h
  | n + 1, [], v, r, h => by simp [jstring] at h
  | n + 1, c :: s, v, r, h => by
    have deeper : ∀ {s' : Str} {f : Str → Str}, ((jstring n s').map fun p => (f p.1, p.2)) = some (v, r) →
        ∃ t v', s' = t ++ '"' :: r ∧ LooseChars t v' ∧ v = f v' := by
      intro s' f h
      cases hj : jstring n s' with
      | none => rw [hj] at h; cases h
      | some p =>
        rw [hj] at h
        cases h
        obtain ⟨t, h1, h2⟩ := jstring_sound n (v := p.1) (r := p.2) hj
        exact ⟨t, _, h1, h2, rfl⟩
    unfold jstring at h
    by_cases hq : c = '"'
    · rw [if_pos hq] at h
      cases h
      subst hq
      exact ⟨[], rfl, .nil⟩
    rw [if_neg hq] at h
    by_cases hb : c = '\\'
    · rw [if_pos hb] at h
      subst hb
      cases s with
      | nil => cases h
      | cons e s =>
        dsimp only at h
        by_cases he : e = 'u'
        · rw [if_pos he] at h
          subst he
          cases hg : getu4 s with
          | none => rw [hg] at h; cases h
          | some n' =>
            rw [hg] at h
            obtain ⟨a, b, c, d, s', rfl, hn⟩ := getu4_inv hg
            simp only [List.drop_succ_cons, List.drop_zero] at h
            rcases unquoteHex_inv n' s' (hexNat_lt hn) with ⟨u, hu, e⟩ | ⟨g1, g2, g3, e⟩ |
              ⟨g1, g2, a', b', c', d', s'', m, u, rfl, hm, g3, g4, hu, e⟩
            · rw [e] at h
              obtain ⟨t, v', rfl, h2, rfl⟩ := deeper (f := fun x => utf8Char u ++ x) h
              exact ⟨_, rfl, .hex (by rw [hn, hu]) h2⟩
            · rw [e] at h
              obtain ⟨t, v', e', h2, rfl⟩ := deeper (f := fun x => replacement ++ x) h
              have e' : s' = t ++ '"' :: r := e'
              subst e'
              exact ⟨_, rfl, .alone hn g1 g2 (fun hl => g3 ⟨hl.1, lowHalf_append hl.2 _⟩) h2⟩
            · rw [e] at h
              obtain ⟨t, v', e', h2, rfl⟩ := deeper (f := fun x => utf8Char u ++ x) h
              have e' : s'' = t ++ '"' :: r := e'
              subst e'
              exact ⟨_, rfl, .pair hn g1 g2 hm g3 g4 hu h2⟩
        · rw [if_neg he] at h
          cases hu : unquoteEscape e with
          | none => rw [hu] at h; cases h
          | some u =>
            rw [hu] at h
            obtain ⟨t, v', rfl, h2, rfl⟩ := deeper (f := fun x => u :: x) h
            exact ⟨_, rfl, .escape (unquoteEscape_inv hu) h2⟩
    rw [if_neg hb] at h
    by_cases hc : c.toNat < 0x20
    · rw [if_pos hc] at h
      cases h
    rw [if_neg hc] at h
    cases hr : runeSize (c :: s) with
    | none =>
      rw [hr] at h
      obtain ⟨t, v', rfl, h2, rfl⟩ := deeper (f := fun x => encodeRune 0xfffd ++ x) h
      refine ⟨c :: t, rfl, .bad (fun u r' e => ?_) h2⟩
      rw [show c :: (t ++ '"' :: r) = (c :: t) ++ '"' :: r from rfl, e, List.append_assoc, runeSize_complete] at hr
      cases hr
    | some k =>
      rw [hr] at h
      obtain ⟨u, r', e, rfl⟩ := runeSize_sound hr
      dsimp only at h
      rw [e, List.drop_left, List.take_left] at h
      obtain ⟨t, v', rfl, h2, rfl⟩ := deeper (f := fun x => utf8Char u ++ x) h
      obtain ⟨b, bs, hb1, hb2⟩ := utf8Char_head u
      have hcb : c = b := by
        rw [hb1] at e
        cases e
        rfl
      subst hcb
      refine ⟨utf8Char u ++ t, by rw [e, List.append_assoc], .plain ?_ ?_ ?_ h2⟩
      · rintro rfl
        rcases hb2 with ⟨-, rfl⟩ | h
        · exact hq rfl
        · rw [show utf8Char '"' = ['"'] from rfl] at hb1
          cases hb1
          exact hq rfl
      · rintro rfl
        rw [show utf8Char '\\' = ['\\'] from rfl] at hb1
        cases hb1
        exact hb rfl
      · rcases hb2 with ⟨-, rfl⟩ | h
        · omega
        · by_cases hu : u.toNat < 0x20
          · rw [utf8Char_one (by omega)] at hb1
            cases hb1
            omega
          · omega

/-! ## Numbers -/

theorem digit_iff {c : Char} : c.isDigit = true ↔ '0' ≤ c ∧ c ≤ '9' := by
  unfold Char.isDigit
  rw [Bool.and_eq_true, decide_eq_true_eq, decide_eq_true_eq]
  rfl

theorem spanDigits_sound (s : Str) : s = (spanDigits s).1 ++ (spanDigits s).2 ∧
    ∀ c ∈ (spanDigits s).1, '0' ≤ c ∧ c ≤ '9' :=
  ⟨(List.takeWhile_append_dropWhile).symm, fun _ hc => digit_iff.1 (List.all_eq_true.1 (List.all_takeWhile (l := s) (p := Char.isDigit)) _ hc)⟩

theorem scanNumber_sound {s t r : Str} (h : scanNumber s = some (t, r)) : s = t ++ r ∧ JsonNumber t := by
  unfold scanNumber at h
  have hm : s = (scanMinus s).1 ++ (scanMinus s).2 ∧ ((scanMinus s).1 = [] ∨ (scanMinus s).1 = ['-']) := by
    unfold scanMinus
    split
    · exact ⟨rfl, .inr rfl⟩
    · exact ⟨rfl, .inl rfl⟩
  generalize scanMinus s = m at h hm
  obtain ⟨minus, s1⟩ := m
  obtain ⟨hs, hminus⟩ := hm
  dsimp only at hs hminus h
  cases hi : scanInt s1 with
  | none => rw [hi] at h; cases h
  | some p =>
    obtain ⟨int, s2⟩ := p
    rw [hi] at h
    dsimp only at h
    have hint : s1 = int ++ s2 ∧ (int = ['0'] ∨ (Digits int ∧ int.head? ≠ some '0')) := by
      unfold scanInt at hi
      split at hi
      · cases hi
        exact ⟨rfl, .inl rfl⟩
      · rename_i c r' hne
        by_cases hd : c.isDigit = true
        · rw [if_pos hd] at hi
          cases hi
          obtain ⟨e, hall⟩ := spanDigits_sound (c :: r')
          refine ⟨e, .inr ⟨⟨?_, hall⟩, ?_⟩⟩
          · simp [hd]
          · simp only [List.takeWhile_cons, hd, if_true, List.head?_cons]
            rintro he
            cases he
            exact hne rfl
        · rw [if_neg hd] at hi
          cases hi
      · cases hi
    cases hf : scanFrac s2 with
    | none => rw [hf] at h; cases h
    | some p =>
      obtain ⟨frac, s3⟩ := p
      rw [hf] at h
      dsimp only at h
      have hfrac : s2 = frac ++ s3 ∧ (frac = [] ∨ ∃ ds, Digits ds ∧ frac = '.' :: ds) := by
        unfold scanFrac at hf
        split at hf
        · rename_i r'
          by_cases hd : (spanDigits r').1 = []
          · rw [if_pos hd] at hf
            cases hf
          · rw [if_neg hd] at hf
            cases hf
            obtain ⟨e, hall⟩ := spanDigits_sound r'
            exact ⟨by rw [List.cons_append, ← e], .inr ⟨_, ⟨hd, hall⟩, rfl⟩⟩
        · cases hf
          exact ⟨rfl, .inl rfl⟩
      cases he : scanExp s3 with
      | none => rw [he] at h; cases h
      | some p =>
        obtain ⟨exp, s4⟩ := p
        rw [he] at h
        cases h
        have hexp : s3 = exp ++ r ∧ (exp = [] ∨ ∃ e sign ds, (e = 'e' ∨ e = 'E') ∧
            (sign = [] ∨ sign = ['+'] ∨ sign = ['-']) ∧ Digits ds ∧ exp = e :: sign ++ ds) := by
          unfold scanExp at he
          split at he
          · cases he
            exact ⟨rfl, .inl rfl⟩
          · rename_i c r'
            by_cases hc : c = 'e' ∨ c = 'E'
            · rw [if_pos hc] at he
              have hsg : r' = (scanSign r').1 ++ (scanSign r').2 ∧
                  ((scanSign r').1 = [] ∨ (scanSign r').1 = ['+'] ∨ (scanSign r').1 = ['-']) := by
                unfold scanSign
                split
                · exact ⟨rfl, .inr (.inl rfl)⟩
                · exact ⟨rfl, .inr (.inr rfl)⟩
                · exact ⟨rfl, .inl rfl⟩
              generalize scanSign r' = q at he hsg
              obtain ⟨sign, r2⟩ := q
              dsimp only at he hsg
              by_cases hd : (spanDigits r2).1 = []
              · rw [if_pos hd] at he
                cases he
              · rw [if_neg hd] at he
                cases he
                obtain ⟨e, hall⟩ := spanDigits_sound r2
                refine ⟨?_, .inr ⟨c, sign, _, hc, hsg.2, ⟨hd, hall⟩, rfl⟩⟩
                rw [hsg.1]
                simp only [List.cons_append, List.append_assoc, ← e]
            · rw [if_neg hc] at he
              cases he
              exact ⟨rfl, .inl rfl⟩
        refine ⟨?_, ⟨minus, int, frac, exp, rfl, hminus, hint.2, hfrac.2, hexp.2⟩⟩
        rw [hs, hint.1, hfrac.1, hexp.1]
        simp only [List.append_assoc]

/-! ## Texts -/

theorem skipSpace_inv (s : Str) : ∃ w, JsonWs w ∧ s = w ++ skipSpace s := by
  refine ⟨s.takeWhile isJsonSpace, fun c hc => ?_, (List.takeWhile_append_dropWhile).symm⟩
  have := List.all_eq_true.1 (List.all_takeWhile (l := s) (p := isJsonSpace)) c hc
  simp only [isJsonSpace, Bool.or_eq_true, decide_eq_true_eq] at this
  rcases this with ((h | h) | h) | h
  · exact .inl h
  · exact .inr (.inl h)
  · exact .inr (.inr (.inr h))
  · exact .inr (.inr (.inl h))

/-- White space before the members or elements of a text. -/
theorem JsonTextOf.widen {chars : List Char → Str → Prop} {ok : Str → Prop} {h : Nat} {t w : List Char} {p : JsonPart}
    (hw : JsonWs w) (ht : JsonTextOf chars ok h t p) (hp : ∀ v, p ≠ .value v) : JsonTextOf chars ok h (w ++ t) p := by
  have app : ∀ {w1 : List Char}, JsonWs w1 → JsonWs (w ++ w1) := fun h1 c hc =>
    (List.mem_append.1 hc).elim (hw c) (h1 c)
  cases ht with
  | null | true | false | num | str | noMembers | obj | noElems | arr => exact absurd rfl (hp _)
  | member h1 h2 h3 h4 hk hv =>
    have := JsonTextOf.member (app h1) h2 h3 h4 hk hv
    simpa [List.append_assoc] using this
  | moreMembers h1 h2 h3 h4 hk hv ht =>
    have := JsonTextOf.moreMembers (app h1) h2 h3 h4 hk hv ht
    simpa [List.append_assoc] using this
  | elem h1 h2 hv =>
    have := JsonTextOf.elem (app h1) h2 hv
    simpa [List.append_assoc] using this
  | moreElems h1 h2 hv ht =>
    have := JsonTextOf.moreElems (app h1) h2 hv ht
    simpa [List.append_assoc] using this

/-- The texts that the decoder accepts, with all numbers in range. -/
abbrev LooseText (fits : Str → Bool) := JsonTextOf LooseChars (fun s => fits s = true)

theorem sound_all (fits : Str → Bool) : ∀ (n : Nat),
    (∀ d s v r, jvalue fits n d s = some (v, r) → ∃ t, s = t ++ r ∧ LooseText fits (maxNesting - d) t (.value v)) ∧
    (∀ d s ms r, jmembers fits n d s = some (ms, r) →
      ∃ t, s = t ++ '}' :: r ∧ LooseText fits (maxNesting - d) t (.members ms)) ∧
    (∀ d s vs r, jelems fits n d s = some (vs, r) →
      ∃ t, s = t ++ ']' :: r ∧ LooseText fits (maxNesting - d) t (.elems vs)) := by
  intro n
  induction n with
  | zero =>
    refine ⟨fun d s v r h => ?_, fun d s v r h => ?_, fun d s v r h => ?_⟩
    · simp [jvalue] at h
    · simp [jmembers] at h
    · simp [jelems] at h
  | succ n ih =>
    obtain ⟨ihv, ihm, ihe⟩ := ih
    refine ⟨fun d s v r h => ?_, fun d s ms r h => ?_, fun d s vs r h => ?_⟩
    · unfold jvalue at h
      split at h
      · rename_i s'
        cases hj : jstring s'.length s' with
        | none => rw [hj] at h; cases h
        | some p =>
          rw [hj] at h
          cases h
          obtain ⟨t, rfl, h2⟩ := jstring_sound _ (v := p.1) (r := p.2) hj
          exact ⟨'"' :: t ++ ['"'], by simp, .str h2⟩
      · rename_i s'
        by_cases hd : maxNesting ≤ d
        · rw [if_pos hd] at h; cases h
        rw [if_neg hd] at h
        obtain ⟨k, hk⟩ : ∃ k, maxNesting - d = k + 1 ∧ maxNesting - (d + 1) = k := ⟨maxNesting - d - 1, by omega, by omega⟩
        obtain ⟨w, hw, e⟩ := skipSpace_inv s'
        rw [hk.1]
        generalize skipSpace s' = q at h e
        subst e
        split at h
        · cases h
          exact ⟨'{' :: w ++ ['}'], by simp, .noMembers hw⟩
        · cases hm : jmembers fits n (d + 1) q with
          | none => rw [hm] at h; cases h
          | some p =>
            rw [hm] at h
            cases h
            obtain ⟨t, rfl, ht⟩ := ihm _ _ p.1 p.2 hm
            rw [hk.2] at ht
            exact ⟨'{' :: (w ++ t) ++ ['}'], by simp, .obj (ht.widen hw (by intro v h; cases h))⟩
      · rename_i s'
        by_cases hd : maxNesting ≤ d
        · rw [if_pos hd] at h; cases h
        rw [if_neg hd] at h
        obtain ⟨k, hk⟩ : ∃ k, maxNesting - d = k + 1 ∧ maxNesting - (d + 1) = k := ⟨maxNesting - d - 1, by omega, by omega⟩
        obtain ⟨w, hw, e⟩ := skipSpace_inv s'
        rw [hk.1]
        generalize skipSpace s' = q at h e
        subst e
        split at h
        · cases h
          exact ⟨'[' :: w ++ [']'], by simp, .noElems hw⟩
        · cases hm : jelems fits n (d + 1) q with
          | none => rw [hm] at h; cases h
          | some p =>
            rw [hm] at h
            cases h
            obtain ⟨t, rfl, ht⟩ := ihe _ _ p.1 p.2 hm
            rw [hk.2] at ht
            exact ⟨'[' :: (w ++ t) ++ [']'], by simp, .arr (ht.widen hw (by intro v h; cases h))⟩
      · cases h
        exact ⟨['t', 'r', 'u', 'e'], rfl, .true⟩
      · cases h
        exact ⟨['f', 'a', 'l', 's', 'e'], rfl, .false⟩
      · cases h
        exact ⟨['n', 'u', 'l', 'l'], rfl, .null⟩
      · cases hn : scanNumber s with
        | none => rw [hn] at h; cases h
        | some p =>
          rw [hn] at h
          dsimp only at h
          by_cases hf : fits p.1 = true
          · rw [if_pos hf] at h
            cases h
            obtain ⟨e, hnum⟩ := scanNumber_sound (t := p.1) (r := p.2) hn
            exact ⟨_, e, .num hnum hf⟩
          · rw [if_neg hf] at h
            cases h
    · unfold jmembers at h
      split at h
      · rename_i s'
        cases hj : jstring s'.length s' with
        | none => rw [hj] at h; cases h
        | some p =>
          obtain ⟨k, s2⟩ := p
          rw [hj] at h
          obtain ⟨kt, rfl, hk⟩ := jstring_sound _ hj
          dsimp only at h
          obtain ⟨w2, hw2, e2⟩ := skipSpace_inv s2
          generalize skipSpace s2 = q at h e2
          subst e2
          split at h
          · rename_i s3
            obtain ⟨w3, hw3, e3⟩ := skipSpace_inv s3
            generalize skipSpace s3 = q at h e3
            subst e3
            cases hv : jvalue fits n d q with
            | none => rw [hv] at h; cases h
            | some p =>
              obtain ⟨v, s4⟩ := p
              rw [hv] at h
              obtain ⟨vt, rfl, hvt⟩ := ihv _ _ _ _ hv
              dsimp only at h
              obtain ⟨w4, hw4, e4⟩ := skipSpace_inv s4
              generalize skipSpace s4 = q at h e4
              subst e4
              have nows : JsonWs [] := fun c hc => by cases hc
              split at h
              · rename_i s5
                obtain ⟨w5, hw5, e5⟩ := skipSpace_inv s5
                generalize skipSpace s5 = q at h e5
                subst e5
                cases hm : jmembers fits n d q with
                | none => rw [hm] at h; cases h
                | some p =>
                  rw [hm] at h
                  cases h
                  obtain ⟨t, rfl, ht⟩ := ihm _ _ p.1 p.2 hm
                  refine ⟨_, ?_, .moreMembers nows hw2 hw3 hw4 hk hvt (ht.widen hw5 (by intro v h; cases h))⟩
                  simp
              · cases h
                exact ⟨_, by simp, .member nows hw2 hw3 hw4 hk hvt⟩
              · cases h
          · cases h
      · cases h
    · unfold jelems at h
      cases hv : jvalue fits n d s with
      | none => rw [hv] at h; cases h
      | some p =>
        obtain ⟨v, s4⟩ := p
        rw [hv] at h
        obtain ⟨vt, rfl, hvt⟩ := ihv _ _ _ _ hv
        dsimp only at h
        obtain ⟨w4, hw4, e4⟩ := skipSpace_inv s4
        generalize skipSpace s4 = q at h e4
        subst e4
        have nows : JsonWs [] := fun c hc => by cases hc
        split at h
        · rename_i s5
          obtain ⟨w5, hw5, e5⟩ := skipSpace_inv s5
          generalize skipSpace s5 = q at h e5
          subst e5
          cases hm : jelems fits n d q with
          | none => rw [hm] at h; cases h
          | some p =>
            rw [hm] at h
            cases h
            obtain ⟨t, rfl, ht⟩ := ihe _ _ p.1 p.2 hm
            exact ⟨_, by simp, .moreElems nows hw4 hvt (ht.widen hw5 (by intro v h; cases h))⟩
        · cases h
          exact ⟨_, by simp, .elem nows hw4 hvt⟩
        · cases h

/-- Whatever is decoded is a JSON text with white space around it. -/
theorem jsonDecode_sound {fits : Str → Bool} {s : Str} {v : JTree} (h : jsonDecode fits s = some v) :
    ∃ w1 t w2, s = w1 ++ t ++ w2 ∧ JsonWs w1 ∧ JsonWs w2 ∧ LooseText fits maxNesting t (.value v) := by
  unfold jsonDecode at h
  obtain ⟨w1, hw1, e⟩ := skipSpace_inv s
  cases hv : jvalue fits (2 * s.length + 1) 0 (skipSpace s) with
  | none => rw [hv] at h; cases h
  | some p =>
    obtain ⟨v', r⟩ := p
    rw [hv] at h
    dsimp only at h
    by_cases hr : skipSpace r = []
    · rw [if_pos hr] at h
      cases h
      obtain ⟨t, e1, ht⟩ := (sound_all fits _).1 _ _ _ _ hv
      obtain ⟨w2, hw2, e2⟩ := skipSpace_inv r
      rw [hr, List.append_nil] at e2
      refine ⟨w1, t, w2, ?_, hw1, hw2, ht⟩
      rw [e, e1, e2, List.append_assoc]
    · rw [if_neg hr] at h
      cases h

end J8a

import Verif.Spec.ReSyntax
import Verif.Lemmas.Anchor
import Verif.Lemmas.Json
/-!
# The words of a regular expression
-/
namespace J8a.Syn
open Go

def Word.tok : Word → Tok
  | .piece r => .piece r
  | .rep op => .rep op
  | .opn => .opn
  | .cls => .cls
  | .bar => .bar
  | .nop => .nop

theorem Word.tok_ne_bad (w : Word) : w.tok ≠ .bad := by cases w <;> simp [Word.tok]
theorem Word.tok_ne_other (w : Word) : w.tok ≠ .other := by cases w <;> simp [Word.tok]

/-! ## Numbers -/

theorem digit_char : ∀ c : Char, c.isDigit = true → ∃ d, d < 10 ∧ c = Nat.digitChar d ∧ c.toNat - 48 = d := by
  intro c h
  have h1 : 48 ≤ c.toNat ∧ c.toNat ≤ 57 := by
    simp only [Char.isDigit, Bool.and_eq_true, decide_eq_true_eq] at h
    exact ⟨h.1, h.2⟩
  refine ⟨c.toNat - 48, by omega, ?_, rfl⟩
  have h2 : ∀ d : Fin 10, Nat.digitChar d.val = Char.ofNat (d.val + 48) := by decide
  have := h2 ⟨c.toNat - 48, by omega⟩
  simp only at this
  rw [this, show c.toNat - 48 + 48 = c.toNat by omega, Char.ofNat_toNat]

theorem natToDec_of_digits : ∀ (n : Nat) (d : Str), d.length = n → d ≠ [] → (∀ c ∈ d, c.isDigit = true) →
    ¬ (1 < d.length ∧ d.head? = some '0') → natToDec (digitsVal d) = d := by
  intro n
  induction n with
  | zero => intro d h h'; exact absurd (List.eq_nil_of_length_eq_zero h) h'
  | succ n ih =>
    intro d hl hne hd hz
    obtain ⟨d0, c, rfl⟩ : ∃ d0 c, d = d0 ++ [c] := ⟨d.dropLast, d.getLast hne, (List.dropLast_concat_getLast hne).symm⟩
    obtain ⟨k, hk, hc, hv⟩ := digit_char c (hd c (by simp))
    have hval : digitsVal (d0 ++ [c]) = 10 * digitsVal d0 + k := by simp [digitsVal, List.foldl_append, hv]
    rw [hval]
    cases d0 with
    | nil =>
      simp only [digitsVal, List.foldl_nil, natToDec, List.nil_append]
      rw [show 10 * 0 + k = k by omega, Nat.toDigits_of_lt_base hk, hc]
    | cons a d0 =>
      have ih' := ih (a :: d0) (by simpa using hl) (by simp) (fun x hx => hd x (by
        rcases List.mem_cons.1 hx with rfl | hx
        · simp
        · simp [hx])) (by
          rintro ⟨-, h2⟩
          exact hz ⟨by simp, by simpa using h2⟩)
      have hpos : 0 < digitsVal (a :: d0) := by
        rcases Nat.eq_zero_or_pos (digitsVal (a :: d0)) with h0 | h0
        · rw [h0] at ih'
          have h3 : natToDec 0 = ['0'] := by decide
          rw [h3] at ih'
          injection ih' with h4 h5
          exact absurd ⟨by simp, by simp [← h4]⟩ hz
        · exact h0
      unfold natToDec at ih' ⊢
      have := Nat.toDigits_append_toDigits (b := 10) (by decide) hpos hk
      rw [← this, ih', Nat.toDigits_of_lt_base hk, hc]

/-- Where a number ends. -/
def NoDigit (r : Str) : Prop := ∀ c u, r = c :: u → c.isDigit = false

theorem reInt_iff (s r : Str) (n : Nat) : reInt s = some (n, r) ↔ s = natToDec n ++ r ∧ NoDigit r := by
  constructor
  · intro h
    unfold reInt at h
    simp only at h
    split at h
    · cases h
    · rename_i hn
      simp only [not_or] at hn
      have h1 : digitsVal (s.takeWhile Char.isDigit) = n := by
        injection h with h; injection h
      have h2 : s.dropWhile Char.isDigit = r := by
        injection h with h; injection h
      have hd : ∀ c ∈ s.takeWhile Char.isDigit, c.isDigit = true := fun c hc => List.all_eq_true.1
        (List.all_takeWhile (p := Char.isDigit) (l := s)) c hc
      have h3 := natToDec_of_digits _ (s.takeWhile Char.isDigit) rfl hn.1 hd hn.2
      rw [h1] at h3
      refine ⟨by rw [h3, ← h2, List.takeWhile_append_dropWhile], ?_⟩
      intro c u hc
      rw [hc] at h2
      have := List.head?_dropWhile_not Char.isDigit s
      rw [h2] at this
      simpa using this
  · rintro ⟨rfl, hr⟩
    have hd : ∀ c ∈ natToDec n, c.isDigit = true := fun c hc => natToDec_isDigit hc
    have h1 : (natToDec n ++ r).takeWhile Char.isDigit = natToDec n := by
      rw [List.takeWhile_append_of_pos hd]
      cases r with
      | nil => simp
      | cons c u => rw [List.takeWhile_cons_of_neg (by simp [hr c u rfl])]; simp
    have h2 : (natToDec n ++ r).dropWhile Char.isDigit = r := by
      rw [List.dropWhile_append_of_pos hd]
      cases r with
      | nil => simp
      | cons c u => rw [List.dropWhile_cons_of_neg (by simp [hr c u rfl])]
    unfold reInt
    simp only [h1, h2]
    rw [if_neg]
    · have := digitsVal_natToDec n
      unfold digitsVal at this
      simpa using this
    · rintro (h | ⟨h, h'⟩)
      · exact natToDec_ne_nil n h
      · have := natToDec_zero_head h'
        subst this
        exact absurd h (by decide)

theorem noDigit_brace (r : Str) : NoDigit ('}' :: r) := by
  rintro c u h; injection h with h; subst h; decide

theorem noDigit_comma (r : Str) : NoDigit (',' :: r) := by
  rintro c u h; injection h with h; subst h; decide

theorem digit_head (m : Nat) : ∃ c u, natToDec m = c :: u ∧ c.isDigit = true := by
  cases h : natToDec m with
  | nil => exact absurd h (natToDec_ne_nil m)
  | cons c u => exact ⟨c, u, rfl, natToDec_isDigit (n := m) (by rw [h]; simp)⟩

theorem reRange_iff (s r : Str) (min : Nat) (max : Option Nat) :
    reRange s = some (min, max, r) ↔ ∃ t, Counted t min max ∧ s = t ++ r := by
  constructor
  · intro h
    unfold reRange at h
    split at h
    · cases h
    · rename_i n u h1; cases h
      exact ⟨_, .exactly _, by rw [((reInt_iff _ _ _).1 h1).1]; simp⟩
    · rename_i n u h1; cases h
      exact ⟨_, .atLeast _, by rw [((reInt_iff _ _ _).1 h1).1]; simp⟩
    · rename_i n u _ h1
      split at h
      · rename_i m v h2; cases h
        refine ⟨_, .between _ _, ?_⟩
        rw [((reInt_iff _ _ _).1 h1).1, ((reInt_iff _ _ _).1 h2).1]; simp
      · cases h
    · cases h
  · rintro ⟨t, ht, rfl⟩
    cases ht with
    | exactly n =>
      have := (reInt_iff (natToDec min ++ '}' :: r) _ min).2 ⟨rfl, noDigit_brace r⟩
      have e : natToDec min ++ "}".toList ++ r = natToDec min ++ '}' :: r := by simp
      rw [e]
      unfold reRange
      rw [this]
      rfl
    | atLeast n =>
      have := (reInt_iff (natToDec min ++ ',' :: '}' :: r) _ min).2 ⟨rfl, noDigit_comma _⟩
      have e : natToDec min ++ ",}".toList ++ r = natToDec min ++ ',' :: '}' :: r := by simp
      rw [e]
      unfold reRange
      rw [this]
      rfl
    | between n m =>
      have h1 := (reInt_iff (natToDec min ++ ',' :: (natToDec m ++ '}' :: r)) _ min).2 ⟨rfl, noDigit_comma _⟩
      have h2 := (reInt_iff (natToDec m ++ '}' :: r) _ m).2 ⟨rfl, noDigit_brace r⟩
      have e : natToDec min ++ ",".toList ++ natToDec m ++ "}".toList ++ r =
        natToDec min ++ ',' :: (natToDec m ++ '}' :: r) := by simp
      rw [e]
      obtain ⟨c, u, hc, hd⟩ := digit_head m
      unfold reRange
      rw [h1]
      rw [hc] at h2 ⊢
      split
      · rename_i heq; cases heq
      · rename_i heq; simp at heq
      · rename_i heq
        simp at heq
        rw [heq.2.1] at hd
        exact absurd hd (by decide)
      · rename_i heq
        simp only [Option.some.injEq, Prod.mk.injEq, List.cons_append, List.cons.injEq, true_and] at heq
        obtain ⟨rfl, rfl⟩ := heq
        simp only [List.cons_append] at h2
        rw [h2]
        rfl
      · rename_i h4 heq
        injection heq with heq
        exact absurd heq.symm (h4 _ _)

theorem rangeOk_iff (min : Nat) (max : Option Nat) : rangeOk min max = true ↔ InBounds min max := by
  unfold rangeOk InBounds
  cases max with
  | none => simp
  | some m => simp; omega

/-! ## Classes -/

theorem classText_ne {first : Bool} {t : Str} {l : List (Char × Char)} (h : ClassText first t l) : t ≠ [] := by
  cases h <;> simp

theorem classText_dash {first : Bool} {u : Str} {l : List (Char × Char)} (h : ClassText first ('-' :: u) l) : u ≠ [] := by
  cases h with
  | range => simp
  | one _ _ _ _ _ _ _ _ ht => exact classText_ne ht

theorem classItems_sound : ∀ (n : Nat) (first : Bool) (acc : List (Char × Char)) (s : Str) (l : List (Char × Char))
    (r : Str), classItems n first acc s = .ok l r →
      ∃ t m, ClassText first t m ∧ s = t ++ r ∧ l = acc.reverse ++ m := by
  intro n
  induction n with
  | zero => intro first acc s l r h; simp [classItems] at h
  | succ n ih =>
    intro first acc s l r h
    cases s with
    | nil => simp [classItems] at h
    | cons c s =>
      unfold classItems at h
      split at h
      · rename_i hc; cases h
        obtain ⟨rfl, rfl⟩ := hc
        exact ⟨_, _, .close, rfl, by simp⟩
      · rename_i hc
        have hc1 : c = ']' → first = true := fun h => by
          cases first
          · exact absurd ⟨h, rfl⟩ hc
          · rfl
        split at h
        · cases h
        · rename_i hc2
          simp only [not_or] at hc2
          split at h
          · rename_i hi s'
            split at h
            · rename_i hhi
              subst hhi
              obtain ⟨t, m, ht, hs, rfl⟩ := ih _ _ _ _ _ h
              refine ⟨c :: t, (c, c) :: m, .one _ _ _ _ hc1 hc2.1 ?_ ?_ ht, by rw [hs]; rfl, by simp⟩
              · rintro ⟨-, u, rfl⟩; cases hs
              · rintro k u rfl
                simp only [List.cons_append, List.cons.injEq, true_and] at hs
                exact hs.1.symm
            · rename_i hhi
              split at h
              · cases h
              · rename_i hhi'
                split at h
                · cases h
                · rename_i hle
                  obtain ⟨t, m, ht, hs, rfl⟩ := ih _ _ _ _ _ h
                  exact ⟨c :: '-' :: hi :: t, (c, hi) :: m,
                    .range _ _ _ _ _ hc1 hc2.1 ⟨hhi, hhi'⟩ (Char.not_lt.1 hle) ht, by rw [hs]; rfl, by simp⟩
          · rename_i hnd
            obtain ⟨t, m, ht, hs, rfl⟩ := ih _ _ _ _ _ h
            refine ⟨c :: t, (c, c) :: m, .one _ _ _ _ hc1 hc2.1 ?_ ?_ ht, by rw [hs]; rfl, by simp⟩
            · rintro ⟨rfl, u, rfl⟩
              exact hc2.2 ⟨rfl, by rw [hs]; rfl⟩
            · rintro k u rfl
              exact absurd hs (hnd k (u ++ r))

theorem classItems_complete {first : Bool} {t : Str} {m : List (Char × Char)} (h : ClassText first t m) :
    ∀ (n : Nat) (acc : List (Char × Char)) (r : Str), t.length ≤ n →
      classItems n first acc (t ++ r) = .ok (acc.reverse ++ m) r := by
  induction h with
  | close =>
    intro n acc r hn
    cases n with
    | zero => simp at hn
    | succ n => simp [classItems]
  | range first lo hi t l h1 h2 h3 h4 _ ih =>
    intro n acc r hn
    cases n with
    | zero => simp at hn
    | succ n =>
      simp only [List.length_cons] at hn
      have hne : ¬ (lo = ']' ∧ first = false) := by
        rintro ⟨h, h'⟩; rw [h1 h] at h'; cases h'
      simp only [List.cons_append, classItems]
      rw [if_neg hne, if_neg (by rintro (h | ⟨-, h⟩); exact h2 h; simp at h), if_neg h3.1, if_neg h3.2,
        if_neg (Char.not_lt.2 h4), ih n _ r (by omega)]
      simp
  | one first c t l h1 h2 h3 h4 ht ih =>
    intro n acc r hn
    cases n with
    | zero => simp at hn
    | succ n =>
      simp only [List.length_cons] at hn
      have hne : ¬ (c = ']' ∧ first = false) := by
        rintro ⟨h, h'⟩; rw [h1 h] at h'; cases h'
      obtain ⟨a, t, rfl⟩ : ∃ a u, t = a :: u := by
        cases t with
        | nil => exact absurd rfl (classText_ne ht)
        | cons a u => exact ⟨a, u, rfl⟩
      simp only [List.cons_append, classItems]
      rw [if_neg hne, if_neg (by
        rintro (h | ⟨h, h'⟩)
        · exact h2 h
        · exact h3 ⟨h, t, by simp at h'; rw [h']⟩)]
      have := ih n ((c, c) :: acc) r (by omega)
      simp only [List.cons_append] at this
      split
      · rename_i k u hk
        simp only [List.cons.injEq] at hk
        obtain ⟨rfl, hk⟩ := hk
        have hk1 : k = ']' := by
          cases t with
          | nil => exact absurd rfl (classText_dash ht)
          | cons b t =>
            simp only [List.cons_append, List.cons.injEq] at hk
            exact hk.1 ▸ h4 b t rfl
        rw [if_pos hk1, this]
        simp
      · rw [this]; simp

/-! ## Quotations -/

theorem quoted_sound : ∀ s : Str, (¬ "\\E".toList <:+: (quoted s).1) ∧
    (s = (quoted s).1 ++ "\\E".toList ++ (quoted s).2 ∨ s = (quoted s).1 ∧ (quoted s).2 = []) := by
  intro s
  induction s with
  | nil => exact ⟨by decide, .inr ⟨rfl, rfl⟩⟩
  | cons c s ih =>
    cases s with
    | nil =>
      refine ⟨?_, .inr ⟨rfl, rfl⟩⟩
      intro h
      have := h.length_le
      simp [quoted] at this
    | cons d s =>
      rw [quoted]
      split
      · rename_i h; obtain ⟨rfl, rfl⟩ := h
        exact ⟨(by decide : ¬ "\\E".toList <:+: []), .inl rfl⟩
      · rename_i hcd
        refine ⟨?_, ?_⟩
        · rintro ⟨a, b, hab⟩
          cases a with
          | nil =>
            simp only [List.nil_append] at hab
            have h1 : c = '\\' := by simp at hab; exact hab.1.symm
            have h2 : (quoted (d :: s)).1 = 'E' :: b := by simp at hab; exact hab.2.symm
            have h3 : d = 'E' := by
              rcases ih.2 with h | ⟨h, -⟩
              · rw [h2] at h; injection h
              · rw [h2] at h; injection h
            exact hcd ⟨h1, h3⟩
          | cons x a =>
            simp only [List.cons_append, List.cons.injEq] at hab
            exact ih.1 ⟨a, b, by simpa using hab.2⟩
        · rcases ih.2 with h | ⟨h, h'⟩
          · left; simp only [List.cons_append]; rw [← h]
          · right; exact ⟨by simp only; rw [← h], h'⟩

theorem quoted_complete : ∀ q : Str, (¬ "\\E".toList <:+: q) → ∀ r, quoted (q ++ "\\E".toList ++ r) = (q, r) := by
  intro q
  induction q with
  | nil => intro _ r; simp [quoted]
  | cons c q ih =>
    intro h r
    have ih' := ih (fun ⟨a, b, hab⟩ => h ⟨c :: a, b, by simp only [← hab]; simp⟩) r
    cases q with
    | nil =>
      simp only [List.nil_append] at ih'
      have e : [c] ++ "\\E".toList ++ r = c :: '\\' :: 'E' :: r := by simp
      rw [e, quoted, if_neg (by rintro ⟨-, h⟩; exact absurd h (by decide))]
      have e2 : "\\E".toList ++ r = '\\' :: 'E' :: r := by simp
      rw [e2] at ih'
      rw [ih']
    | cons d q =>
      simp only [List.cons_append] at ih' ⊢
      rw [quoted, if_neg, ih']
      rintro ⟨rfl, rfl⟩
      exact h ⟨[], q, by simp⟩

theorem quoted_end : ∀ q : Str, (¬ "\\E".toList <:+: q) → quoted q = (q, []) := by
  intro q
  induction q with
  | nil => intro _; rfl
  | cons c q ih =>
    intro h
    have ih' := ih (fun ⟨a, b, hab⟩ => h ⟨c :: a, b, by simp only [← hab]; simp⟩)
    cases q with
    | nil => rfl
    | cons d q =>
      rw [quoted, if_neg, ih']
      rintro ⟨rfl, rfl⟩
      exact h ⟨[], q, by simp⟩

/-! ## Escapes -/

theorem escaped_cases (c : Char) : escaped c = .bad ∨ escaped c = .other ∨ (∃ p ∈ letters, c = p.1) ∨
    (escaped c = .piece (one c) ∧ c.toNat < 128 ∧ c.isAlphanum = false) := by
  by_cases h : ∃ p ∈ letters, c = p.1
  · exact .inr (.inr (.inl h))
  · have hn : ∀ p ∈ letters, c ≠ p.1 := fun p hp hc => h ⟨p, hp, hc⟩
    have hd : ∀ d ∈ letters.map Prod.fst, c ≠ d := by
      intro d hd
      obtain ⟨p, hp, rfl⟩ := List.mem_map.1 hd
      exact hn p hp
    unfold escaped
    iterate 16 rw [if_neg (hd _ (by decide))]
    by_cases h1 : (('0' ≤ c && c ≤ '7') || decide (c = 'x') || decide (c = 'p') || decide (c = 'P')) = true
    · rw [if_pos h1]; exact .inr (.inl rfl)
    · rw [if_neg h1]
      by_cases h2 : c.toNat < 128 ∧ c.isAlphanum = false
      · rw [if_pos h2]; exact .inr (.inr (.inr ⟨rfl, h2⟩))
      · rw [if_neg h2]; exact .inl rfl

theorem escaped_punct (c : Char) (h : c.toNat < 128) (h' : c.isAlphanum = false) : escaped c = .piece (one c) := by
  have hd : ∀ d, d.isAlphanum = true → c ≠ d := by rintro d hd rfl; rw [h'] at hd; cases hd
  unfold escaped
  iterate 16 rw [if_neg (hd _ (by decide))]
  rw [if_neg, if_pos ⟨h, h'⟩]
  · rfl
  · simp only [Bool.or_eq_true, Bool.and_eq_true, decide_eq_true_eq, not_or]
    refine ⟨⟨⟨?_, hd _ (by decide)⟩, hd _ (by decide)⟩, hd _ (by decide)⟩
    rintro ⟨h1, h2⟩
    have : c.isDigit = true := by
      simp only [Char.isDigit, Bool.and_eq_true, decide_eq_true_eq]
      exact ⟨h1, Nat.le_trans h2 (by decide)⟩
    simp [Char.isAlphanum, this] at h'

theorem escaped_letter : ∀ p ∈ letters, escaped p.1 = .piece p.2 := by decide +kernel

theorem escaped_sound {c : Char} {w : Word} (h : escaped c = w.tok) (r : Str) : ReadsAs ['\\', c] r [w] := by
  rcases escaped_cases c with h1 | h1 | ⟨p, hp, rfl⟩ | ⟨h1, h2, h3⟩
  · rw [h1] at h; exact absurd h.symm w.tok_ne_bad
  · rw [h1] at h; exact absurd h.symm w.tok_ne_other
  · rw [escaped_letter p hp] at h
    cases w <;> simp [Word.tok] at h
    subst h
    exact .letter _ _ _ hp
  · rw [h1] at h
    cases w <;> simp [Word.tok] at h
    subst h
    exact .punct _ _ h2 h3

/-! ## One word -/

theorem map_one {ws : List Word} {t : Tok} (h : [t] = ws.map Word.tok) : ∃ w, ws = [w] ∧ t = w.tok := by
  cases ws with
  | nil => cases h
  | cons w ws =>
    cases ws with
    | nil => injection h with h; exact ⟨w, rfl, h⟩
    | cons _ _ => injection h with _ h; cases h

theorem map_lits {q : Str} {ws : List Word} (h : q.map (fun c => Tok.piece (.lit c)) = ws.map Word.tok) :
    ws = q.map fun c => .piece (one c) := by
  induction q generalizing ws with
  | nil => cases ws with
    | nil => rfl
    | cons _ _ => cases h
  | cons c q ih =>
    cases ws with
    | nil => cases h
    | cons w ws =>
      simp only [List.map_cons, List.cons.injEq] at h
      rw [ih h.2]
      cases w <;> simp [Word.tok] at h
      rw [List.map_cons, ← h.1]; rfl

theorem dropLazy_cases (r : Str) : (dropLazy r = r ∧ ∀ u, r ≠ '?' :: u) ∨ r = '?' :: dropLazy r := by
  unfold dropLazy
  split
  · exact .inr rfl
  · rename_i h; exact .inl ⟨rfl, h⟩

theorem rep_sound {t : Str} {op : RepOp} (ht : RepText t op) (r : Str) {ws : List Word}
    (h : [Tok.rep op] = ws.map Word.tok) : ∃ t' , t ++ r = t' ++ dropLazy r ∧ ReadsAs t' (dropLazy r) ws := by
  obtain ⟨w, rfl, hw⟩ := map_one h
  have : w = .rep op := by cases w <;> simp [Word.tok] at hw; rw [hw]
  subst this
  rcases dropLazy_cases r with ⟨h1, h2⟩ | h1
  · exact ⟨t, by rw [h1], .rep _ _ _ ht (by rw [h1]; exact h2)⟩
  · refine ⟨t ++ "?".toList, ?_, .repLazy _ _ _ ht⟩
    have e : t ++ "?".toList ++ dropLazy r = t ++ '?' :: dropLazy r := by simp
    rw [e, ← h1]

theorem piece_word {ws : List Word} {e : Re} (h : [Tok.piece e] = ws.map Word.tok) : ws = [.piece e] := by
  obtain ⟨w, rfl, hw⟩ := map_one h
  cases w <;> simp [Word.tok] at hw
  rw [hw]

theorem opn_word {ws : List Word} (h : [Tok.opn] = ws.map Word.tok) : ws = [.opn] := by
  obtain ⟨w, rfl, hw⟩ := map_one h
  cases w <;> simp [Word.tok] at hw
  rfl

theorem not_bad {ws : List Word} (h : [Tok.bad] = ws.map Word.tok) : False := by
  obtain ⟨w, rfl, hw⟩ := map_one h
  exact w.tok_ne_bad hw.symm

theorem not_other {ws : List Word} (h : [Tok.other] = ws.map Word.tok) : False := by
  obtain ⟨w, rfl, hw⟩ := map_one h
  exact w.tok_ne_other hw.symm

theorem tokLong_sound {c : Char} (hc : c ∈ "({[\\".toList) {r : Str} {ws : List Word} {o : Option Str}
    (h : tokLong c r = (ws.map Word.tok, o)) : ∃ t r', o = some r' ∧ c :: r = t ++ r' ∧ ReadsAs t r' ws := by
  unfold tokLong at h
  by_cases h1 : c = '('
  · subst h1
    rw [if_pos rfl] at h
    split at h
    · simp only [Prod.mk.injEq] at h
      rw [opn_word h.1]
      exact ⟨_, _, h.2.symm, by simp, .opnOnly _⟩
    · simp only [Prod.mk.injEq] at h
      exact absurd h.1 not_other
    · rename_i hn1 hn2
      simp only [Prod.mk.injEq] at h
      rw [opn_word h.1]
      exact ⟨"(".toList, _, h.2.symm, by simp, .opn _ hn2⟩
  rw [if_neg h1] at h
  by_cases h2 : c = '{'
  · subst h2
    rw [if_pos rfl] at h
    split at h
    · rename_i hr
      simp only [Prod.mk.injEq] at h
      rw [piece_word h.1]
      refine ⟨"{".toList, r, h.2.symm, by simp, .brace _ ?_⟩
      rintro t u min max ht rfl
      rw [(reRange_iff _ _ _ _).2 ⟨t, ht, rfl⟩] at hr
      cases hr
    · rename_i hr
      obtain ⟨t, ht, rfl⟩ := (reRange_iff _ _ _ _).1 hr
      split at h
      · rename_i hb
        simp only [Prod.mk.injEq] at h
        obtain ⟨t', he, ht'⟩ := rep_sound (.counted _ _ _ ht ((rangeOk_iff _ _).1 hb)) _ h.1
        exact ⟨t', _, h.2.symm, by simpa using he, ht'⟩
      · simp only [Prod.mk.injEq] at h
        exact absurd h.1 not_bad
  rw [if_neg h2] at h
  by_cases h3 : c = '['
  · subst h3
    rw [if_pos rfl] at h
    split at h
    · rename_i l rest hr
      simp only [Prod.mk.injEq] at h
      rw [piece_word h.1]
      obtain ⟨t, m, ht, hs, rfl⟩ := classItems_sound _ _ _ _ _ _ hr
      cases r with
      | nil =>
        simp at hs
        exact absurd hs.1 (classText_ne ht)
      | cons d r =>
        by_cases hd : d = '^'
        · subst hd
          simp only [List.head?_cons, if_true, List.tail_cons] at hs
          refine ⟨'[' :: '^' :: t, rest, h.2.symm, by rw [hs]; simp, ?_⟩
          simpa using .noneOf t rest l ht
        · have : (some d = some '^') = False := by simp [hd]
          simp only [List.head?_cons, this, if_false] at hs
          refine ⟨'[' :: t, rest, h.2.symm, by rw [hs]; simp, ?_⟩
          simp only [List.head?_cons, this, decide_false]
          refine .oneOf t rest l ht ?_
          rintro u rfl
          injection hs with hs
          exact hd hs
    · simp only [Prod.mk.injEq] at h
      exact absurd h.1 not_bad
    · simp only [Prod.mk.injEq] at h
      exact absurd h.1 not_other
  rw [if_neg h3] at h
  have h4 : c = '\\' := by simp at hc; simpa [h1, h2, h3] using hc
  subst h4
  split at h
  · simp only [Prod.mk.injEq] at h
    exact absurd h.1 not_bad
  · rename_i d r
    split at h
    · rename_i hd
      subst hd
      simp only [Prod.mk.injEq] at h
      obtain ⟨hE, hq⟩ := quoted_sound r
      generalize quoted r = qr at h hE hq
      split at h
      · rename_i hemp
        obtain ⟨w, rfl, hw⟩ := map_one h.1
        have : w = .nop := by cases w <;> simp [Word.tok] at hw; rfl
        subst this
        rw [hemp] at hq
        rcases hq with hq | ⟨hq, hq'⟩
        · exact ⟨_, _, h.2.symm, by rw [hq]; simp, .nop _⟩
        · exact ⟨"\\Q".toList, [], by rw [← h.2, hq'], by rw [hq]; simp, .nopEnd⟩
      · rename_i hne
        rw [map_lits h.1]
        rcases hq with hq | ⟨hq, hq'⟩
        · exact ⟨_, _, h.2.symm, by simpa using hq, .quote _ _ hne hE⟩
        · exact ⟨"\\Q".toList ++ qr.1, [], by rw [← h.2, hq'], by simpa using hq, .quoteRest _ hne hE⟩
    · simp only [Prod.mk.injEq] at h
      obtain ⟨w, rfl, hw⟩ := map_one h.1
      exact ⟨_, _, h.2.symm, rfl, escaped_sound hw r⟩

theorem tok1_sound {c : Char} {r : Str} {ws : List Word} {o : Option Str}
    (h : tok1 c r = (ws.map Word.tok, o)) : ∃ t r', o = some r' ∧ c :: r = t ++ r' ∧ ReadsAs t r' ws := by
  unfold tok1 at h
  by_cases h1 : c = '^'
  · subst h1; rw [if_pos rfl, Prod.mk.injEq] at h
    rw [piece_word h.1]; exact ⟨_, _, h.2.symm, by simp, .bol _⟩
  rw [if_neg h1] at h
  by_cases h2 : c = '$'
  · subst h2; rw [if_pos rfl, Prod.mk.injEq] at h
    rw [piece_word h.1]; exact ⟨_, _, h.2.symm, by simp, .eol _⟩
  rw [if_neg h2] at h
  by_cases h3 : c = '.'
  · subst h3; rw [if_pos rfl, Prod.mk.injEq] at h
    rw [piece_word h.1]; exact ⟨_, _, h.2.symm, by simp, .any _⟩
  rw [if_neg h3] at h
  by_cases h4 : c = '|'
  · subst h4; rw [if_pos rfl, Prod.mk.injEq] at h
    obtain ⟨w, rfl, hw⟩ := map_one h.1
    have : w = .bar := by cases w <;> simp [Word.tok] at hw; rfl
    subst this
    exact ⟨_, _, h.2.symm, by simp, .bar _⟩
  rw [if_neg h4] at h
  by_cases h5 : c = ')'
  · subst h5; rw [if_pos rfl, Prod.mk.injEq] at h
    obtain ⟨w, rfl, hw⟩ := map_one h.1
    have : w = .cls := by cases w <;> simp [Word.tok] at hw; rfl
    subst this
    exact ⟨_, _, h.2.symm, by simp, .cls _⟩
  rw [if_neg h5] at h
  by_cases h6 : c = '*'
  · subst h6; rw [if_pos rfl, Prod.mk.injEq] at h
    obtain ⟨t', he, ht'⟩ := rep_sound .star r h.1
    exact ⟨t', _, h.2.symm, by simpa using he, ht'⟩
  rw [if_neg h6] at h
  by_cases h7 : c = '+'
  · subst h7; rw [if_pos rfl, Prod.mk.injEq] at h
    obtain ⟨t', he, ht'⟩ := rep_sound .plus r h.1
    exact ⟨t', _, h.2.symm, by simpa using he, ht'⟩
  rw [if_neg h7] at h
  by_cases h8 : c = '?'
  · subst h8; rw [if_pos rfl, Prod.mk.injEq] at h
    obtain ⟨t', he, ht'⟩ := rep_sound .quest r h.1
    exact ⟨t', _, h.2.symm, by simpa using he, ht'⟩
  rw [if_neg h8] at h
  by_cases h9 : c ∈ "({[\\".toList
  · rw [if_pos h9] at h; exact tokLong_sound h9 h
  · rw [if_neg h9, Prod.mk.injEq] at h
    rw [piece_word h.1]
    refine ⟨[c], _, h.2.symm, rfl, .lit c r ?_⟩
    intro hm
    have hs : special = ['^', '$', '.', '|', ')', '*', '+', '?'] ++ "({[\\".toList := by decide
    rw [hs, List.mem_append] at hm
    rcases hm with hm | hm
    · simp only [List.mem_cons, List.not_mem_nil, or_false] at hm
      rcases hm with h | h | h | h | h | h | h | h
      · exact h1 h
      · exact h2 h
      · exact h3 h
      · exact h4 h
      · exact h5 h
      · exact h6 h
      · exact h7 h
      · exact h8 h
    · exact h9 hm

theorem dropLazy_of {r : Str} (h : ∀ u, r ≠ '?' :: u) : dropLazy r = r := by
  rcases dropLazy_cases r with ⟨h1, -⟩ | h1
  · exact h1
  · exact absurd h1 (h _)

theorem rep_complete {t : Str} {op : RepOp} (ht : RepText t op) (r : Str) :
    ∃ c u, t = c :: u ∧ tok1 c (u ++ r) = ([.rep op], some (dropLazy r)) := by
  cases ht with
  | star => exact ⟨'*', [], rfl, by simp [tok1]⟩
  | plus => exact ⟨'+', [], rfl, by simp [tok1]⟩
  | quest => exact ⟨'?', [], rfl, by simp [tok1]⟩
  | counted t min max ht hb =>
    refine ⟨'{', t, rfl, ?_⟩
    have := (reRange_iff _ r _ _).2 ⟨t, ht, rfl⟩
    simp [tok1, tokLong, this, (rangeOk_iff _ _).2 hb]

theorem map_one_tok (q : Str) : (q.map fun c => Word.piece (one c)).map Word.tok =
    q.map fun c => Tok.piece (.lit c) := by
  rw [List.map_map]; rfl

theorem tok1_complete {t r : Str} {ws : List Word} (h : ReadsAs t r ws) :
    ∃ c u, t = c :: u ∧ tok1 c (u ++ r) = (ws.map Word.tok, some r) := by
  cases h with
  | bol => exact ⟨'^', [], rfl, by simp [tok1, Word.tok]⟩
  | eol => exact ⟨'$', [], rfl, by simp [tok1, Word.tok]⟩
  | any => exact ⟨'.', [], rfl, by simp [tok1, Word.tok]⟩
  | bar => exact ⟨'|', [], rfl, by simp [tok1, Word.tok]⟩
  | cls => exact ⟨')', [], rfl, by simp [tok1, Word.tok]⟩
  | opn _ h =>
    refine ⟨'(', [], rfl, ?_⟩
    simp only [tok1, tokLong, List.nil_append]
    simp only [show ('(' ∈ "({[\\".toList) = True by simp, if_true, show ('(' = '^') = False by decide,
      show ('(' = '$') = False by decide, show ('(' = '.') = False by decide, show ('(' = '|') = False by decide,
      show ('(' = ')') = False by decide, show ('(' = '*') = False by decide, show ('(' = '+') = False by decide,
      show ('(' = '?') = False by decide, if_false]
    split
    · exact absurd rfl (h _)
    · exact absurd rfl (h _)
    · rfl
  | opnOnly => exact ⟨'(', ['?', ':'], rfl, by simp [tok1, tokLong, Word.tok]⟩
  | rep _ _ op ht h =>
    obtain ⟨c, u, h1, h2⟩ := rep_complete ht r
    exact ⟨c, u, h1, by rw [h2, dropLazy_of h]; rfl⟩
  | repLazy t _ op ht =>
    obtain ⟨c, u, h1, h2⟩ := rep_complete ht ('?' :: r)
    refine ⟨c, u ++ "?".toList, by rw [h1]; rfl, ?_⟩
    have e : u ++ "?".toList ++ r = u ++ '?' :: r := by simp
    rw [e, h2]; rfl
  | lit c _ h =>
    refine ⟨c, [], rfl, ?_⟩
    have hd : ∀ d ∈ special, c ≠ d := by rintro d hd rfl; exact h hd
    unfold tok1
    iterate 8 rw [if_neg (hd _ (by decide))]
    rw [if_neg]
    · rfl
    · intro hc
      exact h ((by decide : ∀ d ∈ "({[\\".toList, d ∈ special) c hc)
  | brace _ h =>
    refine ⟨'{', [], rfl, ?_⟩
    have : reRange r = none := by
      cases hr : reRange r with
      | none => rfl
      | some p =>
        obtain ⟨min, max, u⟩ := p
        obtain ⟨t, ht, he⟩ := (reRange_iff _ _ _ _).1 hr
        exact absurd he (h t u min max ht)
    simp [tok1, tokLong, this, Word.tok, one, Re.lit]
  | oneOf t _ l ht h =>
    refine ⟨'[', t, rfl, ?_⟩
    obtain ⟨a, t, rfl⟩ : ∃ a u, t = a :: u := by
      cases t with
      | nil => exact absurd rfl (classText_ne ht)
      | cons a u => exact ⟨a, u, rfl⟩
    have ha : a ≠ '^' := by rintro rfl; exact h _ rfl
    have := classItems_complete ht ((a :: t ++ r).length + 1) [] r (by simp; omega)
    simp only [List.cons_append, List.length_cons, List.length_append] at this
    simp [tok1, tokLong, ha, this, Word.tok]
  | noneOf t _ l ht =>
    refine ⟨'[', '^' :: t, rfl, ?_⟩
    have := classItems_complete ht (('^' :: t ++ r).length + 1) [] r (by simp; omega)
    simp only [List.cons_append, List.length_cons, List.length_append] at this
    simp [tok1, tokLong, this, Word.tok]
  | letter c e _ h =>
    refine ⟨'\\', [c], rfl, ?_⟩
    have hQ : c ≠ 'Q' := by
      rintro rfl
      have : ∀ p ∈ letters, p.1 ≠ 'Q' := by decide
      exact this _ h rfl
    have := escaped_letter _ h
    simp only at this
    simp [tok1, tokLong, hQ, this, Word.tok]
  | punct c _ h h' =>
    refine ⟨'\\', [c], rfl, ?_⟩
    have hQ : c ≠ 'Q' := by rintro rfl; exact absurd h' (by decide)
    simp [tok1, tokLong, hQ, escaped_punct c h h', Word.tok]
  | quote q _ hq h =>
    refine ⟨'\\', 'Q' :: (q ++ "\\E".toList), by simp, ?_⟩
    have := quoted_complete q h r
    rw [map_one_tok]
    simp only [List.cons_append, tok1, tokLong, this]
    simp [hq]
  | quoteRest q hq h =>
    refine ⟨'\\', 'Q' :: q, by simp, ?_⟩
    have := quoted_end q h
    rw [map_one_tok, List.append_nil]
    simp only [tok1, tokLong, this]
    simp [hq]
  | nop =>
    refine ⟨'\\', ['Q', '\\', 'E'], rfl, ?_⟩
    have := quoted_complete [] (by decide) r
    simp only [List.nil_append] at this
    have e : "\\E".toList ++ r = '\\' :: 'E' :: r := by simp
    rw [e] at this
    simp [tok1, tokLong, this, Word.tok]
  | nopEnd => exact ⟨'\\', ['Q'], rfl, by simp [tok1, tokLong, quoted, Word.tok]⟩

/-! ## The text -/

theorem words_iff : ∀ (n : Nat) (s : Str) (ws : List Word), s.length ≤ n →
    (Words s ws ↔ tok n s = ws.map Word.tok) := by
  intro n
  induction n with
  | zero =>
    intro s ws hs
    rw [List.eq_nil_of_length_eq_zero (Nat.le_zero.1 hs)]
    constructor
    · intro h
      generalize he : ([] : Str) = s at h
      cases h with
      | nil => rfl
      | more t r ws us h _ =>
        obtain ⟨c, u, rfl, -⟩ := tok1_complete h
        cases he
    · intro h
      cases ws with
      | nil => exact .nil
      | cons => cases h
  | succ n ih =>
    intro s ws hs
    cases s with
    | nil =>
      constructor
      · intro h
        generalize he : ([] : Str) = s at h
        cases h with
        | nil => rfl
        | more t r ws us h _ =>
          obtain ⟨c, u, rfl, -⟩ := tok1_complete h
          cases he
      · intro h
        cases ws with
        | nil => exact .nil
        | cons => cases h
    | cons c r =>
      constructor
      · intro h
        generalize he : c :: r = s at h
        cases h with
        | nil => cases he
        | more t r' ws us h hr =>
          obtain ⟨d, u, rfl, ht⟩ := tok1_complete h
          injection he with he1 he2
          subst he1 he2
          rw [List.cons_append]
          simp only [tok, ht, List.map_append]
          rw [(ih r' us (by simp at hs; omega)).1 hr]
      · intro h
        simp only [tok] at h
        split at h
        · rename_i ts r' ht
          obtain ⟨w1, w2, rfl, h1, h2⟩ := List.map_eq_append_iff.1 h.symm
          rw [← h1] at ht
          obtain ⟨t, r'', hr, he, hw⟩ := tok1_sound ht
          cases hr
          obtain ⟨d, u, rfl, -⟩ := tok1_complete hw
          rw [he]
          refine .more _ _ _ _ hw ((ih r' w2 ?_).2 h2.symm)
          have := congrArg List.length he
          simp at this hs
          omega
        · rename_i ts ht
          rw [h] at ht
          obtain ⟨t, r', hr, -⟩ := tok1_sound ht
          cases hr

theorem words_tokens (s : Str) (ws : List Word) : Words s ws ↔ tokens s = ws.map Word.tok :=
  words_iff _ s ws (Nat.le_refl _)


/-! ## Repetitions at the beginning -/

theorem tokLong_first {c : Char} {r : Str} {ts : List Tok} {o : Option Str} (h : tokLong c r = (ts, o)) :
    (∃ ws : List Word, ts = ws.map Word.tok) ∨ ts = [.bad] ∨ ts = [.other] := by
  unfold tokLong at h
  have hp : ∀ e : Re, ∃ ws : List Word, [Tok.piece e] = ws.map Word.tok := fun e => ⟨[.piece e], rfl⟩
  have ho : ∃ ws : List Word, [Tok.opn] = ws.map Word.tok := ⟨[.opn], rfl⟩
  by_cases h1 : c = '('
  · rw [if_pos h1] at h
    split at h <;> (rw [Prod.mk.injEq] at h; rw [← h.1])
    · exact .inl ho
    · exact .inr (.inr rfl)
    · exact .inl ho
  rw [if_neg h1] at h
  by_cases h2 : c = '{'
  · rw [if_pos h2] at h
    split at h
    · rw [Prod.mk.injEq] at h; rw [← h.1]; exact .inl (hp _)
    · split at h <;> (rw [Prod.mk.injEq] at h; rw [← h.1])
      · exact .inl ⟨[.rep _], rfl⟩
      · exact .inr (.inl rfl)
  rw [if_neg h2] at h
  by_cases h3 : c = '['
  · rw [if_pos h3] at h
    split at h <;> (rw [Prod.mk.injEq] at h; rw [← h.1])
    · exact .inl (hp _)
    · exact .inr (.inl rfl)
    · exact .inr (.inr rfl)
  rw [if_neg h3] at h
  split at h
  · rw [Prod.mk.injEq] at h; rw [← h.1]; exact .inr (.inl rfl)
  · split at h
    · rw [Prod.mk.injEq] at h
      rw [← h.1]
      left
      split
      · exact ⟨[.nop], rfl⟩
      · exact ⟨_, (map_one_tok _).symm⟩
    · rename_i d r _
      rw [Prod.mk.injEq] at h
      rw [← h.1]
      rcases escaped_cases d with h | h | ⟨p, hp', rfl⟩ | ⟨h, -⟩
      · rw [h]; exact .inr (.inl rfl)
      · rw [h]; exact .inr (.inr rfl)
      · rw [escaped_letter p hp']; exact .inl (hp _)
      · rw [h]; exact .inl (hp _)

theorem tok1_first {c : Char} {r : Str} {ts : List Tok} {o : Option Str} (h : tok1 c r = (ts, o)) :
    (∃ ws : List Word, ts = ws.map Word.tok) ∨ ts = [.bad] ∨ ts = [.other] := by
  unfold tok1 at h
  repeat' split at h
  all_goals first
    | exact tokLong_first h
    | (rw [Prod.mk.injEq] at h; rw [← h.1]
       first
       | exact .inl ⟨[.piece _], rfl⟩
       | exact .inl ⟨[.rep _], rfl⟩
       | exact .inl ⟨[.bar], rfl⟩
       | exact .inl ⟨[.cls], rfl⟩)

theorem repFirst_begins : ∀ (n : Nat) (s : Str), repFirst (tok n s) = true → BeginsWithRep s := by
  intro n
  induction n with
  | zero => intro s h; cases h
  | succ n ih =>
    intro s h
    cases s with
    | nil => cases h
    | cons c r =>
      simp only [tok] at h
      have key : ∀ (ws : List Word) (o : Option Str) (rest : List Tok), tok1 c r = (ws.map Word.tok, o) →
          repFirst (ws.map Word.tok ++ rest) = true → (∀ r', o = some r' → repFirst rest = true → BeginsWithRep r') →
          BeginsWithRep (c :: r) := by
        intro ws o rest ht hr hrest
        obtain ⟨t, r', rfl, he, hw⟩ := tok1_sound ht
        rw [he]
        have hlit : ∀ q : Str, q ≠ [] → repFirst ((q.map fun c => Word.piece (one c)).map Word.tok ++ rest) = false := by
          intro q hq
          cases q with
          | nil => exact absurd rfl hq
          | cons _ _ => rfl
        cases hw with
        | rep _ _ op ht' _ => exact .rep _ _ _ ht'
        | repLazy t' _ op ht' => rw [List.append_assoc]; exact .rep _ _ _ ht'
        | nop => exact .nop _ (hrest _ rfl hr)
        | nopEnd =>
          have := hrest _ rfl hr
          generalize hz : ([] : Str) = z at this
          cases this with
          | rep t u op ht' => cases ht' <;> simp at hz
          | nop => simp at hz
        | quote q _ hq _ => rw [hlit q hq] at hr; cases hr
        | quoteRest q hq _ => rw [hlit q hq] at hr; cases hr
        | _ => cases hr
      split at h
      · rename_i ts r' ht
        rcases tok1_first ht with ⟨ws, rfl⟩ | rfl | rfl
        · refine key ws _ _ ht h fun x hx hr => ?_
          injection hx with hx
          subst hx
          exact ih _ hr
        · cases h
        · cases h
      · rename_i ts ht
        rcases tok1_first ht with ⟨ws, rfl⟩ | rfl | rfl
        · exact key ws _ [] ht (by simpa using h) fun x hx => by cases hx
        · cases h
        · cases h

theorem begins_repFirst {s : Str} (h : BeginsWithRep s) : ∀ n, s.length ≤ n → repFirst (tok n s) = true := by
  induction h with
  | rep t r op ht =>
    intro n hn
    obtain ⟨c, u, rfl, h1⟩ := rep_complete ht r
    cases n with
    | zero => simp at hn
    | succ n => simp only [List.cons_append, tok, h1]; rfl
  | nop r _ ih =>
    intro n hn
    obtain ⟨c, u, hc, h1⟩ := tok1_complete (.nop r)
    rw [hc] at hn ⊢
    cases n with
    | zero => simp at hn
    | succ n =>
      simp only [List.cons_append, tok, h1]
      exact ih n (by simp at hn; omega)

theorem begins_iff (s : Str) : startsWithRep s = true ↔ BeginsWithRep s :=
  ⟨repFirst_begins _ s, fun h => begins_repFirst h _ (Nat.le_refl _)⟩

end J8a.Syn

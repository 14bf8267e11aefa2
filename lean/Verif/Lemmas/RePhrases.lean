import Verif.Lemmas.ReWords
/-!
# The phrases of a regular expression
-/
namespace J8a.Syn
open Go

/-! ## The limit of repetitions -/

theorem size_pos : ∀ r : Re, 1 ≤ size r := by
  intro r
  induction r with
  | rep a min max ih =>
    unfold size
    split
    · omega
    · exact Nat.mul_pos (by simp [Nat.max_def]; split <;> omega) ih
  | cat a b iha ihb => simp only [size]; exact Nat.le_trans iha (Nat.le_max_left _ _)
  | alt a b iha ihb => simp only [size]; exact Nat.le_trans iha (Nat.le_max_left _ _)
  | star a ih => exact ih
  | plus a ih => exact ih
  | quest a ih => exact ih
  | _ => simp [size]

theorem repeatIsValid_iff : ∀ (r : Re) (n : Nat), 1 ≤ n → (repeatIsValid r n = true ↔ size r ≤ n) := by
  intro r
  induction r with
  | rep a min max ih =>
    intro n hn
    unfold repeatIsValid size
    split
    · simp [hn]
    · rename_i hm
      have hm' : max ≠ some 0 := fun h => hm h
      rw [if_neg hm']
      generalize max.getD min = m
      simp only
      have ha := size_pos a
      by_cases h0 : m > 0
      · rw [if_pos h0]
        have e : Nat.max 1 m = m := Nat.max_eq_right h0
        rw [e]
        by_cases hmn : m > n
        · rw [if_pos hmn]
          have : m ≤ m * size a := Nat.le_mul_of_pos_right m ha
          simp; omega
        · rw [if_neg hmn]
          have hq : 1 ≤ n / m := (Nat.le_div_iff_mul_le h0).2 (by omega)
          rw [ih _ hq, Nat.le_div_iff_mul_le h0, Nat.mul_comm]
      · have : m = 0 := by omega
        subst this
        simp [ih n hn]
  | cat a b iha ihb =>
    intro n hn
    simp only [repeatIsValid, size, Bool.and_eq_true, iha n hn, ihb n hn]
    exact Nat.max_le.symm
  | alt a b iha ihb =>
    intro n hn
    simp only [repeatIsValid, size, Bool.and_eq_true, iha n hn, ihb n hn]
    exact Nat.max_le.symm
  | star a ih => exact ih
  | plus a ih => exact ih
  | quest a ih => exact ih
  | _ => intro n hn; simp [repeatIsValid, size, hn]

theorem applyRep_eq {op : RepOp} {a r : Re} (h : applyRep op a = some r) : r = repeated op a := by
  unfold applyRep at h
  split at h
  · injection h with h; exact h.symm
  · injection h with h; exact h.symm
  · injection h with h; exact h.symm
  · split at h
    · cases h
    · injection h with h; exact h.symm

theorem applyRep_size {op : RepOp} {a r : Re} (h : applyRep op a = some r) (ha : size a ≤ 1000) : size r ≤ 1000 := by
  unfold applyRep at h
  split at h
  · injection h with h; subst h; exact ha
  · injection h with h; subst h; exact ha
  · injection h with h; subst h; exact ha
  · rename_i min max
    split at h
    · cases h
    · rename_i hn
      injection h with h; subst h
      by_cases hb : 2 ≤ min ∨ 2 ≤ max.getD 0
      · rw [← repeatIsValid_iff _ _ (by omega)]
        cases hv : repeatIsValid (.rep a min max) 1000 with
        | true => rfl
        | false => exact absurd ⟨hb, hv⟩ hn
      · unfold size
        split
        · omega
        · have : Nat.max 1 (max.getD min) = 1 := by
            apply Nat.max_eq_left
            cases max with
            | none => simp at hb ⊢; omega
            | some m => simp at hb ⊢; omega
          rw [this, Nat.one_mul]
          exact ha

theorem applyRep_of {op : RepOp} {a : Re} (h : size (repeated op a) ≤ 1000) : applyRep op a = some (repeated op a) := by
  cases op with
  | range min max =>
    unfold applyRep
    simp only
    rw [if_neg]
    · rfl
    · rintro ⟨-, hv⟩
      have := (repeatIsValid_iff (.rep a min max) 1000 (by omega)).2 h
      rw [this] at hv
      cases hv
  | _ => rfl

/-! ## Put together -/

theorem joined_snoc (f : Re → Re → Re) (l : List Re) (r : Re) :
    joined f (l ++ [r]) = if l = [] then r else f (joined f l) r := by
  cases l with
  | nil => rfl
  | cons a l => simp [joined, List.foldl_append]

theorem catRev_joined (l : List Re) : catRev l = joined .cat l.reverse := by
  induction l with
  | nil => rfl
  | cons r l ih =>
    rw [List.reverse_cons, joined_snoc]
    cases l with
    | nil => rfl
    | cons a l =>
      rw [if_neg (by simp), ← ih]
      rfl

theorem altRev_joined (l : List Re) : altRev l = joined .alt l.reverse := by
  induction l with
  | nil => rfl
  | cons r l ih =>
    rw [List.reverse_cons, joined_snoc]
    cases l with
    | nil => rfl
    | cons a l =>
      rw [if_neg (by simp), ← ih]
      rfl

theorem joined_size {f : Re → Re → Re} (hf : ∀ a b, size a ≤ 1000 → size b ≤ 1000 → size (f a b) ≤ 1000)
    {l : List Re} (hl : ∀ r ∈ l, size r ≤ 1000) : size (joined f l) ≤ 1000 := by
  cases l with
  | nil => simp [joined, size]
  | cons r l =>
    show size (l.foldl f r) ≤ 1000
    induction l generalizing r with
    | nil => exact hl r (by simp)
    | cons a l ih =>
      rw [List.foldl_cons]
      refine ih (f r a) fun b hb => ?_
      rcases List.mem_cons.1 hb with rfl | hb
      · exact hf _ _ (hl _ (by simp)) (hl _ (by simp))
      · exact hl _ (by simp [hb])

theorem cat_size (a b : Re) (ha : size a ≤ 1000) (hb : size b ≤ 1000) : size (.cat a b) ≤ 1000 :=
  Nat.max_le.2 ⟨ha, hb⟩

theorem alt_size (a b : Re) (ha : size a ≤ 1000) (hb : size b ≤ 1000) : size (.alt a b) ≤ 1000 :=
  Nat.max_le.2 ⟨ha, hb⟩

/-- The pieces have no repetitions of their own. -/
def Plain (ws : List Word) : Prop := ∀ r, Word.piece r ∈ ws → size r ≤ 1000

theorem Plain.left {ws us : List Word} (h : Plain (ws ++ us)) : Plain ws := fun r hr => h r (by simp [hr])
theorem Plain.right {ws us : List Word} (h : Plain (ws ++ us)) : Plain us := fun r hr => h r (by simp [hr])

mutual
theorem Item.size_le {b : Bool} {ws : List Word} {r : Re} : Item b ws r → Plain ws → size r ≤ 1000
  | .piece r => fun hp => hp r (by simp)
  | .group ws l h => fun hp => joined_size alt_size
      (h.size_le fun r hr => hp r (by simp [hr]))
  | .nop b ws r h => fun hp => h.size_le hp.left
  | .rep ws r op h hs => fun _ => hs

theorem Items.size_le {ws : List Word} {l : List Re} : Items ws l → Plain ws → ∀ r ∈ l, size r ≤ 1000
  | .nil => fun _ r hr => by cases hr
  | .nop ws h => fun _ r hr => by cases hr
  | .more b ws us l r h hr => fun hp x hx => by
    rcases List.mem_append.1 hx with hx | hx
    · exact h.size_le hp.left x hx
    · rw [List.mem_singleton.1 hx]; exact hr.size_le hp.right

theorem Alts.size_le {ws : List Word} {l : List Re} : Alts ws l → Plain ws → ∀ r ∈ l, size r ≤ 1000
  | .one ws l h => fun hp x hx => by
    rw [List.mem_singleton.1 hx]
    exact joined_size cat_size (h.size_le hp)
  | .more ws us m l h hl => fun hp x hx => by
    rcases List.mem_append.1 hx with hx | hx
    · exact h.size_le hp.left x hx
    · rw [List.mem_singleton.1 hx]
      exact joined_size cat_size
        (hl.size_le fun r hr => hp r (by simp [hr]))
end

/-! ## From the parser to the grammar -/

/-- Items, of which the last ends with a repetition or not. -/
def Ends (b : Bool) (ws : List Word) (l : List Re) : Prop :=
  (b = false ∧ l = [] ∧ Items ws []) ∨
  ∃ us vs m r, ws = us ++ vs ∧ l = m ++ [r] ∧ Items us m ∧ Item b vs r

theorem Ends.items {b : Bool} {ws : List Word} {l : List Re} : Ends b ws l → Items ws l := by
  rintro (⟨-, rfl, h⟩ | ⟨us, vs, m, r, rfl, rfl, h1, h2⟩)
  · exact h
  · exact .more _ _ _ _ _ h1 h2

/-- What the parser holds for a group that is still open. -/
def Holds (b : Bool) (ws : List Word) (f : Frame) : Prop :=
  (f.alts = [] ∧ Ends b ws f.pieces.reverse) ∨
  ∃ us vs, ws = us ++ .bar :: vs ∧ Alts us f.alts.reverse ∧ Ends b vs f.pieces.reverse

theorem Holds.alts {b : Bool} {ws : List Word} {f : Frame} (h : Holds b ws f) :
    Alts ws (catRev f.pieces :: f.alts).reverse := by
  rw [List.reverse_cons, catRev_joined]
  rcases h with ⟨h1, h2⟩ | ⟨us, vs, rfl, h1, h2⟩
  · rw [h1]; exact .one _ _ h2.items
  · exact .more _ _ _ _ h1 h2.items

/-- Another item. -/
theorem Holds.item {b c : Bool} {ws us : List Word} {f : Frame} {r : Re} (h : Holds b ws f) (hr : Item c us r) :
    Holds c (ws ++ us) { f with pieces := r :: f.pieces } := by
  rcases h with ⟨h1, h2⟩ | ⟨xs, ys, rfl, h1, h2⟩
  · exact .inl ⟨h1, .inr ⟨ws, us, _, r, rfl, by simp, h2.items, hr⟩⟩
  · exact .inr ⟨xs, ys ++ us, by simp, h1, .inr ⟨ys, us, _, r, rfl, by simp, h2.items, hr⟩⟩

theorem Ends.nop {b : Bool} {ws : List Word} {l : List Re} (h : Ends b ws l) : Ends false (ws ++ [.nop]) l := by
  rcases h with ⟨-, rfl, h⟩ | ⟨us, vs, m, r, rfl, rfl, h1, h2⟩
  · exact .inl ⟨rfl, rfl, .nop _ h⟩
  · exact .inr ⟨us, vs ++ [.nop], m, r, by simp, rfl, h1, .nop _ _ _ h2⟩

theorem Ends.rep {ws : List Word} {l : List Re} {a : Re} {op : RepOp} (h : Ends false ws (l ++ [a]))
    (hs : size a ≤ 1000 → size (repeated op a) ≤ 1000) (hp : Plain ws) :
    Ends true (ws ++ [.rep op]) (l ++ [repeated op a]) := by
  rcases h with ⟨-, h, -⟩ | ⟨us, vs, m, r, rfl, h, h1, h2⟩
  · simp at h
  · obtain ⟨rfl, he⟩ := List.append_inj' h rfl
    injection he with he
    subst he
    exact .inr ⟨us, vs ++ [.rep op], l, _, by simp, rfl, h1, .rep _ _ _ h2 (hs (h2.size_le hp.right))⟩

/-- The groups that are open around the innermost one. -/
inductive Below : List Word → List Frame → Prop
  | nil : Below [] []
  | cons (b : Bool) (ws us : List Word) (g : Frame) (l : List Frame) (h : Below ws l) (hg : Holds b us g) :
      Below (ws ++ us ++ [.opn]) (g :: l)

def Inv (ws : List Word) : PSt → Prop
  | .run f below b => ∃ us vs, ws = us ++ vs ∧ Below us below ∧ Holds b vs f
  | .bad => True
  | .other => True

theorem Inv.step {ws : List Word} {st : PSt} (h : Inv ws st) (w : Word) (hp : Plain (ws ++ [w])) :
    Inv (ws ++ [w]) (pstep st w.tok) := by
  cases st with
  | bad => trivial
  | other => trivial
  | run f below b =>
    obtain ⟨us, vs, rfl, hb, hh⟩ := h
    cases w with
    | piece r => exact ⟨us, vs ++ [.piece r], by simp, hb, hh.item (.piece r)⟩
    | nop =>
      refine ⟨us, vs ++ [.nop], by simp, hb, ?_⟩
      rcases hh with ⟨h1, h2⟩ | ⟨xs, ys, rfl, h1, h2⟩
      · exact .inl ⟨h1, h2.nop⟩
      · exact .inr ⟨xs, ys ++ [.nop], by simp, h1, h2.nop⟩
    | bar =>
      refine ⟨us, vs ++ [.bar], by simp, hb, .inr ⟨vs, [], rfl, hh.alts, .inl ⟨rfl, rfl, .nil⟩⟩⟩
    | opn =>
      exact ⟨us ++ vs ++ [.opn], [], by simp, .cons _ _ _ _ _ hb hh, .inl ⟨rfl, .inl ⟨rfl, rfl, .nil⟩⟩⟩
    | cls =>
      simp only [Word.tok, pstep]
      split
      · trivial
      · rename_i g l
        cases hb with
        | cons b' xs ys _ _ hb hg =>
          refine ⟨xs, ys ++ (.opn :: (vs ++ [.cls])), by simp, hb, ?_⟩
          have := hg.item (.group _ _ hh.alts)
          unfold Frame.close
          rwa [altRev_joined]
    | rep op =>
      simp only [Word.tok, pstep]
      split
      · trivial
      · rename_i hb'
        have hb0 : b = false := by cases b <;> simp_all
        subst hb0
        split
        · trivial
        · rename_i a rs hps
          split
          · trivial
          · rename_i r hr
            have he := applyRep_eq hr
            subst he
            refine ⟨us, vs ++ [.rep op], by simp, hb, ?_⟩
            rcases hh with ⟨h1, h2⟩ | ⟨xs, ys, rfl, h1, h2⟩
            · rw [hps, List.reverse_cons] at h2
              refine .inl ⟨h1, ?_⟩
              simp only [List.reverse_cons]
              exact h2.rep (applyRep_size hr) hp.left.right
            · rw [hps, List.reverse_cons] at h2
              refine .inr ⟨xs, ys ++ [.rep op], by simp, h1, ?_⟩
              simp only [List.reverse_cons]
              refine h2.rep (applyRep_size hr) fun r hr => hp r (by simp [hr])

theorem Inv.fold {us ws : List Word} {st : PSt} (h : Inv us st) (hp : Plain (us ++ ws)) :
    Inv (us ++ ws) ((ws.map Word.tok).foldl pstep st) := by
  induction ws generalizing us st with
  | nil => simpa using h
  | cons w ws ih =>
    have e : us ++ w :: ws = (us ++ [w]) ++ ws := by simp
    rw [e] at hp ⊢
    exact ih (h.step w hp.left) hp

/-! ## From the grammar to the parser -/

mutual
theorem Item.run {b : Bool} {ws : List Word} {r : Re} : Item b ws r → ∀ (f : Frame) (below : List Frame) (a : Bool),
    (ws.map Word.tok).foldl pstep (.run f below a) = .run { f with pieces := r :: f.pieces } below b
  | .piece r => fun f below a => rfl
  | .group ws l h => fun f below a => by
    obtain ⟨g, c, hg, hl⟩ := h.run (f :: below) false
    simp only [List.map_cons, List.map_append, List.foldl_cons, List.foldl_append, List.map_nil, List.foldl_nil]
    show pstep ((ws.map Word.tok).foldl pstep (.run {} (f :: below) false)) .cls = _
    rw [hg]
    simp only [pstep, Frame.close]
    rw [altRev_joined, hl]
  | .nop b ws r h => fun f below a => by
    simp only [List.map_append, List.foldl_append, h.run f below a]
    rfl
  | .rep ws r op h hs => fun f below a => by
    simp only [List.map_append, List.foldl_append, h.run f below a, List.map_cons, List.map_nil, List.foldl_cons,
      List.foldl_nil, Word.tok, pstep, applyRep_of hs]
    rfl

theorem Items.run {ws : List Word} {l : List Re} : Items ws l → ∀ (f : Frame) (below : List Frame) (a : Bool),
    ∃ b, (ws.map Word.tok).foldl pstep (.run f below a) = .run { f with pieces := l.reverse ++ f.pieces } below b
  | .nil => fun f below a => ⟨a, rfl⟩
  | .nop ws h => fun f below a => by
    obtain ⟨b, hb⟩ := h.run f below a
    exact ⟨false, by simp only [List.map_append, List.foldl_append, hb]; rfl⟩
  | .more b ws us l r h hr => fun f below a => by
    obtain ⟨c, hc⟩ := h.run f below a
    exact ⟨b, by simp only [List.map_append, List.foldl_append, hc, hr.run _ below c]; simp⟩

theorem Alts.run {ws : List Word} {l : List Re} : Alts ws l → ∀ (below : List Frame) (a : Bool),
    ∃ f b, (ws.map Word.tok).foldl pstep (.run {} below a) = .run f below b ∧ (catRev f.pieces :: f.alts).reverse = l
  | .one ws l h => fun below a => by
    obtain ⟨b, hb⟩ := h.run {} below a
    exact ⟨_, b, hb, by simp [catRev_joined]⟩
  | .more ws us m l h hl => fun below a => by
    obtain ⟨f, b, hf, hm⟩ := h.run below a
    obtain ⟨c, hc⟩ := hl.run { alts := catRev f.pieces :: f.alts } below false
    refine ⟨{ alts := catRev f.pieces :: f.alts, pieces := l.reverse ++ [] }, c, ?_, ?_⟩
    · simp only [List.map_append, List.foldl_append, hf, List.map_cons, List.foldl_cons]
      exact hc
    · simp only [List.append_nil, List.reverse_cons, catRev_joined, List.reverse_reverse]
      rw [← hm]
      simp [catRev_joined]
end

/-! ## Together -/

theorem plain_of_words {s : Str} {ws : List Word} (h : Words s ws) : Plain ws := by
  induction h with
  | nil => intro r hr; cases hr
  | more t r ws us h _ ih =>
    intro e he
    rcases List.mem_append.1 he with he | he
    · have hq : ∀ q : Str, Word.piece e ∈ q.map (fun c => Word.piece (one c)) → size e ≤ 1000 := by
        intro q hq
        obtain ⟨c, -, hc⟩ := List.mem_map.1 hq
        injection hc with hc
        subst hc
        simp [one, size]
      cases h with
      | quote q _ _ _ => exact hq q he
      | quoteRest q _ _ => exact hq q he
      | letter c e' _ hm =>
        have : ∀ p ∈ letters, size p.2 ≤ 1000 := by decide
        simp at he
        subst he
        exact this _ hm
      | _ => simp at he <;> (subst he; simp [one, size])
    · exact ih e he

/-- The parser accepts what the grammar says, and nothing else. -/
theorem parse_iff (s : Str) (e : Re) : parseRe s = .ok e ↔ Syntax s e := by
  constructor
  · intro h
    unfold parseRe at h
    have hw : ∃ ws : List Word, tokens s = ws.map Word.tok := by
      have : ∀ (ts : List Tok) (st : PSt), pfinish (ts.foldl pstep st) = .ok e →
          ∃ ws : List Word, ts = ws.map Word.tok := by
        intro ts
        induction ts with
        | nil => intro st _; exact ⟨[], rfl⟩
        | cons k ts ih =>
          intro st hk
          obtain ⟨ws, rfl⟩ := ih _ hk
          have hbad : ∀ l : List Tok, l.foldl pstep .bad = .bad := fun l => by
            induction l with
            | nil => rfl
            | cons _ _ ih => exact ih
          have hother : ∀ l : List Tok, l.foldl pstep .other = .other := fun l => by
            induction l with
            | nil => rfl
            | cons _ _ ih => exact ih
          cases k with
          | piece r => exact ⟨.piece r :: ws, rfl⟩
          | rep op => exact ⟨.rep op :: ws, rfl⟩
          | opn => exact ⟨.opn :: ws, rfl⟩
          | cls => exact ⟨.cls :: ws, rfl⟩
          | bar => exact ⟨.bar :: ws, rfl⟩
          | nop => exact ⟨.nop :: ws, rfl⟩
          | bad => cases st <;> simp [pstep, hbad, hother, pfinish] at hk
          | other => cases st <;> simp [pstep, hbad, hother, pfinish] at hk
      exact this _ _ h
    obtain ⟨ws, hws⟩ := hw
    have hwords := (words_tokens s ws).2 hws
    rw [hws] at h
    have h0 : Inv [] (.run {} [] false) :=
      ⟨[], [], rfl, .nil, .inl ⟨rfl, .inl ⟨rfl, rfl, .nil⟩⟩⟩
    have := h0.fold (ws := ws) (plain_of_words hwords)
    generalize (ws.map Word.tok).foldl pstep (.run {} [] false) = st at h this
    cases st with
    | bad => cases h
    | other => cases h
    | run f below b =>
      obtain ⟨us, vs, hv, hb, hh⟩ := this
      cases hb with
      | cons => cases h
      | nil =>
        simp only [pfinish, Parsed.ok.injEq] at h
        subst h
        simp only [List.nil_append] at hv
        subst hv
        refine ⟨ws, _, hwords, hh.alts, ?_⟩
        unfold Frame.close
        rw [altRev_joined]
  · rintro ⟨ws, l, hw, ha, rfl⟩
    unfold parseRe
    rw [(words_tokens s ws).1 hw]
    obtain ⟨f, b, hf, hl⟩ := ha.run [] false
    rw [hf]
    simp only [pfinish, Frame.close]
    rw [altRev_joined, hl]

end J8a.Syn

import Verif.Lemmas.Regexp
/-! # Regular expressions: what an anchor in front does -/
namespace J8a
open Go

theorem matchString_iff (r : Re) (w : Str) : r.matchString w = true ↔ ∃ i ≤ w.length, ∃ j, Re.Matches w r i j := by
  unfold Re.matchString
  simp only [List.any_eq_true, List.mem_range, Bool.not_eq_true', List.isEmpty_eq_false_iff]
  constructor
  · rintro ⟨i, hi, h⟩
    obtain ⟨j, hj⟩ := List.exists_mem_of_ne_nil _ h
    exact ⟨i, by omega, j, ((mem_ends w r).2 i j (by omega)).1 hj⟩
  · rintro ⟨i, hi, j, h⟩
    exact ⟨i, by omega, List.ne_nil_of_mem (((mem_ends w r).2 i j hi).2 h)⟩

theorem catRev_cons (w : Str) (r : Re) (rs : List Re) (i j : Nat) : Re.Matches w (catRev (r :: rs)) i j ↔
    ∃ k, Re.Matches w (catRev rs) i k ∧ Re.Matches w r k j := by
  cases rs with
  | nil => simp [catRev, Re.Matches]
  | cons a rs => simp [catRev, Re.Matches]

/-- One piece more in front. -/
theorem catRev_append (w : Str) (x : Re) : ∀ (rs : List Re) (i j : Nat), Re.Matches w (catRev (rs ++ [x])) i j ↔
    ∃ k, Re.Matches w x i k ∧ Re.Matches w (catRev rs) k j := by
  intro rs
  induction rs with
  | nil => intro i j; simp [catRev, Re.Matches]
  | cons r rs ih =>
    intro i j
    simp only [List.cons_append, catRev_cons, ih]
    constructor
    · rintro ⟨k, ⟨l, h1, h2⟩, h3⟩; exact ⟨l, h1, k, h2, h3⟩
    · rintro ⟨l, h1, k, h2, h3⟩; exact ⟨k, ⟨l, h1, h2⟩, h3⟩

theorem altRev_iff (w : Str) (i j : Nat) : ∀ l : List Re, l ≠ [] →
    (Re.Matches w (altRev l) i j ↔ ∃ r ∈ l, Re.Matches w r i j) := by
  intro l
  induction l with
  | nil => intro h; exact absurd rfl h
  | cons r l ih =>
    intro _
    cases l with
    | nil => simp [altRev]
    | cons a l =>
      rw [altRev, Re.Matches, ih (by simp)]
      · simp [or_comm]
      · simp

/-- Two frames at the bottom of the stack, the second with `x` in front. With `b` there was no `|`. -/
def FSim (b : Bool) (x : Re) (f g : Frame) : Prop :=
  (f.alts = [] ∧ g.alts = [] ∧ g.pieces = f.pieces ++ [x]) ∨
  (b = false ∧ g.pieces = f.pieces ∧ ∃ later ps, f.alts = later ++ [catRev ps] ∧
    g.alts = later ++ [catRev (ps ++ [x])])

/-- Two states of the parser, the second with `x` in front. -/
inductive Sim (b : Bool) (x : Re) : PSt → PSt → Prop
  | bottom (f g : Frame) (after : Bool) (h : FSim b x f g) (hne : f.alts = [] → f.pieces ≠ []) :
    Sim b x (.run f [] after) (.run g [] after)
  | deep (top : Frame) (pre : List Frame) (f g : Frame) (after : Bool) (h : FSim b x f g) :
    Sim b x (.run top (pre ++ [f]) after) (.run top (pre ++ [g]) after)
  | bad : Sim b x .bad .bad
  | other : Sim b x .other .other

theorem FSim.push {b : Bool} {x : Re} {f g : Frame} (h : FSim b x f g) (r : Re) :
    FSim b x { f with pieces := r :: f.pieces } { g with pieces := r :: g.pieces } := by
  rcases h with ⟨h1, h2, h3⟩ | ⟨h0, h1, h2⟩
  · exact .inl ⟨h1, h2, by simp [h3]⟩
  · exact .inr ⟨h0, by simp [h1], h2⟩

theorem Sim.step {b : Bool} {x : Re} {s t : PSt} (h : Sim b x s t) (k : Tok) (hk : b = true → k ≠ .bar) :
    Sim b x (pstep s k) (pstep t k) := by
  cases h with
  | bad => exact .bad
  | other => exact .other
  | bottom f g after hf hne =>
    cases k with
    | piece r => exact .bottom _ _ _ (hf.push r) (by simp)
    | rep op =>
      simp only [pstep]
      cases after with
      | true => exact .bad
      | false =>
        simp only [Bool.false_eq_true, if_false]
        have hor : (∃ a rs, f.pieces = a :: rs) ∨ f.pieces = [] := by cases f.pieces <;> simp
        rcases hor with ⟨a, rs, hp⟩ | hp
        · have hg : ∃ rs', g.pieces = a :: rs' ∧
              ∀ r, FSim b x { f with pieces := r :: rs } { g with pieces := r :: rs' } := by
            rcases hf with ⟨h1, h2, h3⟩ | ⟨h0, h1, h2⟩
            · exact ⟨rs ++ [x], by simp [h3, hp], fun r => .inl ⟨h1, h2, by simp⟩⟩
            · exact ⟨rs, by simp [h1, hp], fun r => .inr ⟨h0, rfl, h2⟩⟩
          obtain ⟨rs', hg, hF⟩ := hg
          rw [hp, hg]
          simp only
          cases applyRep op a with
          | none => exact .bad
          | some r => exact .bottom _ _ _ (hF r) (by simp)
        · rcases hf with ⟨h1, h2, h3⟩ | ⟨h0, h1, h2⟩
          · exact absurd hp (hne h1)
          · rw [h1, hp]; exact .bad
    | opn => exact .deep {} [] f g false hf
    | cls => exact .bad
    | bar =>
      have hb : b = false := by
        cases b
        · rfl
        · exact absurd rfl (hk rfl)
      refine .bottom _ _ _ (.inr ⟨hb, rfl, ?_⟩) (by simp)
      rcases hf with ⟨h1, h2, h3⟩ | ⟨h0, h1, later, ps, h2, h3⟩
      · exact ⟨[], f.pieces, by simp [h1], by simp [h2, h3]⟩
      · exact ⟨catRev f.pieces :: later, ps, by simp [h2], by simp [h3, h1]⟩
    | nop => exact .bottom _ _ _ hf hne
    | bad => exact .bad
    | other => exact .other
  | deep top pre f g after hf =>
    cases k with
    | piece r => exact .deep _ _ _ _ _ hf
    | rep op =>
      simp only [pstep]
      split
      · exact .bad
      · split
        · exact .bad
        · split
          · exact .bad
          · exact .deep _ _ _ _ _ hf
    | opn => exact .deep {} (top :: pre) f g false hf
    | cls =>
      cases pre with
      | nil => exact .bottom _ _ _ (hf.push _) (by simp)
      | cons q pre => exact .deep _ pre f g _ hf
    | bar => exact .deep _ _ _ _ _ hf
    | nop => exact .deep _ _ _ _ _ hf
    | bad => exact .bad
    | other => exact .other

theorem Sim.run {b : Bool} {x : Re} (ts : List Tok) : ∀ {s t : PSt}, Sim b x s t → (b = true → Tok.bar ∉ ts) →
    Sim b x (ts.foldl pstep s) (ts.foldl pstep t) := by
  induction ts with
  | nil => intro s t h _; exact h
  | cons k ts ih =>
    intro s t h hb
    exact ih (h.step k fun hb' h => hb hb' (by simp [h])) fun hb' h => hb hb' (by simp [h])

/-- How the results of parsing without and with `x` in front are related. -/
inductive Anchored (b : Bool) (x : Re) : Parsed → Parsed → Prop
  | bad : Anchored b x .bad .bad
  | other : Anchored b x .other .other
  | ok (later ps : List Re) (h : b = true → later = []) :
    Anchored b x (.ok (altRev (later ++ [catRev ps]))) (.ok (altRev (later ++ [catRev (ps ++ [x])])))

theorem Sim.finish {b : Bool} {x : Re} {s t : PSt} (h : Sim b x s t) : Anchored b x (pfinish s) (pfinish t) := by
  cases h with
  | bad => exact .bad
  | other => exact .other
  | deep top pre f g after hf => cases pre <;> exact .bad
  | bottom f g after hf _ =>
    rcases hf with ⟨h1, h2, h3⟩ | ⟨h0, h1, later, ps, h2, h3⟩
    · have := Anchored.ok (b := b) (x := x) [] f.pieces (fun _ => rfl)
      simpa [pfinish, Frame.close, h1, h2, h3] using this
    · have := Anchored.ok (b := b) (x := x) (catRev f.pieces :: later) ps (by simp [h0])
      simpa [pfinish, Frame.close, h1, h2, h3] using this

def repFirst : List Tok → Bool
  | .rep _ :: _ => true
  | .nop :: ts => repFirst ts
  | _ => false

/-- Does a text begin with a repetition? -/
def startsWithRep (p : Str) : Bool := repFirst (tokens p)

theorem tokens_bol (p : Str) : tokens ('^' :: p) = .piece .bol :: tokens p := by
  simp [tokens, tok, tok1]

theorem anchor_fold (b : Bool) : ∀ (ts : List Tok), repFirst ts = false → (b = true → Tok.bar ∉ ts) →
    Anchored b .bol (pfinish (ts.foldl pstep (.run {} [] false)))
      (pfinish (ts.foldl pstep (.run { pieces := [.bol] } [] false))) := by
  intro ts
  induction ts with
  | nil =>
    intro _ _
    have := Anchored.ok (b := b) (x := .bol) [] [] (fun _ => rfl)
    simpa [pfinish, Frame.close] using this
  | cons k ts ih =>
    intro hp hb
    by_cases hk : k = .nop
    · subst hk
      exact ih hp fun hb' h => hb hb' (by simp [h])
    · refine (Sim.run (b := b) (x := .bol) ts ?_ fun hb' h => hb hb' (by simp [h])).finish
      cases k with
      | piece r => exact .bottom _ _ _ (.inl ⟨rfl, rfl, rfl⟩) (by simp)
      | rep op => cases hp
      | opn => exact .deep {} [] _ _ false (.inl ⟨rfl, rfl, rfl⟩)
      | cls => exact .bad
      | bar =>
        have hb : b = false := by
          cases b
          · rfl
          · exact absurd (by simp) (hb rfl)
        exact .bottom _ _ _ (.inr ⟨hb, rfl, [], [], rfl, rfl⟩) (by simp)
      | nop => exact absurd rfl hk
      | bad => exact .bad
      | other => exact .other

theorem parse_anchor (p : Str) (hp : startsWithRep p = false) (b : Bool) (hb : b = true → Tok.bar ∉ tokens p) :
    Anchored b .bol (parseRe p) (parseRe ('^' :: p)) := by
  unfold parseRe
  rw [tokens_bol]
  exact anchor_fold b _ hp hb

/-! ## Which characters a bar comes from -/

theorem reInt_rest {s r : Str} {n : Nat} (h : reInt s = some (n, r)) : ∀ c ∈ r, c ∈ s := by
  unfold reInt at h
  simp only at h
  split at h
  · cases h
  · cases h
    intro c hc
    exact (List.dropWhile_sublist _).subset hc

theorem reRange_rest {s r : Str} {m : Nat} {x : Option Nat} (h : reRange s = some (m, x, r)) : ∀ c ∈ r, c ∈ s := by
  unfold reRange at h
  split at h
  · cases h
  · rename_i h1; cases h
    intro c hc; exact reInt_rest h1 c (by simp [hc])
  · rename_i h1; cases h
    intro c hc; exact reInt_rest h1 c (by simp [hc])
  · rename_i h1
    split at h
    · rename_i h2; cases h
      intro c hc
      exact reInt_rest h1 c (by simp [reInt_rest h2 c (by simp [hc])])
    · cases h
  · cases h

theorem dropLazy_rest {s : Str} : ∀ c ∈ dropLazy s, c ∈ s := by
  intro c hc
  unfold dropLazy at hc
  split at hc
  · simp [hc]
  · exact hc

theorem classItems_rest : ∀ (n : Nat) (first : Bool) (acc : List (Char × Char)) (s : Str) (l : List (Char × Char))
    (r : Str), classItems n first acc s = .ok l r → ∀ c ∈ r, c ∈ s := by
  intro n
  induction n with
  | zero => intro first acc s l r h; simp [classItems] at h
  | succ n ih =>
    intro first acc s l r h
    cases s with
    | nil => simp [classItems] at h
    | cons c s =>
      unfold classItems at h
      split at h
      · cases h; intro d hd; simp [hd]
      · split at h
        · cases h
        · split at h
          · split at h
            · intro d hd; exact .tail _ (ih _ _ _ _ _ h d hd)
            · split at h
              · cases h
              · split at h
                · cases h
                · intro d hd; have := ih _ _ _ _ _ h d hd; simp [this]
          · intro d hd; exact .tail _ (ih _ _ _ _ _ h d hd)

theorem quoted_rest : ∀ s : Str, ∀ c ∈ (quoted s).2, c ∈ s := by
  intro s
  induction s with
  | nil => simp [quoted]
  | cons c s ih =>
    cases s with
    | nil => simp [quoted]
    | cons d s =>
      rw [quoted]
      split
      · intro e he; simp [he]
      · intro e he; exact .tail _ (ih e he)

theorem tokLong_rest {c : Char} {r r' : Str} {ts : List Tok} (h : tokLong c r = (ts, some r')) :
    ∀ c ∈ r', c ∈ r := by
  unfold tokLong at h
  by_cases h1 : c = '('
  · rw [if_pos h1] at h
    split at h
    · cases h; intro c hc; simp [hc]
    · cases h
    · cases h; exact fun _ h => h
  rw [if_neg h1] at h
  by_cases h2 : c = '{'
  · rw [if_pos h2] at h
    split at h
    · cases h; exact fun _ h => h
    · rename_i hr
      split at h
      · cases h; exact fun c hc => reRange_rest hr c (dropLazy_rest c hc)
      · cases h
  rw [if_neg h2] at h
  by_cases h3 : c = '['
  · rw [if_pos h3] at h
    split at h
    · rename_i hr
      cases h
      intro c hc
      have := classItems_rest _ _ _ _ _ _ hr c hc
      split at this
      · exact List.mem_of_mem_tail this
      · exact this
    · cases h
    · cases h
  rw [if_neg h3] at h
  split at h
  · cases h
  · split at h
    · cases h; intro c hc; exact .tail _ (quoted_rest _ c hc)
    · cases h; intro c hc; simp [hc]

theorem ite_ne {α : Type} {p : Prop} [Decidable p] {a b c : α} (ha : a ≠ c) (hb : b ≠ c) :
    (if p then a else b) ≠ c := by
  split <;> assumption

theorem escaped_ne (d : Char) : escaped d ≠ .bar := by
  unfold escaped
  repeat' (refine ite_ne ?_ ?_; · simp)
  simp

theorem tokLong_bar {c : Char} {r : Str} : Tok.bar ∉ (tokLong c r).1 := by
  unfold tokLong
  by_cases h1 : c = '('
  · rw [if_pos h1]; split <;> simp
  rw [if_neg h1]
  by_cases h2 : c = '{'
  · rw [if_pos h2]
    split
    · simp
    · split <;> simp
  rw [if_neg h2]
  by_cases h3 : c = '['
  · rw [if_pos h3]; split <;> simp
  rw [if_neg h3]
  split
  · simp
  · split
    · simp only
      split <;> simp
    · simp [(escaped_ne _).symm]

theorem tok1_rest {c : Char} {r r' : Str} {ts : List Tok} (h : tok1 c r = (ts, some r')) : ∀ c ∈ r', c ∈ r := by
  unfold tok1 at h
  repeat' (split at h; · first | exact tokLong_rest h | (cases h; first | exact fun _ h => h | exact dropLazy_rest))
  cases h; exact fun _ h => h

theorem tok1_bar {c : Char} {r : Str} (h : Tok.bar ∈ (tok1 c r).1) : c = '|' := by
  unfold tok1 at h
  by_cases hc : c = '|'
  · exact hc
  · exfalso
    revert h
    rw [if_neg hc]
    repeat' (split; · first | exact tokLong_bar | simp)
    simp

theorem bar_mem : ∀ (n : Nat) (s : Str), Tok.bar ∈ tok n s → '|' ∈ s := by
  intro n
  induction n with
  | zero => intro s h; simp [tok] at h
  | succ n ih =>
    intro s h
    cases s with
    | nil => simp [tok] at h
    | cons c r =>
      simp only [tok] at h
      split at h
      · rename_i ts r' ht
        rcases List.mem_append.1 h with h | h
        · simp [tok1_bar (by rw [ht]; exact h)]
        · exact .tail _ (tok1_rest ht _ (ih _ h))
      · rename_i ts ht
        simp [tok1_bar (by rw [ht]; exact h)]

end J8a

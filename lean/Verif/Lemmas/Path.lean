import Verif.Lemmas.Str
import Verif.Go.Path
import Verif.Spec.Path
/-! # Path cleaning computes the canonical form -/
namespace J8a
open Go

theorem join_snoc (sep : Str) : ∀ (l : List Str) (w : Str), l ≠ [] → join sep (l ++ [w]) = join sep l ++ sep ++ w := by
  intro l
  induction l with
  | nil => intro w h; exact absurd rfl h
  | cons a l ih =>
    intro w _
    cases l with
    | nil => simp [join]
    | cons b l =>
      have := ih w (by simp)
      simp only [List.cons_append, join] at this ⊢
      rw [this]; simp

theorem renderSegs_snoc (l : List Str) (w : Str) :
    renderSegs (l ++ [w]) = if l = [] then '/' :: w else renderSegs l ++ '/' :: w := by
  by_cases h : l = []
  · subst h; simp [renderSegs, join]
  · rw [if_neg h]; simp [renderSegs, join_snoc _ l w h]

theorem renderSegs_length {l : List Str} (h : ∀ w ∈ l, w ≠ []) : (renderSegs l).length = 1 ↔ l = [] := by
  constructor
  · intro hl
    cases l with
    | nil => rfl
    | cons a l =>
      have ha := h a (by simp)
      have : 0 < a.length := List.length_pos_iff.mpr ha
      cases l with
      | nil => simp only [renderSegs, join, List.length_cons] at hl; omega
      | cons b l => simp only [renderSegs, join, List.length_cons, List.length_append] at hl; omega
  · rintro rfl; rfl

theorem backOver_word : ∀ (w o : Str), '/' ∉ w → o ≠ [] → backOver (w ++ '/' :: o) = o := by
  intro w
  induction w with
  | nil => 
    intro o _ ho
    cases o with
    | nil => exact absurd rfl ho
    | cons d o => simp [backOver]
  | cons c w ih =>
    intro o hw ho
    have hc : c ≠ '/' := fun h => hw (by simp [h])
    have := ih o (fun h => hw (by simp [h])) ho
    cases w with
    | nil => simp only [List.cons_append, List.nil_append, backOver, if_neg hc] at this ⊢; exact this
    | cons d w => simp only [List.cons_append, backOver, if_neg hc] at this ⊢; exact this

theorem backOver_first : ∀ (w : Str), '/' ∉ w → backOver (w ++ ['/']) = ['/'] := by
  intro w
  induction w with
  | nil => intro _; rfl
  | cons c w ih =>
    intro hw
    have hc : c ≠ '/' := fun h => hw (by simp [h])
    have := ih (fun h => hw (by simp [h]))
    cases w with
    | nil => simp only [List.cons_append, List.nil_append, backOver, if_neg hc]
    | cons d w => simp only [List.cons_append, backOver, if_neg hc] at this ⊢; exact this

theorem backOver_render (l : List Str) (h : ∀ w ∈ l, '/' ∉ w) :
    backOver (renderSegs l).reverse = (renderSegs l.dropLast).reverse := by
  rcases List.eq_nil_or_concat l with rfl | ⟨l, w, rfl⟩
  · rfl
  rw [List.concat_eq_append] at *
  rw [List.dropLast_concat, renderSegs_snoc]
  have hw : '/' ∉ w.reverse := by simpa using h w (by simp)
  by_cases hl : l = []
  · subst hl
    rw [if_pos rfl, List.reverse_cons]
    exact backOver_first _ hw
  · rw [if_neg hl, List.reverse_append, List.reverse_cons, List.append_assoc]
    exact backOver_word _ _ hw (by simp [renderSegs])

theorem split_cons_sep (s : Str) : split '/' ('/' :: s) = [] :: split '/' s := by simp [split]

/-- The first segment and the rest. -/
theorem split_span (s : Str) :
    split '/' s = s.takeWhile (· ≠ '/') ::
      (match s.dropWhile (· ≠ '/') with
       | [] => []
       | _ :: t => split '/' t) := by
  induction s with
  | nil => rfl
  | cons c s ih =>
    by_cases hc : c = '/'
    · subst hc; simp [split]
    · simp only [split, if_neg hc]
      rw [ih]
      simp [hc]

theorem dropWhile_slash (s : Str) : s.dropWhile (· ≠ '/') = [] ∨
    ∃ t, s.dropWhile (· ≠ '/') = '/' :: t := by
  induction s with
  | nil => exact .inl rfl
  | cons c s ih =>
    by_cases hc : c = '/'
    · subst hc; exact .inr ⟨s, by simp⟩
    · simpa [hc] using ih

theorem foldl_split_rest (s : Str) (l : List Str) :
    (split '/' s).foldl segStep l =
      (split '/' (s.dropWhile (· ≠ '/'))).foldl segStep (segStep l (s.takeWhile (· ≠ '/'))) := by
  rw [split_span s, List.foldl_cons]
  rcases dropWhile_slash s with h | ⟨t, h⟩
  · rw [h]; simp [split, segStep]
  · rw [h, split_cons_sep]; simp [segStep]

def SegOk (w : Str) : Prop := w ≠ [] ∧ '/' ∉ w

theorem segStep_ok {l : List Str} {w : Str} (h : ∀ x ∈ l, SegOk x) (hw : '/' ∉ w) :
    ∀ x ∈ segStep l w, SegOk x := by
  unfold segStep
  split
  · exact h
  · rename_i hn
    split
    · intro x hx; exact h x (List.dropLast_subset _ hx)
    · intro x hx
      rcases List.mem_append.mp hx with hx | hx
      · exact h x hx
      · simp only [List.mem_singleton] at hx
        subst hx
        exact ⟨fun he => hn (.inl he), hw⟩

theorem takeWhile_no_slash (s : Str) : '/' ∉ s.takeWhile (· ≠ '/') := by
  induction s with
  | nil => simp
  | cons c s ih =>
    by_cases hc : c = '/'
    · subst hc; simp
    · simp only [List.takeWhile_cons, ne_eq, hc, not_false_iff, decide_true, if_true, List.mem_cons,
        not_or]
      exact ⟨fun h => hc h.symm, by simpa using ih⟩

/-- The loop resolves segment after segment. -/
theorem cleanLoop_eq : ∀ (n : Nat) (r : Str) (l : List Str), r.length ≤ n → (∀ w ∈ l, SegOk w) →
    cleanLoop n r (renderSegs l).reverse = (renderSegs ((split '/' r).foldl segStep l)).reverse := by
  intro n
  induction n with
  | zero =>
    intro r l hr _
    have : r = [] := List.length_eq_zero_iff.mp (by omega)
    subst this
    rfl
  | succ n ih =>
    intro r l hr hl
    cases r with
    | nil => rfl
    | cons c r =>
      have hr' : r.length ≤ n := by simp only [List.length_cons] at hr; omega
      simp only [cleanLoop]
      by_cases hc : c = '/'
      · subst hc
        rw [if_pos rfl, ih r l hr' hl, split_cons_sep]
        simp [segStep]
      rw [if_neg hc]
      by_cases h1 : c = '.' ∧ (r = [] ∨ r.head? = some '/')
      · rw [if_pos h1, ih r l hr' hl, foldl_split_rest (c :: r)]
        obtain ⟨rfl, h1 | h1⟩ := h1
        · subst h1; simp [split, segStep]
        · obtain ⟨t, rfl⟩ : ∃ t, r = '/' :: t := by
            cases r with
            | nil => simp at h1
            | cons x t => simp only [List.head?_cons, Option.some.injEq] at h1; exact ⟨t, by rw [h1]⟩
          simp [segStep]
      rw [if_neg h1]
      by_cases h2 : c = '.' ∧ r.head? = some '.' ∧ (r.tail = [] ∨ r.tail.head? = some '/')
      · rw [if_pos h2, backOver_render l fun w hw => (hl w hw).2,
          ih r.tail l.dropLast (by simp only [List.length_tail]; omega)
            fun w hw => hl w (List.dropLast_subset _ hw), foldl_split_rest (c :: r)]
        obtain ⟨rfl, h2, h3⟩ := h2
        obtain ⟨t, rfl⟩ : ∃ t, r = '.' :: t := by
          cases r with
          | nil => simp at h2
          | cons x t => simp only [List.head?_cons, Option.some.injEq] at h2; exact ⟨t, by rw [h2]⟩
        simp only [List.tail_cons] at h3 ⊢
        rcases h3 with h3 | h3
        · subst h3; simp [split, segStep]
        · obtain ⟨u, rfl⟩ : ∃ u, t = '/' :: u := by
            cases t with
            | nil => simp at h3
            | cons x u => simp only [List.head?_cons, Option.some.injEq] at h3; exact ⟨u, by rw [h3]⟩
          simp [segStep]
      rw [if_neg h2, foldl_split_rest (c :: r)]
      have hw0 : (c :: r).takeWhile (· ≠ '/') ≠ [] := by simp [hc]
      have hsp : (c :: r).takeWhile (· ≠ '/') ++ (c :: r).dropWhile (· ≠ '/') = c :: r :=
        List.takeWhile_append_dropWhile
      have hlen : ((c :: r).dropWhile (· ≠ '/')).length ≤ n := by
        have := congrArg List.length hsp
        have h3 := List.length_pos_iff.mpr hw0
        rw [List.length_append] at this
        simp only [List.length_cons] at this hr
        omega
      have hnw := takeWhile_no_slash (c :: r)
      have hrest := dropWhile_slash (c :: r)
      generalize (c :: r).takeWhile (· ≠ '/') = w at *
      generalize (c :: r).dropWhile (· ≠ '/') = rest at *
      have hstep : segStep l w = l ++ [w] := by
        unfold segStep
        have n1 : ¬ (w = [] ∨ w = ['.']) := by
          rintro (h | h)
          · exact hw0 h
          · subst h
            simp only [List.cons_append, List.nil_append, List.cons.injEq] at hsp
            obtain ⟨rfl, rfl⟩ := hsp
            apply h1
            refine ⟨rfl, ?_⟩
            rcases hrest with h | ⟨t, h⟩
            · exact .inl h
            · exact .inr (by rw [h]; rfl)
        have n2 : w ≠ ['.', '.'] := by
          intro h
          subst h
          simp only [List.cons_append, List.nil_append, List.cons.injEq] at hsp
          obtain ⟨rfl, rfl⟩ := hsp
          apply h2
          refine ⟨rfl, rfl, ?_⟩
          rcases hrest with h | ⟨t, h⟩
          · exact .inl h
          · exact .inr (by rw [h]; rfl)
        rw [if_neg n1, if_neg n2]
      have hout : w.reverse ++ (if (renderSegs l).reverse.length ≠ 1 then '/' :: (renderSegs l).reverse
          else (renderSegs l).reverse) = (renderSegs (l ++ [w])).reverse := by
        rw [List.length_reverse, renderSegs_snoc]
        by_cases hn : l = []
        · subst hn; simp [renderSegs, join]
        · have : (renderSegs l).length ≠ 1 := fun h =>
            hn ((renderSegs_length fun w hw => (hl w hw).1).mp h)
          rw [if_pos this, if_neg hn]
          simp
      rw [hout, hstep]
      apply ih rest (l ++ [w]) hlen
      intro x hx
      rcases List.mem_append.mp hx with hx | hx
      · exact hl x hx
      · simp only [List.mem_singleton] at hx
        subst hx
        exact ⟨hw0, hnw⟩

theorem segments_slash (p : Str) : segments ('/' :: p) = segments p := by
  unfold segments; rw [split_cons_sep]; simp [segStep]

theorem pathClean_eq (p : Str) : pathClean ('/' :: p) = renderSegs (segments p) := by
  unfold pathClean
  have := cleanLoop_eq (p.length + 1) p [] (by omega) (by simp)
  simp only [List.tail_cons, List.length_cons]
  have e : (renderSegs []).reverse = ['/'] := rfl
  rw [e] at this
  rw [this, List.reverse_reverse]
  rfl

theorem foldl_plain_inv {ws : List Str} : ∀ {l : List Str}, (∀ w ∈ ws, '/' ∉ w) → (∀ w ∈ l, PlainSeg w) →
    ∀ w ∈ ws.foldl segStep l, PlainSeg w := by
  induction ws with
  | nil => intro l _ h; exact h
  | cons a ws ih =>
    intro l h1 h2
    rw [List.foldl_cons]
    apply ih fun w hw => h1 w (by simp [hw])
    intro w hw
    unfold segStep at hw
    split at hw
    · exact h2 w hw
    · rename_i hn
      split at hw
      · exact h2 w (List.dropLast_subset _ hw)
      · rename_i hn2
        rcases List.mem_append.mp hw with hw | hw
        · exact h2 w hw
        · simp only [List.mem_singleton] at hw
          subst hw
          exact ⟨fun h => hn (.inl h), fun h => hn (.inr h), hn2, h1 w (by simp)⟩

/-- Only plain names remain. -/
theorem segments_plain (p : Str) : ∀ w ∈ segments p, PlainSeg w :=
  foldl_plain_inv (split_no_sep '/' p) (by simp)

theorem renderSegs_eq_root {l : List Str} (h : ∀ w ∈ l, PlainSeg w) : renderSegs l = ['/'] ↔ l = [] := by
  constructor
  · intro he
    exact (renderSegs_length fun w hw => (h w hw).1).mp (by rw [he]; rfl)
  · rintro rfl; rfl

/-- net/http's `cleanPath` yields the canonical form. -/
theorem cleanPath_eq (p : Str) : cleanPath p = canonicalPath p := by
  unfold cleanPath canonicalPath
  cases p with
  | nil => rfl
  | cons c p =>
    rw [if_neg (by simp)]
    by_cases hc : c = '/'
    · subst hc
      have h0 : (if ('/' :: p : Str).head? = some '/' then ('/' :: p : Str) else '/' :: '/' :: p) = '/' :: p := if_pos rfl
      simp only [h0, pathClean_eq, segments_slash]
      have hp := renderSegs_eq_root (segments_plain p)
      by_cases h : segments p = []
      · simp [h, renderSegs, join]
      · have : renderSegs (segments p) ≠ ['/'] := fun he => h (hp.mp he)
        by_cases h2 : ('/' :: p : Str).getLast? = some '/'
        · simp [h2, this, h]
        · rw [if_neg (fun x => h2 x.1), if_neg (fun x => h2 x.2)]
    · have h0 : (if (c :: p : Str).head? = some '/' then (c :: p : Str) else '/' :: c :: p) = '/' :: c :: p :=
        if_neg (by simpa using hc)
      simp only [h0, pathClean_eq]
      have hp := renderSegs_eq_root (segments_plain (c :: p))
      have hlast : ('/' :: c :: p : Str).getLast? = (c :: p : Str).getLast? := by
        rw [List.getLast?_cons_cons]
      rw [hlast]
      by_cases h : segments (c :: p) = []
      · simp [h, renderSegs, join]
      · have : renderSegs (segments (c :: p)) ≠ ['/'] := fun he => h (hp.mp he)
        by_cases h2 : (c :: p : Str).getLast? = some '/'
        · simp [h2, this, h]
        · rw [if_neg (fun x => h2 x.1), if_neg (fun x => h2 x.2)]

theorem split_join_plain : ∀ {l : List Str}, l ≠ [] → (∀ w ∈ l, '/' ∉ w) → split '/' (join ['/'] l) = l := by
  intro l
  induction l with
  | nil => intro h; exact absurd rfl h
  | cons a l ih =>
    intro _ h
    cases l with
    | nil => simp only [join]; exact split_no_occ '/' a (h a (by simp))
    | cons b l =>
      have := ih (by simp) fun w hw => h w (by simp [hw])
      simp only [join, List.append_assoc, List.singleton_append] at this ⊢
      rw [split_append '/' a _ (h a (by simp)), this]

theorem foldl_plain {ws l : List Str} (h : ∀ w ∈ ws, PlainSeg w) : ws.foldl segStep l = l ++ ws := by
  induction ws generalizing l with
  | nil => simp
  | cons a ws ih =>
    have ha := h a (by simp)
    rw [List.foldl_cons, ih fun w hw => h w (by simp [hw])]
    have : segStep l a = l ++ [a] := by
      unfold segStep
      rw [if_neg (by rintro (h | h); exact ha.1 h; exact ha.2.1 h), if_neg ha.2.2.1]
    rw [this]; simp

theorem split_snoc_sep (s : Str) : split '/' (s ++ ['/']) = split '/' s ++ [[]] := by
  induction s with
  | nil => rfl
  | cons c s ih =>
    by_cases hc : c = '/'
    · subst hc; simp only [List.cons_append, split_cons_sep, ih]
    · simp only [List.cons_append, split, if_neg hc]
      rw [ih]
      cases h : split '/' s with
      | nil => exact absurd h (split_ne_nil _ _)
      | cons w ws => rfl

theorem segments_snoc (s : Str) : segments (s ++ ['/']) = segments s := by
  unfold segments; rw [split_snoc_sep, List.foldl_append]; simp [segStep]

theorem segments_render {l : List Str} (h : ∀ w ∈ l, PlainSeg w) : segments (renderSegs l) = l := by
  unfold renderSegs
  rw [segments_slash]
  by_cases hl : l = []
  · subst hl; rfl
  · unfold segments
    rw [split_join_plain hl fun w hw => (h w hw).2.2.2, foldl_plain h]; simp

theorem segments_canonical (p : Str) : segments (canonicalPath p) = segments p := by
  unfold canonicalPath
  simp only
  split
  · rw [segments_snoc, segments_render (segments_plain p)]
  · rw [segments_render (segments_plain p)]

theorem render_last {l : List Str} (h : ∀ w ∈ l, PlainSeg w) (hl : l ≠ []) :
    (renderSegs l).getLast? ≠ some '/' := by
  rcases List.eq_nil_or_concat l with rfl | ⟨l, w, rfl⟩
  · exact absurd rfl hl
  rw [List.concat_eq_append] at *
  have hw := h w (by simp)
  rcases List.eq_nil_or_concat w with rfl | ⟨w, c, rfl⟩
  · exact absurd rfl hw.1
  rw [List.concat_eq_append] at *
  have hc : c ≠ '/' := fun he => hw.2.2.2 (by simp [he])
  rw [renderSegs_snoc]
  split
  · rw [← List.cons_append, List.getLast?_concat]; simpa using hc
  · rw [show renderSegs l ++ '/' :: (w ++ [c]) = (renderSegs l ++ '/' :: w) ++ [c] by simp, List.getLast?_concat]; simpa using hc

/-- Cleaning is idempotent. -/
theorem canonical_canonical (p : Str) : canonicalPath (canonicalPath p) = canonicalPath p := by
  have hs := segments_canonical p
  have hp := segments_plain p
  unfold canonicalPath at hs ⊢
  simp only at hs ⊢
  rw [hs]
  by_cases h : segments p ≠ [] ∧ p.getLast? = some '/'
  · rw [if_pos h, if_pos ⟨h.1, by simp⟩]
  · rw [if_neg h]
    rw [if_neg]
    rintro ⟨h1, h2⟩
    exact render_last hp h1 h2

/-- A canonical path with a slash appended is canonical. -/
theorem canonical_snoc {p : Str} (h : canonicalPath p = p) (hs : p.getLast? ≠ some '/') :
    canonicalPath (p ++ ['/']) = p ++ ['/'] := by
  have h1 : segments p ≠ [] := by
    intro hn
    apply hs
    rw [← h]
    unfold canonicalPath
    simp [hn, renderSegs, join]
  have h2 : renderSegs (segments p) = p := by
    have := h
    unfold canonicalPath at this
    simp only at this
    rw [if_neg (fun x => hs x.2)] at this
    exact this
  unfold canonicalPath
  simp only [segments_snoc]
  rw [if_pos ⟨h1, by simp⟩, h2]

/-- In a canonical path there are no dot segments. -/
theorem canonical_noDot {p : Str} (h : canonicalPath p = p) : NoDotSegs p := by
  have hp := segments_plain p
  have key : ∀ w ∈ split '/' (renderSegs (segments p)), w ≠ ['.'] ∧ w ≠ ['.', '.'] := by
    intro w hw
    unfold renderSegs at hw
    rw [split_cons_sep, List.mem_cons] at hw
    rcases hw with rfl | hw
    · exact ⟨by simp, by simp⟩
    · by_cases hl : segments p = []
      · rw [hl] at hw; simp only [join, split, List.mem_singleton] at hw; subst hw; exact ⟨by simp, by simp⟩
      · rw [split_join_plain hl fun x hx => (hp x hx).2.2.2] at hw
        exact ⟨(hp w hw).2.1, (hp w hw).2.2.1⟩
  unfold NoDotSegs
  rw [← h]
  unfold canonicalPath
  simp only
  split
  · rw [split_snoc_sep]
    intro w hw
    rcases List.mem_append.mp hw with hw | hw
    · exact key w hw
    · simp only [List.mem_singleton] at hw; subst hw; exact ⟨by simp, by simp⟩
  · exact key

theorem canonical_ne_nil (p : Str) : canonicalPath p ≠ [] := by
  unfold canonicalPath
  simp only
  split <;> simp [renderSegs]

theorem canonical_head (p : Str) : (canonicalPath p).head? = some '/' := by
  unfold canonicalPath
  simp only
  split <;> simp [renderSegs]

end J8a

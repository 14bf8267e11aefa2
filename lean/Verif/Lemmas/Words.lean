import Verif.Lemmas.Iprex
/-! # The address expressions in a longer text -/
namespace J8a.Rex

/-- A rejected character separates: what is found is found before it or behind it. -/
theorem find_stop {r : Rex} {x : Char} (h : rejects x r = true) (h0 : r.ends [] = []) (t : Str) :
    ∀ w : Str, r.find (w ++ x :: t) = match r.find w with
      | some m => some m
      | none => r.find t := by
  intro w
  induction w with
  | nil =>
    have e : r.find [] = none := by simp only [find, h0]
    rw [e]
    show r.find (x :: t) = r.find t
    rw [find, ends_stop_nil h h0]
  | cons c w ih =>
    have hs := ends_stop x t r h (c :: w)
    rw [List.cons_append] at hs ⊢
    rw [find, hs]
    cases he : r.ends (c :: w) with
    | nil =>
      simp only [List.map_nil, ih]
      rw [find, he]
    | cons rest l =>
      have hsuf := suffix_of_mem_ends r (c :: w) rest (by rw [he]; simp)
      simp only [List.map_cons, find, he]
      congr 1
      have hl := hsuf.length_le
      rw [← List.cons_append, List.take_append_of_le_length]
      · congr 1
        simp only [List.length_append, List.length_cons] at hl ⊢
        omega
      · simp only [List.length_append, List.length_cons] at hl ⊢
        omega

/-- All classes lie in `A`. -/
def within (A : List Char) : Rex → Bool
  | cls cs => cs.all A.contains
  | seq a b => within A a && within A b
  | alt a b => within A a && within A b
  | rep r _ _ => within A r
  | star cs => cs.all A.contains

theorem rejects_of_within {A : List Char} {x : Char} (hx : x ∉ A) :
    ∀ {r : Rex}, within A r = true → rejects x r = true
  | cls cs, h => by
    simp only [within, List.all_eq_true, List.contains_eq_mem, decide_eq_true_eq] at h
    simp only [rejects, List.contains_eq_mem, Bool.not_eq_true', decide_eq_false_iff_not]
    exact fun hh => hx (h x hh)
  | seq a b, h => by
    simp only [within, Bool.and_eq_true] at h
    simp only [rejects, Bool.and_eq_true]
    exact ⟨rejects_of_within hx h.1, rejects_of_within hx h.2⟩
  | alt a b, h => by
    simp only [within, Bool.and_eq_true] at h
    simp only [rejects, Bool.and_eq_true]
    exact ⟨rejects_of_within hx h.1, rejects_of_within hx h.2⟩
  | rep r _ _, h => by
    simp only [within] at h
    simp only [rejects]
    exact rejects_of_within hx h
  | star cs, h => by
    simp only [within, List.all_eq_true, List.contains_eq_mem, decide_eq_true_eq] at h
    simp only [rejects, List.contains_eq_mem, Bool.not_eq_true', decide_eq_false_iff_not]
    exact fun hh => hx (h x hh)

/-- Every match starts with the character. -/
def first (x : Char) : Rex → Bool
  | cls cs => cs.all (· == x)
  | seq a _ => first x a
  | alt a b => first x a && first x b
  | rep r min max => decide (0 < min) && decide (0 < max) && first x r
  | star _ => false

/-- Every match ends with the character. -/
def last (x : Char) : Rex → Bool
  | cls cs => cs.all (· == x)
  | seq _ b => last x b
  | alt a b => last x a && last x b
  | rep r min max => decide (0 < min) && decide (0 < max) && last x r
  | star _ => false

/-- Every match has two colons in a row or a percent sign. -/
def doubled : Rex → Bool
  | cls cs => cs.all (· == '%')
  | seq a b => doubled a || doubled b || (last ':' a && first ':' b)
  | alt a b => doubled a && doubled b
  | rep r min max => decide (0 < min) && decide (0 < max) && doubled r
  | star _ => false

/-- Two colons in a row or a percent sign. -/
def HasDouble (u : Str) : Prop := '%' ∈ u ∨ ∃ p q, u = p ++ ':' :: ':' :: q

theorem HasDouble.left {u : Str} (h : HasDouble u) (v : Str) : HasDouble (u ++ v) := by
  rcases h with h | ⟨p, q, rfl⟩
  · exact .inl (by simp [h])
  · exact .inr ⟨p, q ++ v, by simp⟩

theorem HasDouble.right {u : Str} (h : HasDouble u) (v : Str) : HasDouble (v ++ u) := by
  rcases h with h | ⟨p, q, rfl⟩
  · exact .inl (by simp [h])
  · exact .inr ⟨v ++ p, q, by simp⟩

/-- What a match consumes. -/
structure Eats (r : Rex) (u : Str) : Prop where
  first : r.first ':' = true → ∃ u', u = ':' :: u'
  last : r.last ':' = true → ∃ u', u = u' ++ [':']
  doubled : r.doubled = true → HasDouble u
  rejects : ∀ x, rejects x r = true → x ∉ u

theorem eats_of_mem_ends : ∀ (r : Rex) (s t : Str), t ∈ r.ends s → ∃ u, s = u ++ t ∧ Eats r u := by
  intro r
  induction r with
  | cls cs =>
    intro s t h
    cases s with
    | nil => simp [ends] at h
    | cons c s =>
      simp only [ends] at h
      split at h
      · rename_i hc
        simp only [List.mem_singleton] at h
        subst h
        refine ⟨[c], rfl, fun h => ?_, fun h => ?_, fun h => ?_, fun x hx => ?_⟩
        · simp only [Rex.first, List.all_eq_true, beq_iff_eq] at h
          exact ⟨[], by rw [h c hc]⟩
        · simp only [Rex.last, List.all_eq_true, beq_iff_eq] at h
          exact ⟨[], by rw [h c hc]; rfl⟩
        · simp only [Rex.doubled, List.all_eq_true, beq_iff_eq] at h
          exact .inl (by rw [h c hc]; simp)
        · simp only [Rex.rejects, List.contains_eq_mem, Bool.not_eq_true', decide_eq_false_iff_not] at hx
          rw [List.mem_singleton]
          rintro rfl
          exact hx hc
      · cases h
  | seq a b iha ihb =>
    intro s t h
    simp only [ends, List.mem_flatMap] at h
    obtain ⟨w, hw, ht⟩ := h
    obtain ⟨u1, rfl, h1⟩ := iha s w hw
    obtain ⟨u2, rfl, h2⟩ := ihb w t ht
    refine ⟨u1 ++ u2, by simp, fun h => ?_, fun h => ?_, fun h => ?_, fun x hx => ?_⟩
    · obtain ⟨u', rfl⟩ := h1.first h
      exact ⟨u' ++ u2, rfl⟩
    · obtain ⟨u', rfl⟩ := h2.last h
      exact ⟨u1 ++ u', by simp⟩
    · simp only [Rex.doubled, Bool.or_eq_true, Bool.and_eq_true] at h
      rcases h with (h | h) | ⟨h, h'⟩
      · exact (h1.doubled h).left u2
      · exact (h2.doubled h).right u1
      · obtain ⟨p, rfl⟩ := h1.last h
        obtain ⟨q, rfl⟩ := h2.first h'
        exact .inr ⟨p, q, by simp⟩
    · simp only [Rex.rejects, Bool.and_eq_true] at hx
      rw [List.mem_append]
      rintro (hm | hm)
      · exact h1.rejects x hx.1 hm
      · exact h2.rejects x hx.2 hm
  | alt a b iha ihb =>
    intro s t h
    simp only [ends, List.mem_append] at h
    rcases h with h | h
    · obtain ⟨u, rfl, h1⟩ := iha s t h
      refine ⟨u, rfl, fun h => ?_, fun h => ?_, fun h => ?_, fun x hx => ?_⟩
      · simp only [Rex.first, Bool.and_eq_true] at h; exact h1.first h.1
      · simp only [Rex.last, Bool.and_eq_true] at h; exact h1.last h.1
      · simp only [Rex.doubled, Bool.and_eq_true] at h; exact h1.doubled h.1
      · simp only [Rex.rejects, Bool.and_eq_true] at hx; exact h1.rejects x hx.1
    · obtain ⟨u, rfl, h1⟩ := ihb s t h
      refine ⟨u, rfl, fun h => ?_, fun h => ?_, fun h => ?_, fun x hx => ?_⟩
      · simp only [Rex.first, Bool.and_eq_true] at h; exact h1.first h.2
      · simp only [Rex.last, Bool.and_eq_true] at h; exact h1.last h.2
      · simp only [Rex.doubled, Bool.and_eq_true] at h; exact h1.doubled h.2
      · simp only [Rex.rejects, Bool.and_eq_true] at hx; exact h1.rejects x hx.2
  | rep r min max ih =>
    intro s t h
    simp only [ends] at h
    induction max generalizing min s with
    | zero =>
      simp only [repEnds, List.mem_singleton] at h
      subst h
      refine ⟨[], rfl, fun h => ?_, fun h => ?_, fun h => ?_, fun x _ => by simp⟩
      · simp [Rex.first] at h
      · simp [Rex.last] at h
      · simp [Rex.doubled] at h
    | succ max ihm =>
      rw [repEnds_succ, List.mem_append, List.mem_flatMap] at h
      rcases h with ⟨w, hw, ht⟩ | h
      · obtain ⟨u1, rfl, h1⟩ := ih s w hw
        obtain ⟨u2, rfl, h2⟩ := ihm (min - 1) w ht
        refine ⟨u1 ++ u2, by simp, fun h => ?_, fun h => ?_, fun h => ?_, fun x hx => ?_⟩
        · simp only [Rex.first, Bool.and_eq_true] at h
          obtain ⟨u', rfl⟩ := h1.first h.2
          exact ⟨u' ++ u2, rfl⟩
        · simp only [Rex.last, Bool.and_eq_true] at h
          cases hu : u2 with
          | nil => rw [List.append_nil]; exact h1.last h.2
          | cons c u3 =>
            have : ∀ (max min : Nat) (s t : Str), t ∈ repEnds r.ends min max s →
                ∀ u, s = u ++ t → u = [] ∨ ∃ u', u = u' ++ [':'] := by
              intro max
              induction max with
              | zero =>
                intro min s t h u hu
                simp only [repEnds, List.mem_singleton] at h
                subst h
                exact .inl (by simpa using hu)
              | succ max ihx =>
                intro min s t ht u hu
                rw [repEnds_succ, List.mem_append, List.mem_flatMap] at ht
                rcases ht with ⟨w, hw, ht⟩ | ht
                · obtain ⟨v1, rfl, g1⟩ := ih s w hw
                  obtain ⟨v2, hv2⟩ := suffix_of_mem_ends (.rep r (min - 1) max) w t ht
                  have hu' : u = v1 ++ v2 := by
                    rw [← hv2, ← List.append_assoc] at hu
                    exact (List.append_cancel_right hu).symm
                  obtain ⟨u', hu''⟩ := g1.last h.2
                  rcases ihx _ w t ht v2 hv2.symm with rfl | ⟨v', rfl⟩
                  · exact .inr ⟨u', by rw [hu', hu'']; simp⟩
                  · exact .inr ⟨v1 ++ v', by rw [hu']; simp⟩
                · split at ht
                  · simp only [List.mem_singleton] at ht
                    subst ht
                    exact .inl (by simpa using hu)
                  · cases ht
            rcases this max (min - 1) _ t ht u2 rfl with h3 | ⟨u', h3⟩
            · rw [hu] at h3; cases h3
            · rw [hu] at h3
              exact ⟨u1 ++ u', by rw [h3]; simp⟩
        · simp only [Rex.doubled, Bool.and_eq_true] at h
          exact (h1.doubled h.2).left u2
        · simp only [Rex.rejects] at hx
          rw [List.mem_append]
          rintro (hm | hm)
          · exact h1.rejects x hx hm
          · exact h2.rejects x (by simp only [Rex.rejects]; exact hx) hm
      · split at h
        · rename_i hmin
          simp only [List.mem_singleton] at h
          subst h
          subst hmin
          refine ⟨[], rfl, fun h => ?_, fun h => ?_, fun h => ?_, fun x _ => by simp⟩
          · simp [Rex.first] at h
          · simp [Rex.last] at h
          · simp [Rex.doubled] at h
        · cases h
  | star cs =>
    intro s t h
    simp only [ends] at h
    have : ∃ u, s = u ++ t ∧ ∀ c ∈ u, c ∈ cs := by
      induction s with
      | nil =>
        simp only [starEnds, List.mem_singleton] at h
        exact ⟨[], by simp [h], by simp⟩
      | cons c s ih =>
        simp only [starEnds, List.mem_append, List.mem_singleton] at h
        rcases h with h | h
        · split at h
          · rename_i hc
            obtain ⟨u, rfl, hu⟩ := ih h
            refine ⟨c :: u, rfl, fun d hd => ?_⟩
            rcases List.mem_cons.1 hd with rfl | hd
            · exact hc
            · exact hu d hd
          · cases h
        · exact ⟨[], by rw [h]; rfl, by simp⟩
    obtain ⟨u, hu, hc⟩ := this
    refine ⟨u, hu, fun h => ?_, fun h => ?_, fun h => ?_, fun x hx hm => ?_⟩
    · simp [Rex.first] at h
    · simp [Rex.last] at h
    · simp [Rex.doubled] at h
    · simp only [Rex.rejects, List.contains_eq_mem, Bool.not_eq_true', decide_eq_false_iff_not] at hx
      exact hx (hc x hm)

end J8a.Rex

namespace J8a.Iprex
open Go Rex

/-- The characters of words. -/
def wordChars : List Char :=
  "0123456789abcdefghijklmnopqrstuvwxyzABCDEFGHIJKLMNOPQRSTUVWXYZ.:%".toList

theorem within_all : within wordChars ipv64e = true ∧ within wordChars ipv6s = true ∧
    within wordChars ipv6 = true ∧ within wordChars ipv4 = true := by decide +kernel

theorem calm_append : ∀ (a b : Str) (k : Nat) (p : Bool), calm k p (a ++ b) = true →
    ∃ k' p', calm k' p' b = true
  | [], _, k, p, h => ⟨k, p, h⟩
  | c :: a, b, k, p, h => by
    rw [List.cons_append, calm] at h
    split at h
    · cases h
    split at h
    · exact calm_append a b _ _ h
    split at h
    · simp only [Bool.and_eq_true] at h
      exact calm_append a b _ _ h.2
    split at h
    · simp only [Bool.and_eq_true] at h
      exact calm_append a b _ _ h.2
    · exact calm_append a b _ _ h

/-- A piece of one word of a calm text. -/
theorem calm_word : ∀ (u b : Str) (k : Nat) (p : Bool), calm k p (u ++ b) = true →
    (∀ c ∈ u, ¬ IsSeparator c) →
    '%' ∉ u ∧ cnt isColon u ≤ 6 ∧ (0 < cnt isColon u → cnt isColon u + k ≤ 6) ∧
    (p = true → ∀ v, u ≠ ':' :: v) ∧ (∀ v w, u ≠ v ++ ':' :: ':' :: w) ∧ (0 < k → '.' ∉ u) ∧
    (∀ v w, u = v ++ ':' :: w → '.' ∉ w)
  | [], _, _, _, _, _ => ⟨by simp, by simp [cnt], by simp [cnt], by simp, by simp, by simp, by simp⟩
  | c :: u, b, k, p, h, hu => by
    have hu' : ∀ c ∈ u, ¬ IsSeparator c := fun d hd => hu d (by simp [hd])
    rw [List.cons_append, calm] at h
    split at h
    · cases h
    rename_i hpc
    rw [if_neg (hu c (by simp))] at h
    split at h
    · rename_i hc
      subst hc
      simp only [Bool.and_eq_true, Bool.not_eq_true', decide_eq_true_eq] at h
      obtain ⟨⟨hp, hk⟩, h⟩ := h
      obtain ⟨h1, h2, h3, h4, h5, h6, h7⟩ := calm_word u b _ _ h hu'
      have hcnt : cnt isColon (':' :: u) = 1 + cnt isColon u := by rw [cnt_cons]; rfl
      refine ⟨?_, ?_, ?_, ?_, ?_, ?_, ?_⟩
      · rw [List.mem_cons]; rintro (h | h)
        · exact absurd h (by decide)
        · exact h1 h
      · rw [hcnt]; omega
      · intro _; rw [hcnt]; omega
      · intro h; rw [hp] at h; cases h
      · intro v w hv
        cases v with
        | nil =>
          simp only [List.nil_append, List.cons.injEq, true_and] at hv
          exact h4 rfl w hv
        | cons d v =>
          simp only [List.cons_append, List.cons.injEq] at hv
          exact h5 v w hv.2
      · intro _
        rw [List.mem_cons]; rintro (h | h)
        · exact absurd h (by decide)
        · exact h6 (by omega) h
      · intro v w hv
        cases v with
        | nil =>
          simp only [List.nil_append, List.cons.injEq, true_and] at hv
          rw [← hv]
          exact h6 (by omega)
        | cons d v =>
          simp only [List.cons_append, List.cons.injEq] at hv
          exact h7 v w hv.2
    rename_i hcol
    have hcnt : cnt isColon (c :: u) = cnt isColon u := by
      rw [cnt_cons]; simp [isColon, hcol]
    have key : calm k false (u ++ b) = true → (c = '.' → k = 0) →
        '%' ∉ (c :: u) ∧ cnt isColon (c :: u) ≤ 6 ∧ (0 < cnt isColon (c :: u) → cnt isColon (c :: u) + k ≤ 6) ∧
        (p = true → ∀ v, c :: u ≠ ':' :: v) ∧ (∀ v w, c :: u ≠ v ++ ':' :: ':' :: w) ∧
        (0 < k → '.' ∉ c :: u) ∧ (∀ v w, c :: u = v ++ ':' :: w → '.' ∉ w) := by
      intro h hdot
      obtain ⟨h1, h2, h3, h4, h5, h6, h7⟩ := calm_word u b _ _ h hu'
      refine ⟨?_, ?_, ?_, ?_, ?_, ?_, ?_⟩
      · rw [List.mem_cons]; rintro (h | h)
        · exact hpc h.symm
        · exact h1 h
      · rw [hcnt]; exact h2
      · rw [hcnt]; exact h3
      · intro _ v hv
        cases hv
        exact hcol rfl
      · intro v w hv
        cases v with
        | nil =>
          simp only [List.nil_append, List.cons.injEq] at hv
          exact hcol hv.1
        | cons d v =>
          simp only [List.cons_append, List.cons.injEq] at hv
          exact h5 v w hv.2
      · intro hk
        rw [List.mem_cons]; rintro (h | h)
        · have := hdot h.symm; omega
        · exact h6 hk h
      · intro v w hv
        cases v with
        | nil =>
          simp only [List.nil_append, List.cons.injEq] at hv
          exact absurd hv.1 hcol
        | cons d v =>
          simp only [List.cons_append, List.cons.injEq] at hv
          exact h7 v w hv.2
    split at h
    · simp only [Bool.and_eq_true, beq_iff_eq] at h
      exact key h.2 fun _ => h.1
    · rename_i hd
      exact key h fun hh => absurd hh hd

/-- What an expression matches in a calm text. -/
theorem calm_eats {r : Rex} (hr : within wordChars r = true) {k : Nat} {p : Bool} {s : Str}
    (hs : calm k p s = true) {t v : Str} (ht : t <:+ s) (hv : v ∈ r.ends t) :
    ∃ u, t = u ++ v ∧ Eats r u ∧ '%' ∉ u ∧ cnt isColon u ≤ 6 ∧ (∀ v w, u ≠ v ++ ':' :: ':' :: w) ∧
      (∀ v w, u = v ++ ':' :: w → '.' ∉ w) := by
  obtain ⟨a, rfl⟩ := ht
  obtain ⟨u, rfl, hu⟩ := eats_of_mem_ends r t v hv
  obtain ⟨k', p', hc⟩ := calm_append a _ k p hs
  have hsep : ∀ c ∈ u, ¬ IsSeparator c := fun c hc hsep => hu.rejects c (rejects_of_within hsep hr) hc
  obtain ⟨h1, h2, -, -, h5, -, h7⟩ := calm_word u v k' p' hc hsep
  exact ⟨u, rfl, hu, h1, h2, h5, h7⟩

theorem calm_not_doubled {r : Rex} (hr : within wordChars r = true) (hd : r.doubled = true) {k : Nat}
    {p : Bool} {s : Str} (hs : calm k p s = true) {t : Str} (ht : t <:+ s) : r.ends t = [] := by
  rw [List.eq_nil_iff_forall_not_mem]
  intro v hv
  obtain ⟨u, -, hu, h1, -, h3, -⟩ := calm_eats hr hs ht hv
  rcases hu.doubled hd with h | ⟨a, b, h⟩
  · exact h1 h
  · exact h3 a b h

theorem calm_ipv6s {k : Nat} {p : Bool} {s : Str} (hs : calm k p s = true) : ipv6s.find s = none :=
  find_none fun _ ht => calm_not_doubled within_all.2.1 (by decide) hs ht

theorem calm_ipv6 {k : Nat} {p : Bool} {s : Str} (hs : calm k p s = true) : ipv6.find s = none := by
  refine find_none fun t ht => ?_
  have hw := within_all.2.2.1
  unfold ipv6 at hw ⊢
  rw [within, Bool.and_eq_true] at hw
  rw [ends, calm_not_doubled hw.2 (by decide +kernel) hs ht, List.append_nil,
    List.eq_nil_iff_forall_not_mem]
  intro v hv
  obtain ⟨u, rfl, -, -, h2, -⟩ := calm_eats hw.1 hs ht hv
  have := need_le_cnt isColon (seq (rep hc 7 7) h14) (by decide) _ v hv
  rw [cnt_append, show need isColon (seq (rep hc 7 7) h14) = 7 by decide] at this
  omega

theorem calm_ipv64e {k : Nat} {p : Bool} {s : Str} (hs : calm k p s = true) : ipv64e.find s = none := by
  refine find_none fun t ht => ?_
  rw [List.eq_nil_iff_forall_not_mem]
  intro v hv
  obtain ⟨u, hu, -, -, -, -, hdot⟩ := calm_eats within_all.1 hs ht hv
  simp only [ipv64e, ends, List.mem_flatMap] at hv
  obtain ⟨v1, hv1, v2, hv2, v3, hv3, hv⟩ := hv
  obtain ⟨a1, ha1⟩ := suffix_of_mem_ends (rep (ch ':') 0 2) t v1 hv1
  obtain ⟨a2, rfl, e2⟩ := eats_of_mem_ends (rep hc 1 6) v1 v2 hv2
  obtain ⟨a3, rfl⟩ := suffix_of_mem_ends (rep (ch ':') 0 1) v2 v3 hv3
  obtain ⟨a4, rfl⟩ := suffix_of_mem_ends quad v3 v hv
  obtain ⟨a2', rfl⟩ := e2.last (by decide)
  have hn := need_le_cnt isDot quad (by decide) _ v hv
  rw [cnt_append, show need isDot quad = 3 by decide] at hn
  have : u = (a1 ++ a2') ++ ':' :: (a3 ++ a4) := by
    rw [hu] at ha1
    refine List.append_cancel_right (ha1.symm.trans ?_)
    simp
  refine hdot _ _ this ?_
  have : 0 < cnt isDot a4 := by omega
  unfold cnt at this
  obtain ⟨c, hc⟩ := List.exists_mem_of_length_pos this
  rw [List.mem_filter] at hc
  have : c = '.' := by simpa [isDot] using hc.2
  subst this
  simp [hc.1]

end J8a.Iprex

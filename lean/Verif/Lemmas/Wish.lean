import Verif.Model.Wish
import Verif.Lemmas.Incoming
/-!
# Tokens in lists
-/
namespace J8a
open Go

theorem trimBlank_eq (s : Str) : trimBlank s = trimOws s := rfl

theorem dropWhile_mem_ows {l : Str} (h : ∀ c ∈ l, isOws c = true) (s : Str) : (l ++ s).dropWhile isOws = s.dropWhile isOws :=
  dropWhile_ows (fun c hc => by have := h c hc; simpa [isOws] using this)

/-- Around a text without white space. -/
theorem trimOws_around {l t w : Str} (ht : t ≠ []) (hn : ∀ c ∈ t, isOws c = false) :
    trimOws (l ++ (t ++ w)) = l.dropWhile isOws ++ (t ++ (w.reverse.dropWhile isOws).reverse) := by
  have key : ∀ (a t b : Str), t ≠ [] → (∀ c ∈ t, isOws c = false) →
      (a ++ (t ++ b)).dropWhile isOws = a.dropWhile isOws ++ (t ++ b) := by
    intro a t b ht hn
    rw [List.dropWhile_append]
    cases ha : (a.dropWhile isOws) with
    | nil =>
      simp only [List.isEmpty_nil, if_true, List.nil_append]
      cases t with
      | nil => exact absurd rfl ht
      | cons c t => rw [List.cons_append, List.dropWhile_cons, hn c (by simp)]; rfl
    | cons _ _ => simp
  unfold trimOws
  rw [key _ _ _ ht hn, List.reverse_append, List.reverse_append, List.append_assoc,
    key _ _ _ (by simpa using ht) (by simpa using hn)]
  simp

theorem trimOws_snoc {b : Char} (hb : isOws b = true) (l : Str) : trimOws (l ++ [b]) = trimOws l := by
  unfold trimOws
  rw [List.dropWhile_append]
  cases h : l.dropWhile isOws with
  | nil => simp [hb]
  | cons c s => simp [hb]

theorem trimOws_cons {b : Char} (hb : isOws b = true) (l : Str) : trimOws (b :: l) = trimOws l := by
  unfold trimOws
  rw [List.dropWhile_cons, hb]
  rfl

theorem split_cons_other {sep c : Char} (h : c ≠ sep) (s : Str) :
    ∃ w ws, split sep s = w :: ws ∧ split sep (c :: s) = (c :: w) :: ws := by
  cases hs : split sep s with
  | nil => exact absurd hs (split_ne_nil _ _)
  | cons w ws => exact ⟨w, ws, rfl, by simp [split, h, hs]⟩

/-- The last part goes on. -/
theorem split_last (sep : Char) : ∀ p : Str, ∃ i l, split sep p = i ++ [l] ∧ l <:+ p ∧
    ∀ s w ws, split sep s = w :: ws → split sep (p ++ s) = i ++ (l ++ w) :: ws
  | [] => ⟨[], [], rfl, List.suffix_refl _, fun s w ws h => by simpa using h⟩
  | c :: p => by
    obtain ⟨i, l, h1, h2, h3⟩ := split_last sep p
    by_cases hc : c = sep
    · subst hc
      refine ⟨[] :: i, l, by simp [split, h1], h2.trans (List.suffix_cons ..), fun s w ws h => ?_⟩
      simp [split, h3 s w ws h]
    · cases i with
      | nil =>
        have hl : l = p := by
          have := join_split sep p
          rw [h1] at this
          simpa [join] using this
        subst hl
        refine ⟨[], c :: l, by simp [split, h1, hc], List.suffix_refl _, fun s w ws h => ?_⟩
        simp [split, hc, h3 s w ws h]
      | cons a i =>
        refine ⟨(c :: a) :: i, l, by simp [split, h1, hc], h2.trans (List.suffix_cons ..), fun s w ws h => ?_⟩
        simp [split, hc, h3 s w ws h]

/-- White space around a list is around its parts. -/
theorem split_trim (v : Str) : (split ',' (trimBlank v)).map trimOws = (split ',' v).map trimOws := by
  have front : ∀ v : Str, (split ',' (v.dropWhile isOws)).map trimOws = (split ',' v).map trimOws := by
    intro v
    induction v with
    | nil => rfl
    | cons c v ih =>
      rw [List.dropWhile_cons]
      cases hc : isOws c with
      | false => rfl
      | true =>
        have hne : c ≠ ',' := fun e => by rw [e] at hc; exact absurd hc (by decide)
        obtain ⟨w, ws, h1, h2⟩ := split_cons_other hne v
        simp only [if_true]
        rw [ih, h1, h2]
        simp only [List.map_cons, trimOws_cons hc]
  have back : ∀ v : Str, (split ',' (v.reverse.dropWhile isOws).reverse).map trimOws = (split ',' v).map trimOws := by
    intro v
    generalize hr : v.reverse = r
    have hv : v = r.reverse := by rw [← hr, List.reverse_reverse]
    rw [hv]
    clear hr hv
    induction r with
    | nil => rfl
    | cons c r ih =>
      rw [List.dropWhile_cons]
      cases hc : isOws c with
      | false => rfl
      | true =>
        simp only [if_true]
        rw [ih, List.reverse_cons]
        have hne : c ≠ ',' := fun e => by rw [e] at hc; exact absurd hc (by decide)
        obtain ⟨i, l, h1, -, h3⟩ := split_last ',' r.reverse
        rw [h3 [c] [c] [] (by simp [split, hne]), h1]
        simp only [List.map_append, List.map_cons, List.map_nil, trimOws_snoc hc]
  exact (back _).trans (front v)

theorem valueHasToken_eq (token : Str) : ∀ (n : Nat) (v : Str), v.length < n →
    valueHasToken token n v = (split ',' v).any fun o => equalFold (trimOws o) token := by
  have lift : ∀ (a : Str) (f : Str → Bool), (split ',' a).any (fun o => f (trimOws o)) = ((split ',' a).map trimOws).any f := by
    intro a f; rw [List.any_map]; rfl
  intro n
  induction n with
  | zero => intro v h; exact absurd h (by omega)
  | succ n ih =>
    intro v hv
    rw [lift v (fun o => equalFold o token), ← split_trim, ← lift _ (fun o => equalFold o token)]
    have hlen : (trimBlank v).length ≤ v.length := by
      unfold trimBlank
      have h1 := (List.dropWhile_suffix isBlank (l := (v.dropWhile isBlank).reverse)).length_le
      have h2 := (List.dropWhile_suffix isBlank (l := v)).length_le
      simp only [List.length_reverse] at h1 ⊢
      omega
    simp only [valueHasToken]
    generalize hu : trimBlank v = u
    rw [hu] at hlen
    have hself : trimOws u = u := by
      rw [← hu]
      exact trimOws_idem v
    by_cases hc : ',' ∈ u
    · rw [if_pos hc]
      obtain ⟨a, b, hab, hna⟩ := List.eq_append_cons_of_mem hc
      rw [hab, cutAt_sep hna]
      have hb : b.length < n := by rw [hab] at hlen; simp at hlen; omega
      simp only
      rw [ih b hb, split_append _ _ _ hna]
      rfl
    · rw [if_neg hc, split_no_occ _ _ hc]
      simp [hself]

theorem hasTokenAfter_some {token : Str} : ∀ {prev : Option Char} {s : Str}, hasTokenAfter token prev s = true →
    ∃ p t q, s = p ++ (t ++ q) ∧ equalFold t token = true ∧ (p.getLast?.or prev).all isTokenBoundary = true ∧
      q.head?.all isTokenBoundary = true
  | _, [], h => by simp [hasTokenAfter] at h
  | prev, c :: s, h => by
    simp only [hasTokenAfter, Bool.or_eq_true, Bool.and_eq_true] at h
    rcases h with ⟨⟨h1, h2⟩, h3⟩ | h
    · exact ⟨[], (c :: s).take token.length, (c :: s).drop token.length, by simp, h2, by simpa using h1, h3⟩
    · obtain ⟨p, t, q, e, h1, h2, h3⟩ := hasTokenAfter_some h
      refine ⟨c :: p, t, q, by rw [e]; rfl, h1, ?_, h3⟩
      cases p with
      | nil => simpa using h2
      | cons d p =>
        rw [List.getLast?_cons_cons]
        cases hl : (d :: p).getLast? with
        | none => simp at hl
        | some x => rw [hl] at h2; exact h2

/-- If the parts of a list have no white space inside, then what `hasToken` finds is one of them. -/
theorem hasToken_listed {v token : Str} (ht : token ≠ []) (hb : ∀ c : Char, c.toLower ∈ toLower token → isTokenBoundary c = false)
    (hv : ∀ o ∈ split ',' v, ∀ c ∈ trimOws o, isOws c = false) (h : hasToken v token = true) :
    ∃ o ∈ split ',' v, equalFold (trimOws o) token = true := by
  obtain ⟨p, t, q, rfl, h1, h2, h3⟩ := hasTokenAfter_some h
  have e1 : toLower t = toLower token := by simpa [equalFold] using h1
  have hlen : t.length = token.length := by
    have := congrArg List.length e1
    simpa [toLower] using this
  have htn : t ≠ [] := by
    intro e
    rw [e] at hlen
    exact ht (List.eq_nil_of_length_eq_zero hlen.symm)
  have hbt : ∀ c ∈ t, isTokenBoundary c = false := by
    intro c hc
    apply hb
    rw [← e1]
    exact List.mem_map.2 ⟨c, hc, rfl⟩
  have hnt : ∀ c ∈ t, isOws c = false := by
    intro c hc
    have := hbt c hc
    unfold isTokenBoundary at this
    unfold isOws
    simp only [Bool.or_eq_false_iff] at this ⊢
    exact ⟨this.1.1, this.2⟩
  have hct : ',' ∉ t := fun hc => absurd (hbt _ hc) (by decide)
  have ows_of : ∀ c, isTokenBoundary c = true → c ≠ ',' → isOws c = true := by
    intro c h1 h2
    unfold isTokenBoundary at h1
    unfold isOws
    simp only [Bool.or_eq_true, decide_eq_true_eq] at h1 ⊢
    rcases h1 with (h | h) | h
    · exact Or.inl h
    · exact absurd h h2
    · exact Or.inr h
  obtain ⟨i, l, g1, g2, g3⟩ := split_last ',' p
  obtain ⟨i', t', k1, -, k3⟩ := split_last ',' t
  rw [split_no_occ _ _ hct] at k1
  obtain ⟨rfl, rfl⟩ : i' = [] ∧ t' = t := by
    cases i' with
    | nil => simpa using k1.symm
    | cons a i' => simp at k1
  cases hq : split ',' q with
  | nil => exact absurd hq (split_ne_nil _ _)
  | cons w ws =>
    have k4 := k3 q w ws hq
    have g4 := g3 (t' ++ q) (t' ++ w) ws (by rw [k4]; rfl)
    have hmem : l ++ (t' ++ w) ∈ split ',' (p ++ (t' ++ q)) := by rw [g4]; simp
    have hw := hv _ hmem
    rw [trimOws_around htn hnt] at hw
    have hl0 : l.dropWhile isOws = [] := by
      cases hd : l.dropWhile isOws with
      | nil => rfl
      | cons a b =>
        exfalso
        have hdl : (l.dropWhile isOws) <:+ l := List.dropWhile_suffix _
        obtain ⟨x, hx⟩ : ∃ x, (a :: b).getLast? = some x := by
          cases hg : (a :: b).getLast? with
          | none => simp at hg
          | some x => exact ⟨x, rfl⟩
        have hxm : x ∈ a :: b := List.mem_of_getLast? hx
        have suf_last : ∀ {r s : Str}, r <:+ s → r.getLast? = some x → s.getLast? = some x := by
          rintro r s ⟨u, rfl⟩ hr
          rw [List.getLast?_append, hr]; rfl
        have hpl : p.getLast? = some x := suf_last (hd ▸ hdl.trans g2) hx
        rw [hpl] at h2
        have hxb : isTokenBoundary x = true := by simpa using h2
        have hxl : x ∈ l := (hdl.subset) (by rw [hd]; exact hxm)
        have hxc : x ≠ ',' := by
          intro e
          subst e
          exact split_no_sep ',' p l (by rw [g1]; simp) hxl
        have := hw x (by rw [hd]; exact List.mem_append_left _ hxm)
        rw [ows_of x hxb hxc] at this
        cases this
    have hw0 : (w.reverse.dropWhile isOws).reverse = [] := by
      cases hd : w with
      | nil => rfl
      | cons a b =>
        have hpre : w <+: q := by
          have := join_split ',' q
          rw [hq] at this
          cases ws with
          | nil => simp only [join] at this; rw [← this]; exact List.prefix_refl _
          | cons w2 ws => simp only [join] at this; rw [← this, List.append_assoc]; exact List.prefix_append _ _
        have hqa : q.head? = some a := by
          obtain ⟨u, hu⟩ := hpre
          rw [← hu, hd]; rfl
        rw [hqa] at h3
        have hab : isTokenBoundary a = true := by simpa using h3
        have hac : a ≠ ',' := by
          intro e
          subst e
          exact split_no_sep ',' q w (by rw [hq]; simp) (by rw [hd]; simp)
        have hows := ows_of a hab hac
        rw [← hd]
        cases hr : w.reverse.dropWhile isOws with
        | nil => rfl
        | cons x r =>
          exfalso
          have hsuf : w.reverse.dropWhile isOws <:+ w.reverse := List.dropWhile_suffix _
          have hlast : (x :: r).getLast? = some a := by
            rw [hr] at hsuf
            obtain ⟨u, hu⟩ := hsuf
            have h1 : w.reverse.getLast? = some a := by rw [hd]; simp
            rw [← hu, List.getLast?_append] at h1
            cases hg : (x :: r).getLast? with
            | none => simp at hg
            | some z => rw [hg] at h1; exact h1
          have := hw a (by
            rw [hr]
            apply List.mem_append_right
            apply List.mem_append_right
            rw [List.mem_reverse]
            exact List.mem_of_getLast? hlast)
          rw [hows] at this
          cases this
    refine ⟨_, hmem, ?_⟩
    rw [trimOws_around htn hnt, hl0, hw0]
    simpa using h1

theorem hasTokenAfter_of {token : Str} (ht : token ≠ []) : ∀ {p : Str} {prev : Option Char} {t q : Str},
    equalFold t token = true → (p.getLast?.or prev).all isTokenBoundary = true →
    q.head?.all isTokenBoundary = true → hasTokenAfter token prev (p ++ (t ++ q)) = true
  | [], prev, t, q, h1, h2, h3 => by
    have hlen : t.length = token.length := by
      have : toLower t = toLower token := by simpa [equalFold] using h1
      have := congrArg List.length this
      simpa [toLower] using this
    cases t with
    | nil => exact absurd (List.eq_nil_of_length_eq_zero hlen.symm) ht
    | cons c t =>
      have e : (c :: (t ++ q)).take token.length = c :: t := by
        rw [← hlen, ← List.cons_append, List.take_left]
      have e' : (c :: (t ++ q)).drop token.length = q := by
        rw [← hlen, ← List.cons_append, List.drop_left]
      simp only [List.nil_append, List.cons_append, hasTokenAfter, e, e']
      rw [h1, h3]
      have h2 : prev.all isTokenBoundary = true := by simpa using h2
      rw [h2]
      rfl
  | c :: p, prev, t, q, h1, h2, h3 => by
    simp only [List.cons_append, hasTokenAfter]
    rw [hasTokenAfter_of ht (p := p) (prev := some c) h1 ?_ h3, Bool.or_true]
    cases p with
    | nil => simpa using h2
    | cons d p =>
      rw [List.getLast?_cons_cons] at h2
      cases hl : (d :: p).getLast? with
      | none => simp at hl
      | some x => rw [hl] at h2; exact h2

theorem join_place (o : Str) (j : List Str) : ∀ i : List Str, ∃ p q, join [','] (i ++ o :: j) = p ++ (o ++ q) ∧
    p.getLast?.all (· = ',') = true ∧ q.head?.all (· = ',') = true
  | [] => by
    cases j with
    | nil => exact ⟨[], [], by simp [join], rfl, rfl⟩
    | cons a j => exact ⟨[], ',' :: join [','] (a :: j), by simp [join], rfl, rfl⟩
  | w :: i => by
    obtain ⟨p, q, e, h1, h2⟩ := join_place o j i
    refine ⟨w ++ ',' :: p, q, ?_, ?_, h2⟩
    · cases i with
      | nil =>
        simp only [List.nil_append] at e
        simp only [List.cons_append, List.nil_append, join, e]
        simp
      | cons a i =>
        simp only [List.cons_append] at e
        simp only [List.cons_append, join, e]
        simp
    · rw [List.getLast?_append]
      cases p with
      | nil => simp
      | cons d p =>
        rw [List.getLast?_cons_cons]
        cases hl : (d :: p).getLast? with
        | none => simp at hl
        | some x => rw [hl] at h1; exact h1

/-- Where the white space around a part is. -/
theorem trimOws_place (o : Str) : ∃ a b, o = a ++ (trimOws o ++ b) ∧ (∀ c ∈ a, isOws c = true) ∧ ∀ c ∈ b, isOws c = true := by
  refine ⟨o.takeWhile isOws, ((o.dropWhile isOws).reverse.takeWhile isOws).reverse, ?_, fun c hc => ?_, fun c hc => ?_⟩
  · unfold trimOws
    rw [← List.reverse_append, List.takeWhile_append_dropWhile, List.reverse_reverse, List.takeWhile_append_dropWhile]
  · exact List.all_eq_true.1 List.all_takeWhile c hc
  · exact List.all_eq_true.1 List.all_takeWhile c (List.mem_reverse.1 hc)

/-- `hasToken` finds the parts of a list. -/
theorem hasToken_of_listed {v token o : Str} (ht : token ≠ []) (ho : o ∈ split ',' v)
    (he : equalFold (trimOws o) token = true) : hasToken v token = true := by
  obtain ⟨i, j, hij⟩ := List.append_of_mem ho
  obtain ⟨p, q, e, h1, h2⟩ := join_place o j i
  rw [← hij, join_split] at e
  obtain ⟨a, b, e2, h3, h4⟩ := trimOws_place o
  have e3 : v = (p ++ a) ++ (trimOws o ++ (b ++ q)) := by
    rw [e]
    conv => lhs; rw [e2]
    simp
  have comma : ∀ {x : Option Char}, x.all (· = ',') = true → x.all isTokenBoundary = true := by
    intro x hx
    cases x with
    | none => rfl
    | some c =>
      have : c = ',' := by simpa using hx
      subst this
      rfl
  have ows : ∀ c, isOws c = true → isTokenBoundary c = true := by
    intro c hc
    unfold isOws at hc
    simp only [Bool.or_eq_true, decide_eq_true_eq] at hc
    rcases hc with rfl | rfl <;> rfl
  unfold hasToken
  rw [e3]
  apply hasTokenAfter_of ht he
  · rw [List.getLast?_append]
    cases hl : a.getLast? with
    | none => simpa using comma h1
    | some x => simpa using ows x (h3 x (List.mem_of_getLast? hl))
  · rw [List.head?_append]
    cases hl : b.head? with
    | none => simpa using comma h2
    | some x => simpa using ows x (h4 x (List.mem_of_head? hl))

end J8a

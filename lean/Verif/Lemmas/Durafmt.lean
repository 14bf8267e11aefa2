import Verif.Go.Durafmt
import Verif.Lemmas.Num
import Verif.Lemmas.Str
import Verif.Spec.Span
/-!
# The texts of package durafmt tell the lengths they are made from
-/
namespace J8a.Go
open Span

/-! ## Text -/

theorem split_join_blank : ∀ {l : List Str}, l ≠ [] → (∀ w ∈ l, ' ' ∉ w) → split ' ' (join [' '] l) = l := by
  intro l
  induction l with
  | nil => intro h; exact absurd rfl h
  | cons w l ih =>
    intro _ hw
    cases l with
    | nil => exact split_no_occ _ _ (hw w (by simp))
    | cons v l =>
      rw [show join [' '] (w :: v :: l) = w ++ ' ' :: join [' '] (v :: l) by simp [join],
        split_append _ _ _ (hw w (by simp)), ih (by simp) fun x hx => hw x (List.mem_cons_of_mem _ hx)]

theorem words_eq_split : ∀ s : Str, words s = split ' ' s
  | [] => rfl
  | c :: s => by
    unfold words split
    rw [words_eq_split s]
    cases split ' ' s <;> rfl

theorem flatMap_join : ∀ {l : List Str}, l ≠ [] → l.flatMap (· ++ [' ']) = join [' '] l ++ [' ']
  | [], h => absurd rfl h
  | [w], _ => by simp [join]
  | w :: v :: l, _ => by
    rw [List.flatMap_cons, flatMap_join (by simp)]
    simp [join]

theorem join_last : ∀ {l : List Str}, l ≠ [] → (∀ w ∈ l, w ≠ [] ∧ ' ' ∉ w) → ∃ s c, join [' '] l = s ++ [c] ∧ c ≠ ' '
  | [], h, _ => absurd rfl h
  | [w], _, hw => by
    have h := hw w (by simp)
    refine ⟨w.dropLast, w.getLast h.1, (List.dropLast_concat_getLast h.1).symm, fun hc => h.2 ?_⟩
    rw [← hc]
    exact List.getLast_mem h.1
  | w :: v :: l, _, hw => by
    obtain ⟨s, c, h, hc⟩ := join_last (l := v :: l) (by simp) fun x hx => hw x (List.mem_cons_of_mem _ hx)
    exact ⟨w ++ ' ' :: s, c, by rw [show join [' '] (w :: v :: l) = w ++ ' ' :: join [' '] (v :: l) by simp [join], h]; simp, hc⟩

theorem join_first {l : List Str} (hl : l ≠ []) (hw : ∀ w ∈ l, w ≠ [] ∧ ' ' ∉ w) :
    ∃ c s, join [' '] l = c :: s ∧ c ≠ ' ' := by
  cases l with
  | nil => exact absurd rfl hl
  | cons w l =>
    obtain ⟨h1, h2⟩ := hw w (by simp)
    cases w with
    | nil => exact absurd rfl h1
    | cons c w =>
      cases l with
      | nil => exact ⟨c, w, rfl, fun h => h2 (by simp [h])⟩
      | cons v l => exact ⟨c, w ++ ' ' :: join [' '] (v :: l), by simp [join], fun h => h2 (by simp [h])⟩

theorem trim_join {l : List Str} (hl : l ≠ []) (hw : ∀ w ∈ l, w ≠ [] ∧ ' ' ∉ w) :
    trimBlanks (l.flatMap (· ++ [' '])) = join [' '] l := by
  rw [flatMap_join hl]
  obtain ⟨c, s, h1, hc⟩ := join_first hl hw
  obtain ⟨t, e, h2, he⟩ := join_last hl hw
  unfold trimBlanks
  have e1 : (join [' '] l ++ [' ']).dropWhile (· = ' ') = join [' '] l ++ [' '] := by
    rw [h1, List.cons_append, List.dropWhile_cons_of_neg (by simpa using hc)]
  rw [e1, h2, List.reverse_append, List.reverse_append]
  simp only [List.reverse_cons, List.reverse_nil, List.nil_append, List.singleton_append]
  rw [List.dropWhile_cons_of_pos (by simp), List.dropWhile_cons_of_neg (by simpa using he)]
  simp

theorem join_prefix (p w : Str) : ∀ l : List Str, join [' '] ((p ++ w) :: l) = p ++ join [' '] (w :: l)
  | [] => rfl
  | v :: l => by simp [join]

/-! ## Counting -/

/-- The units that occur, with their lengths and their numbers. -/
def occurring : List (Str × Nat) → Nat → List (Str × Nat × Nat)
  | [], _ => []
  | (u, size) :: us, x =>
    if x / size = 0 then occurring us (x % size) else (u, size, x / size) :: occurring us (x % size)

theorem occurring_cons (u : Str) (size : Nat) (us : List (Str × Nat)) (x : Nat) : occurring ((u, size) :: us) x =
    if x / size = 0 then occurring us (x % size) else (u, size, x / size) :: occurring us (x % size) := rfl

/-- What all units leave. -/
def leftOver : List (Str × Nat) → Nat → Nat
  | [], x => x
  | (_, size) :: us, x => leftOver us (x % size)

def sumOf (l : List (Str × Nat × Nat)) : Nat := (l.map fun t => t.2.2 * t.2.1).sum

theorem sum_take (us : List (Str × Nat)) (hpos : ∀ p ∈ us, 0 < p.2) : ∀ (x k : Nat), leftOver us x = 0 →
    sumOf ((occurring us x).take k) ≤ x ∧
    ((occurring us x).length ≤ k → sumOf ((occurring us x).take k) = x) ∧
    (∀ t, ((occurring us x).take k).getLast? = some t → k ≤ (occurring us x).length →
      x < sumOf ((occurring us x).take k) + t.2.1) := by
  induction us with
  | nil =>
    intro x k h
    have h : x = 0 := h
    subst h
    simp [occurring, sumOf]
  | cons p us ih =>
    obtain ⟨u, size⟩ := p
    intro x k h
    have hs : 0 < size := hpos _ List.mem_cons_self
    have hd := Nat.div_add_mod x size
    have hlt := Nat.mod_lt x hs
    rw [leftOver] at h
    obtain ⟨i1, i2, i3⟩ := ih (fun p hp => hpos p (List.mem_cons_of_mem _ hp)) (x % size) k h
    unfold occurring
    split
    · rename_i h0
      have hx : x % size = x := by
        rw [h0] at hd
        omega
      rw [hx] at i1 i2 i3 ⊢
      exact ⟨i1, i2, i3⟩
    · cases k with
      | zero =>
        refine ⟨by simp [sumOf], fun h => absurd h (by simp), fun t h => by simp at h⟩
      | succ k =>
        obtain ⟨j1, j2, j3⟩ := ih (fun p hp => hpos p (List.mem_cons_of_mem _ hp)) (x % size) k h
        have hsum : sumOf (((u, size, x / size) :: occurring us (x % size)).take (k + 1)) =
            x / size * size + sumOf ((occurring us (x % size)).take k) := by
          simp [sumOf]
        rw [hsum, Nat.mul_comm (x / size)]
        refine ⟨by omega, fun hl => ?_, fun t ht hl => ?_⟩
        · have := j2 (by simpa using hl)
          omega
        · have hl : k ≤ (occurring us (x % size)).length := by simpa using hl
          rw [List.take_succ_cons] at ht
          cases hk : (occurring us (x % size)).take k with
          | nil =>
            rw [hk] at ht
            cases ht
            rw [hk] at j1
            show x < size * (x / size) + 0 + size
            omega
          | cons a l =>
            rw [hk, List.getLast?_cons_cons] at ht
            rw [hk] at j3 j1
            have := j3 t ht hl
            omega

theorem occurring_mem {us : List (Str × Nat)} : ∀ {x : Nat} {t}, t ∈ occurring us x → (t.1, t.2.1) ∈ us ∧ t.2.2 ≠ 0 := by
  induction us with
  | nil => intro x t h; cases h
  | cons p us ih =>
    obtain ⟨u, size⟩ := p
    intro x t h
    unfold occurring at h
    split at h
    · exact ⟨List.mem_cons_of_mem _ (ih h).1, (ih h).2⟩
    · rename_i h0
      rcases List.mem_cons.1 h with rfl | h
      · exact ⟨List.mem_cons_self, h0⟩
      · exact ⟨List.mem_cons_of_mem _ (ih h).1, (ih h).2⟩

theorem occurring_sorted {us : List (Str × Nat)} (hs : us.Pairwise fun p q => q.2 < p.2) : ∀ x : Nat,
    (occurring us x).Pairwise fun p q => q.2.1 < p.2.1 := by
  induction us with
  | nil => intro x; exact .nil
  | cons p us ih =>
    obtain ⟨u, size⟩ := p
    intro x
    obtain ⟨h1, h2⟩ := List.pairwise_cons.1 hs
    unfold occurring
    split
    · exact ih h2 _
    · refine List.pairwise_cons.2 ⟨fun t ht => ?_, ih h2 _⟩
      exact h1 _ (occurring_mem ht).1

/-! ## Both -/

def natUnits : List (Str × Nat) :=
  [("years".toList, 365 * 24 * 3600 * 1000000), ("weeks".toList, 7 * 24 * 3600 * 1000000),
   ("days".toList, 24 * 3600 * 1000000), ("hours".toList, 3600 * 1000000), ("minutes".toList, 60 * 1000000),
   ("seconds".toList, 1000000), ("milliseconds".toList, 1000), ("microseconds".toList, 1)]

theorem durafmtUnits_eq : durafmtUnits = natUnits.map fun p => (p.1, (p.2 : Int)) := rfl

def unitWord (n : Nat) (u : Str) : Str := if n = 1 then trimPlural u else u

/-- The words for the units that occur. -/
def termWords (t : Str × Nat × Nat) : List Str := [natToDec t.2.2, unitWord t.2.2 t.1]

theorem pieces_eq {d : Int} (hd : d ≠ 0) : ∀ (us : List (Str × Nat)) (x : Nat),
    ((durafmtCounts (us.map fun p => (p.1, (p.2 : Int))) x).flatMap fun p => durafmtPiece d p.1 p.2) =
      ((occurring us x).flatMap termWords).flatMap (· ++ [' '])
  | [], _ => rfl
  | (u, size) :: us, x => by
    have hx : (x : Int) - (x : Int).tdiv size * size = ((x % size : Nat) : Int) := by
      have h1 : (x : Int).tdiv size = ((x / size : Nat) : Int) := rfl
      have h2 := Nat.div_add_mod x size
      rw [h1]
      have h3 : ((size * (x / size) + x % size : Nat) : Int) = (x : Int) := by rw [h2]
      rw [Int.natCast_add, Int.natCast_mul, Int.mul_comm] at h3
      omega
    have ih := pieces_eq hd us (x % size)
    rw [List.map_cons, durafmtCounts, List.flatMap_cons, hx, ih]
    show durafmtPiece d u ((x / size : Nat) : Int) ++ _ = _
    rw [occurring_cons]
    generalize x / size = v
    unfold durafmtPiece
    by_cases h1 : 1 < v
    · rw [if_pos (by omega), if_neg (by omega), List.flatMap_cons, List.flatMap_append]
      congr 1
      simp only [termWords, unitWord]
      rw [if_neg (by omega)]
      show natToDec v ++ ' ' :: u ++ [' '] = _
      simp
    · rw [if_neg (by omega)]
      by_cases h2 : v = 1
      · subst h2
        rw [if_pos (by rfl), if_neg (by decide), List.flatMap_cons, List.flatMap_append]
        congr 1
        simp only [termWords, unitWord, if_pos]
        show natToDec 1 ++ ' ' :: trimPlural u ++ [' '] = _
        simp
      · rw [if_neg (by omega), if_neg hd, if_pos (by omega)]
        rfl

theorem take_words : ∀ (k : Nat) (l : List (Str × Nat × Nat)),
    (l.flatMap termWords).take (k * 2) = (l.take k).flatMap termWords
  | 0, _ => by simp
  | k + 1, [] => by simp
  | k + 1, a :: l => by
    rw [List.flatMap_cons, List.take_succ_cons, List.flatMap_cons, ← take_words k l, Nat.succ_mul]
    rfl

theorem unit_words : ∀ p ∈ natUnits, p.1 ≠ [] ∧ ' ' ∉ p.1 ∧ trimPlural p.1 ≠ [] ∧ ' ' ∉ trimPlural p.1 ∧
    units.lookup (trimPlural p.1) = some (p.2 * 1000) ∧ p.1.getLast? = some 's' ∧ p.1.dropLast = trimPlural p.1 := by
  decide +kernel

theorem term_words {x : Nat} {t : Str × Nat × Nat} (ht : t ∈ occurring natUnits x) :
    ∀ w ∈ termWords t, w ≠ [] ∧ ' ' ∉ w := by
  obtain ⟨h1, h2, h3, h4, -⟩ := unit_words _ (occurring_mem ht).1
  intro w hw
  simp only [termWords, List.mem_cons, List.not_mem_nil, or_false] at hw
  rcases hw with rfl | rfl
  · refine ⟨natToDec_ne_nil _, fun h => ?_⟩
    have := natToDec_isDigit h
    exact absurd this (by decide)
  · unfold unitWord
    split
    · exact ⟨h3, h4⟩
    · exact ⟨h1, h2⟩

theorem readTerms_words (x : Nat) : ∀ l : List (Str × Nat × Nat), (∀ t ∈ l, t ∈ occurring natUnits x) →
    readTerms (l.flatMap termWords) = some (l.map fun t => (t.2.2, t.2.1 * 1000))
  | [], _ => rfl
  | t :: l, h => by
    obtain ⟨-, -, -, -, h5, h6, h7⟩ := unit_words _ (occurring_mem (h t List.mem_cons_self)).1
    have ih := readTerms_words x l fun t ht => h t (List.mem_cons_of_mem _ ht)
    have hu : readUnit t.2.2 (unitWord t.2.2 t.1) = some (t.2.1 * 1000) := by
      dsimp only at h5 h6 h7
      unfold readUnit unitWord
      by_cases hn : t.2.2 = 1
      · rw [if_pos hn, if_pos hn]
        exact h5
      · rw [if_neg hn, if_neg hn, if_pos h6, h7, h5]
    rw [List.flatMap_cons]
    show readTerms (natToDec t.2.2 :: unitWord t.2.2 t.1 :: l.flatMap termWords) = _
    unfold readTerms
    rw [ih]
    simp only [Option.bind_eq_bind, Option.bind_some, digitsVal_natToDec, hu]
    rw [if_pos ⟨natToDec_ne_nil _, by
      rw [List.all_eq_true]
      exact fun c hc => natToDec_isDigit hc⟩]
    rfl

theorem leftOver_units (x : Nat) : leftOver natUnits x = 0 := by
  unfold natUnits
  simp only [leftOver]
  omega

theorem value_terms (l : List (Str × Nat × Nat)) : value (l.map fun t => (t.2.2, t.2.1 * 1000)) = sumOf l * 1000 := by
  induction l with
  | nil => rfl
  | cons t l ih =>
    simp only [value, sumOf, List.map_cons, List.sum_cons, List.map_map] at ih ⊢
    rw [ih, Nat.add_mul, Nat.mul_assoc]

/-- What the two first units that occur tell. -/
theorem tells_take {d : Nat} (hd : 1000 ≤ d) :
    Tells (((occurring natUnits (d / 1000)).take 2).map fun t => (t.2.2, t.2.1 * 1000)) d := by
  generalize hx : d / 1000 = x
  have hpos : 0 < x := by omega
  obtain ⟨s1, s2, s3⟩ := sum_take natUnits (by decide) x 2 (leftOver_units x)
  have hsort := occurring_sorted (us := natUnits) (by decide) x
  have hone := sum_take natUnits (by decide) x 0 (leftOver_units x)
  generalize hl : occurring natUnits x = l at *
  match l with
  | [] =>
    have := s2 (by simp)
    simp [sumOf] at this
    omega
  | [a] =>
    have := s2 (by simp)
    refine ⟨.inl rfl, ?_, fun _ => ?_, fun a b h => by simp at h⟩
    · rw [value_terms]; omega
    · rw [value_terms]; omega
  | a :: b :: l =>
    have h3 := s3 b rfl (by simp)
    refine ⟨.inr rfl, ?_, fun h => by simp at h, ?_⟩
    · rw [value_terms]; omega
    · intro p q hpq
      have hb : b.2.1 < a.2.1 := (List.pairwise_cons.1 hsort).1 b (by simp)
      have hp : p = (a.2.2, a.2.1 * 1000) := (List.cons.inj hpq).1.symm
      have hq : q = (b.2.2, b.2.1 * 1000) := (List.cons.inj (List.cons.inj hpq).2).1.symm
      rw [value_terms, hp, hq]
      dsimp only
      omega

theorem occurring_ne {x : Nat} (h : 0 < x) : occurring natUnits x ≠ [] := by
  intro h0
  obtain ⟨-, s2, -⟩ := sum_take natUnits (by decide) x 2 (leftOver_units x)
  rw [h0] at s2
  have := s2 (by simp)
  simp [sumOf] at this
  omega

/-- The text, with the sign in front of the first number. -/
theorem durafmt_text {d : Int} {n k : Nat} {sign : Str} (hk : 0 < k) (hs : sign = if d < 0 then ['-'] else []) (hn : 1000 ≤ n)
    (hd : (if d < 0 then wrap64 (-d) else d) = n) :
    durafmt d k = sign ++ join [' '] (((occurring natUnits (n / 1000)).take k).flatMap termWords) := by
  have hb : ' ' ∉ sign := by
    rw [hs]
    split <;> decide
  unfold durafmt
  rw [hd, ← hs]
  have hdiv : (n : Int).tdiv 1000 = ((n / 1000 : Nat) : Int) := rfl
  dsimp only
  rw [hdiv, durafmtUnits_eq, pieces_eq (by omega), if_pos hk, ← take_words]
  have hne := occurring_ne (x := n / 1000) (by omega)
  have hall : ∀ w ∈ (occurring natUnits (n / 1000)).flatMap termWords, w ≠ [] ∧ ' ' ∉ w := by
    intro w hw
    obtain ⟨t, ht, hw⟩ := List.mem_flatMap.1 hw
    exact term_words ht w hw
  have hws : (occurring natUnits (n / 1000)).flatMap termWords ≠ [] := by
    cases h : occurring natUnits (n / 1000) with
    | nil => exact absurd h hne
    | cons t l => simp [termWords]
  generalize (occurring natUnits (n / 1000)).flatMap termWords = ws at *
  cases ws with
  | nil => exact absurd rfl hws
  | cons w ws =>
    have hall' : ∀ v ∈ (sign ++ w) :: ws, v ≠ [] ∧ ' ' ∉ v := by
      intro v hv
      rcases List.mem_cons.1 hv with rfl | hv
      · refine ⟨by simp [(hall w (by simp)).1], fun h => ?_⟩
        rcases List.mem_append.1 h with h | h
        · exact hb h
        · exact (hall w (by simp)).2 h
      · exact hall v (List.mem_cons_of_mem _ hv)
    have e : sign ++ (w :: ws).flatMap (· ++ [' ']) = ((sign ++ w) :: ws).flatMap (· ++ [' ']) := by simp
    rw [e, trim_join (by simp) hall', split_join_blank (by simp) fun v hv => (hall' v hv).2]
    obtain ⟨m, hm⟩ : ∃ m, k * 2 = m + 1 := ⟨k * 2 - 1, by omega⟩
    rw [hm]
    have ht : ((sign ++ w) :: ws).take (m + 1) = (sign ++ w) :: ws.take m := rfl
    split
    · rw [ht, join_prefix]
      rfl
    · rename_i hlen
      have : (w :: ws).take (m + 1) = w :: ws := List.take_of_length_le (by simp at hlen ⊢; omega)
      rw [this, join_prefix]

theorem read_text {sign : Bool} {ws : List Str} {terms : List (Nat × Nat)} (h : readTerms ws = some terms)
    (hne : ws ≠ []) (hb : ∀ w ∈ ws, ' ' ∉ w) (hm : (join [' '] ws).head? ≠ some '-') :
    read ((if sign then ['-'] else []) ++ join [' '] ws) = some (sign, terms) := by
  have hw : words (join [' '] ws) = ws := by rw [words_eq_split, split_join_blank hne hb]
  cases sign with
  | true =>
    show read ('-' :: join [' '] ws) = _
    rw [Span.read, hw, h]
    rfl
  | false =>
    show read (join [' '] ws) = _
    unfold Span.read
    split
    · rename_i hs
      rw [hs] at hm
      exact absurd rfl hm
    · rw [hw, h]
      rfl

/-- The first units of the text of a length of time read as what occurs in it. -/
theorem durafmt_read {d : Int} {k : Nat} (hk : 0 < k) (h : 1000 ≤ d.natAbs) (h1 : minInt64 < d) :
    read (durafmt d k) = some (decide (d < 0),
      ((occurring natUnits (d.natAbs / 1000)).take k).map fun t => (t.2.2, t.2.1 * 1000)) := by
  have hd : (if d < 0 then wrap64 (-d) else d) = (d.natAbs : Int) := by
    unfold minInt64 at h1
    split
    · unfold wrap64
      omega
    · omega
  rw [durafmt_text hk rfl h hd]
  have hsub : ∀ t ∈ (occurring natUnits (d.natAbs / 1000)).take k, t ∈ occurring natUnits (d.natAbs / 1000) :=
    fun t ht => List.mem_of_mem_take ht
  have hne : (occurring natUnits (d.natAbs / 1000)).take k ≠ [] := by
    have := occurring_ne (x := d.natAbs / 1000) (by omega)
    cases h : occurring natUnits (d.natAbs / 1000) with
    | nil => exact absurd h this
    | cons t l => cases k with
      | zero => cases hk
      | succ k => simp
  have := read_text (sign := decide (d < 0)) (readTerms_words _ _ hsub) (by
      cases h : (occurring natUnits (d.natAbs / 1000)).take k with
      | nil => exact absurd h hne
      | cons t l => simp [termWords]) (by
      intro w hw
      obtain ⟨t, ht, hw⟩ := List.mem_flatMap.1 hw
      exact (term_words (hsub t ht) w hw).2) (by
      cases h : (occurring natUnits (d.natAbs / 1000)).take k with
      | nil => exact absurd h hne
      | cons t l =>
        have hh : (join [' '] ((t :: l).flatMap termWords)).head? = (natToDec t.2.2).head? := by
          rw [List.flatMap_cons]
          show (natToDec t.2.2 ++ [' '] ++ _).head? = _
          rw [List.append_assoc, List.head?_append]
          cases hn : natToDec t.2.2 with
          | nil => exact absurd hn (natToDec_ne_nil _)
          | cons c s => rfl
        rw [hh]
        intro hc
        exact absurd (natToDec_isDigit (List.mem_of_mem_head? hc)) (by decide))
  rw [← this]
  by_cases hneg : d < 0 <;> simp [hneg]

/-- The text of a length of time tells it; a minus sign is in front of it if it lies in the past. -/
theorem durafmt_tells {d : Int} (h : 1000 ≤ d.natAbs) (h1 : minInt64 < d) :
    ∃ terms, read (durafmt d 2) = some (decide (d < 0), terms) ∧ Tells terms d.natAbs :=
  ⟨_, durafmt_read (by decide) h h1, tells_take h⟩

theorem units_nat : units.map (·.2) = natUnits.map (·.2 * 1000) := by decide

/-- The first unit that occurs is the largest that fits. -/
theorem occurring_head {us : List (Str × Nat)} (hs : us.Pairwise fun p q => q.2 < p.2) {x : Nat} {t : Str × Nat × Nat}
    {l : List (Str × Nat × Nat)} (h : occurring us x = t :: l) (hp : ∀ p ∈ us, 0 < p.2) :
    t.2.1 ≤ x ∧ ∀ p ∈ us, p.2 ≤ x → p.2 ≤ t.2.1 := by
  induction us with
  | nil => cases h
  | cons p us ih =>
    obtain ⟨u, size⟩ := p
    rw [occurring_cons] at h
    have h0 : 0 < size := hp _ List.mem_cons_self
    obtain ⟨h1, h2⟩ := List.pairwise_cons.1 hs
    by_cases hx : x / size = 0
    · have hlt : x < size := by
        rcases Nat.lt_or_ge x size with h | h
        · exact h
        · exact absurd (Nat.div_pos h h0) (by omega)
      rw [if_pos hx, Nat.mod_eq_of_lt hlt] at h
      obtain ⟨a, b⟩ := ih h2 h fun p hp' => hp p (List.mem_cons_of_mem _ hp')
      refine ⟨a, fun p hp' hle => ?_⟩
      rcases List.mem_cons.1 hp' with rfl | hp'
      · exact absurd hle (by dsimp only; omega)
      · exact b p hp' hle
    · rw [if_neg hx] at h
      have ht := (List.cons.inj h).1
      subst ht
      refine ⟨?_, fun p hp' _ => ?_⟩
      · dsimp only
        rcases Nat.lt_or_ge x size with h | h
        · exact absurd (Nat.div_eq_of_lt h) hx
        · exact h
      · rcases List.mem_cons.1 hp' with rfl | hp'
        · exact Nat.le_refl _
        · exact Nat.le_of_lt (h1 p hp')

/-- Cut off to its largest unit, a length of time is told by one number of it. -/
theorem durafmt_one {d : Int} (h : 1000 ≤ d) :
    ∃ n size, read (durafmt d 1) = some (false, [(n, size)]) ∧ n ≠ 0 ∧ n * size ≤ d.toNat ∧ d.toNat < n * size + size ∧
      (∃ u, (u, size) ∈ units) ∧ ∀ u ∈ units, u.2 ≤ d.toNat → u.2 ≤ size := by
  have hr := durafmt_read (d := d) (k := 1) (by decide) (by omega) (by unfold minInt64; omega)
  have hnat : d.natAbs = d.toNat := by omega
  rw [hnat] at hr
  generalize d.toNat = m at *
  have hm : 1000 ≤ m := by omega
  obtain ⟨s1, -, s3⟩ := sum_take natUnits (by decide) (m / 1000) 1 (leftOver_units _)
  cases ho : occurring natUnits (m / 1000) with
  | nil => exact absurd ho (occurring_ne (by omega))
  | cons t l =>
    obtain ⟨hh1, hh2⟩ := occurring_head (us := natUnits) (by decide) ho (by decide)
    have hmem := occurring_mem (us := natUnits) (x := m / 1000) (t := t) (by rw [ho]; exact List.mem_cons_self)
    rw [ho] at s1 s3 hr
    have hs3 := s3 t rfl (by simp)
    have hsum : sumOf ((t :: l).take 1) = t.2.2 * t.2.1 := by simp [sumOf]
    rw [hsum] at s1 hs3
    have hassoc : t.2.2 * (t.2.1 * 1000) = t.2.2 * t.2.1 * 1000 := (Nat.mul_assoc _ _ _).symm
    refine ⟨t.2.2, t.2.1 * 1000, ?_, hmem.2, ?_, ?_, ?_, ?_⟩
    · rw [hr]
      have : ¬ d < 0 := by omega
      simp [this]
    · omega
    · omega
    · have : t.2.1 * 1000 ∈ units.map (·.2) := by
        rw [units_nat]
        exact List.mem_map.2 ⟨_, hmem.1, rfl⟩
      obtain ⟨u, hu, he⟩ := List.mem_map.1 this
      exact ⟨u.1, by rw [← he]; exact hu⟩
    · intro u hu hle
      have : u.2 ∈ natUnits.map (·.2 * 1000) := by
        rw [← units_nat]
        exact List.mem_map.2 ⟨_, hu, rfl⟩
      obtain ⟨p, hp, he⟩ := List.mem_map.1 this
      have := hh2 p hp (by omega)
      omega

end J8a.Go

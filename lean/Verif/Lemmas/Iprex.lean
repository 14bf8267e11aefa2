import Verif.Lemmas.Rex
import Verif.Lemmas.Num
import Verif.Lemmas.Str
import Verif.Spec.Ip
import Verif.Model.Iprex
/-! # Facts about the four address expressions -/
namespace J8a.Iprex
open Go Rex

/-! ## IPv4 -/

/-- An octet is matched in full by the first attempt, and every other attempt leaves a digit. -/
theorem octet_spec (n : Nat) (h : n < 256) :
    (octet.ends (natToDec n)).head? = some [] ∧
    ∀ v ∈ octet.ends (natToDec n), v = [] ∨ ∃ c v', v = c :: v' ∧ c ≠ '.' := by
  have : ∀ n : Fin 256, (octet.ends (natToDec n)).head? = some [] ∧
      (octet.ends (natToDec n)).all (fun v => v.head? != some '.') = true := by decide +kernel
  obtain ⟨h1, h2⟩ := this ⟨n, h⟩
  refine ⟨h1, ?_⟩
  intro v hv
  rw [List.all_eq_true] at h2
  have := h2 v hv
  cases v with
  | nil => exact .inl rfl
  | cons c v' => exact .inr ⟨c, v', rfl, by simpa using this⟩

/-- `octet\.`: all attempts that succeed end behind the dot, and there is one. -/
theorem octetDot_spec (n : Nat) (h : n < 256) (t : Str) :
    ∃ k, (seq octet (ch '.')).ends (natToDec n ++ '.' :: t) = List.replicate (k + 1) t := by
  obtain ⟨h1, h2⟩ := octet_spec n h
  simp only [ends]
  rw [ends_stop '.' t octet (by decide) (natToDec n), List.flatMap_map]
  generalize octet.ends (natToDec n) = l at *
  have key : ∀ l : List Str, (∀ v ∈ l, v = [] ∨ ∃ c v', v = c :: v' ∧ c ≠ '.') →
      ∃ k, l.flatMap (fun v => (ch '.').ends (v ++ '.' :: t)) = List.replicate k t := by
    intro l
    induction l with
    | nil => intro _; exact ⟨0, rfl⟩
    | cons v l ih =>
      intro hl
      obtain ⟨k, hk⟩ := ih fun w hw => hl w (by simp [hw])
      rw [List.flatMap_cons, hk]
      rcases hl v (by simp) with rfl | ⟨c, v', rfl, hc⟩
      · exact ⟨k + 1, by simp [ch, ends, List.replicate_succ]⟩
      · exact ⟨k, by simp [ch, ends, hc]⟩
  cases l with
  | nil => cases h1
  | cons v l =>
    simp only [List.head?_cons, Option.some.injEq] at h1
    subst h1
    obtain ⟨k, hk⟩ := key l fun w hw => h2 w (by simp [hw])
    exact ⟨k, by rw [List.flatMap_cons, hk]; simp [ch, ends, List.replicate_succ]⟩

/-- The quad is matched in full by the first attempt. -/
theorem quad_spec (a b c d : Nat) (ha : a < 256) (hb : b < 256) (hc : c < 256) (hd : d < 256)
    (x : Char) (t : Str) (hx : x = ':' ∨ x = ']') :
    (quad.ends (v4Text a b c d ++ x :: t)).head? = some (x :: t) := by
  have hrej : rejects x octet = true := by rcases hx with rfl | rfl <;> decide
  have hlast : (octet.ends (natToDec d ++ x :: t)).head? = some (x :: t) := by
    rw [ends_stop x t octet hrej, List.head?_map, (octet_spec d hd).1]; rfl
  have e : v4Text a b c d ++ x :: t =
      natToDec a ++ '.' :: (natToDec b ++ '.' :: (natToDec c ++ '.' :: (natToDec d ++ x :: t))) := by
    simp [v4Text]
  rw [e]
  obtain ⟨k1, h1⟩ := octetDot_spec a ha (natToDec b ++ '.' :: (natToDec c ++ '.' :: (natToDec d ++ x :: t)))
  obtain ⟨k2, h2⟩ := octetDot_spec b hb (natToDec c ++ '.' :: (natToDec d ++ x :: t))
  obtain ⟨k3, h3⟩ := octetDot_spec c hc (natToDec d ++ x :: t)
  have hr1 : (repEnds (seq octet (ch '.')).ends 1 1 (natToDec c ++ '.' :: (natToDec d ++ x :: t))).head? =
      some (natToDec d ++ x :: t) := by
    rw [repEnds_succ, h3]; simp [repEnds, List.replicate_succ]
  have hr2 : (repEnds (seq octet (ch '.')).ends 2 2
      (natToDec b ++ '.' :: (natToDec c ++ '.' :: (natToDec d ++ x :: t)))).head? =
      some (natToDec d ++ x :: t) := by
    rw [repEnds_succ, h2, List.head?_append, head?_flatMap (by rw [List.head?_replicate]; rfl) hr1]; rfl
  have hr3 : ((rep (seq octet (ch '.')) 3 3).ends (natToDec a ++ '.' :: (natToDec b ++ '.' ::
      (natToDec c ++ '.' :: (natToDec d ++ x :: t))))).head? = some (natToDec d ++ x :: t) := by
    show (repEnds _ 3 3 _).head? = _
    rw [repEnds_succ, h1, List.head?_append, head?_flatMap (by rw [List.head?_replicate]; rfl) hr2]; rfl
  exact head?_flatMap hr3 hlast

def isColon (c : Char) : Bool := c == ':'
def isDot (c : Char) : Bool := c == '.'

theorem digits_no (s : Str) (p : Char → Bool) (hs : ∀ c ∈ s, c.isDigit = true)
    (hp : ∀ c, c.isDigit = true → p c = false) : cnt p s = 0 :=
  cnt_zero fun c hc => hp c (hs c hc)

theorem digit_not_colon {c : Char} (h : c.isDigit = true) : c ≠ ':' ∧ c ≠ '.' ∧ c ≠ '%' := by
  refine ⟨?_, ?_, ?_⟩ <;> rintro rfl <;> simp at h

/-- No expression for embedded addresses matches when nothing after the only colon has a dot. -/
theorem ipv64e_none (s B : Str) (A : Str) (hs : s = A ++ ':' :: B) (hA : cnt isColon A = 0)
    (hBc : cnt isColon B = 0) (hBd : cnt isDot B = 0) : ipv64e.find s = none := by
  apply find_none
  intro t ht
  rw [List.eq_nil_iff_forall_not_mem]
  intro u hu
  simp only [ipv64e, ends, List.mem_flatMap] at hu
  obtain ⟨v, hv, w, hw, y, hy, hu⟩ := hu
  have hv' : v <:+ s := (suffix_of_mem_ends (rep (ch ':') 0 2) t v hv).trans ht
  have h1 := need_le_cnt isColon (rep hc 1 6) (by decide) v w hw
  have h2 : need isColon (rep hc 1 6) = 1 := by decide
  have h3 := cnt_suffix (p := isColon) hv'
  have h4 : cnt isColon s = 1 := by
    rw [hs, cnt_append, cnt_cons, hA, hBc]; rfl
  have hw0 : cnt isColon w = 0 := by omega
  have hw' : w <:+ s := (suffix_of_mem_ends (rep hc 1 6) v w hw).trans hv'
  have hwB : w <:+ B := by
    rw [hs] at hw'
    rcases List.suffix_or_suffix_of_suffix hw' (List.suffix_append A (':' :: B)) with h | h
    · rcases List.suffix_cons_iff.mp h with rfl | h
      · rw [cnt_cons] at hw0; simp [isColon] at hw0
      · exact h
    · have := cnt_suffix (p := isColon) h
      rw [cnt_cons, if_pos (show isColon ':' = true from rfl)] at this
      omega
  have hyB : y <:+ B := (suffix_of_mem_ends (rep (ch ':') 0 1) w y hy).trans hwB
  have h5 := need_le_cnt isDot quad (by decide) y u hu
  have h6 : need isDot quad = 3 := by decide
  have h7 := cnt_suffix (p := isDot) hyB
  omega

/-! ## IPv6 groups -/

theorem mem_hexChars {c : Char} (h : IsHex c) : c ∈ hexChars := h

theorem hex_ne {c : Char} (h : IsHex c) : c ≠ ':' ∧ c ≠ ']' ∧ c ≠ '.' ∧ c ≠ '[' ∧ c ≠ '%' := by
  have : ∀ c ∈ "0123456789abcdefABCDEF".toList,
      c ≠ ':' ∧ c ≠ ']' ∧ c ≠ '.' ∧ c ≠ '[' ∧ c ≠ '%' := by decide
  exact this c h

/-- One group: the first attempt takes all of it, the others leave some of it. -/
theorem h14_group {g : Str} (hg : IsGroup g) :
    ∃ L, h14.ends g = [] :: L ∧ ∀ v ∈ L, ∃ c v', v = c :: v' ∧ IsHex c := by
  obtain ⟨h1, h2, h3⟩ := hg
  match g, h1, h2, h3 with
  | [a], _, _, h3 =>
    have ha := mem_hexChars (h3 a (by simp))
    exact ⟨[], by simp [h14, ends, repEnds, ha], by simp⟩
  | [a, b], _, _, h3 =>
    have ha := mem_hexChars (h3 a (by simp))
    have hb := mem_hexChars (h3 b (by simp))
    exact ⟨[[b]], by simp [h14, ends, repEnds, ha, hb], by simpa using h3 b (by simp)⟩
  | [a, b, c], _, _, h3 =>
    have ha := mem_hexChars (h3 a (by simp))
    have hb := mem_hexChars (h3 b (by simp))
    have hc := mem_hexChars (h3 c (by simp))
    refine ⟨[[c], [b, c]], by simp [h14, ends, repEnds, ha, hb, hc], ?_⟩
    intro v hv
    simp only [List.mem_cons, List.not_mem_nil, or_false] at hv
    rcases hv with rfl | rfl
    · exact ⟨_, _, rfl, h3 c (by simp)⟩
    · exact ⟨_, _, rfl, h3 b (by simp)⟩
  | [a, b, c, d], _, _, h3 =>
    have ha := mem_hexChars (h3 a (by simp))
    have hb := mem_hexChars (h3 b (by simp))
    have hc := mem_hexChars (h3 c (by simp))
    have hd := mem_hexChars (h3 d (by simp))
    refine ⟨[[d], [c, d], [b, c, d]], by simp [h14, ends, repEnds, ha, hb, hc, hd], ?_⟩
    intro v hv
    simp only [List.mem_cons, List.not_mem_nil, or_false] at hv
    rcases hv with rfl | rfl | rfl
    · exact ⟨_, _, rfl, h3 d (by simp)⟩
    · exact ⟨_, _, rfl, h3 c (by simp)⟩
    · exact ⟨_, _, rfl, h3 b (by simp)⟩

theorem h14_nil : h14.ends [] = [] := by decide

/-- A string that does not start with a hexadecimal digit. -/
def NotHexFirst (t : Str) : Prop := ∀ c t', t = c :: t' → ¬ IsHex c

theorem h14_fail {t : Str} (h : NotHexFirst t) : h14.ends t = [] := by
  cases t with
  | nil => exact h14_nil
  | cons c t =>
    have hn : c ∉ hexChars := h c t rfl
    simp [h14, ends, repEnds, hn]

/-- A group followed by something that is not a hexadecimal digit. -/
theorem h14_spec {g t : Str} (hg : IsGroup g) (ht : NotHexFirst t) :
    ∃ L, h14.ends (g ++ t) = t :: L ∧ ∀ v ∈ L, ∃ c v', v = c :: v' ∧ IsHex c := by
  obtain ⟨L, h1, h2⟩ := h14_group hg
  cases t with
  | nil => exact ⟨L, by simpa using h1, h2⟩
  | cons x t =>
    have hx := ht x t rfl
    have hrej : rejects x h14 = true := by
      simp only [h14, rejects, Bool.not_eq_true', List.contains_eq_mem, decide_eq_false_iff_not]
      exact hx
    refine ⟨L.map (· ++ x :: t), ?_, ?_⟩
    · rw [ends_stop x t h14 hrej, h1]; rfl
    · intro v hv
      obtain ⟨w, hw, rfl⟩ := List.mem_map.mp hv
      obtain ⟨c, w', rfl, hc⟩ := h2 w hw
      exact ⟨c, w' ++ x :: t, rfl, hc⟩

theorem notHex_colon (t : Str) : NotHexFirst (':' :: t) := by
  intro c t' h; cases h; intro hh; exact (hex_ne hh).1 rfl

theorem notHex_bracket (t : Str) : NotHexFirst (']' :: t) := by
  intro c t' h; cases h; intro hh; exact (hex_ne hh).2.1 rfl

/-- `h:` on a group and a colon has exactly one outcome. -/
theorem hc_group {g : Str} (hg : IsGroup g) (t : Str) : hc.ends (g ++ ':' :: t) = [t] := by
  obtain ⟨L, h1, h2⟩ := h14_spec hg (notHex_colon t)
  simp only [hc, ends]
  rw [h1, List.flatMap_cons]
  have : L.flatMap (ch ':').ends = [] := by
    rw [List.flatMap_eq_nil_iff]
    intro v hv
    obtain ⟨c, v', rfl, hc⟩ := h2 v hv
    simp [ch, ends, (hex_ne hc).1]
  rw [this]
  simp [ch, ends]

theorem hc_fail {t : Str} (h : NotHexFirst t) : hc.ends t = [] := by
  simp only [hc, ends]; rw [h14_fail h]; rfl

/-- `h:` needs its colon right behind the group. -/
theorem hc_fail_group {g t : Str} (hg : IsGroup g) (ht : NotHexFirst t)
    (hc' : ∀ t', t ≠ ':' :: t') : hc.ends (g ++ t) = [] := by
  obtain ⟨L, h1, h2⟩ := h14_spec hg ht
  simp only [hc, ends]
  rw [h1, List.flatMap_cons]
  have : L.flatMap (ch ':').ends = [] := by
    rw [List.flatMap_eq_nil_iff]
    intro v hv
    obtain ⟨c, v', rfl, hc⟩ := h2 v hv
    simp [ch, ends, (hex_ne hc).1]
  rw [this, List.append_nil]
  cases t with
  | nil => rfl
  | cons x t =>
    have : x ≠ ':' := by rintro rfl; exact hc' t rfl
    simp [ch, ends, this]

/-- `g1:…:gm:` -/
def hcs (gs : List Str) : Str := gs.flatMap (· ++ [':'])
/-- `:g1:…:gn` -/
def colhs (gs : List Str) : Str := gs.flatMap (':' :: ·)

theorem hcs_cons (g : Str) (gs : List Str) : hcs (g :: gs) = g ++ ':' :: hcs gs := by simp [hcs]
theorem colhs_cons (g : Str) (gs : List Str) : colhs (g :: gs) = ':' :: (g ++ colhs gs) := by
  simp [colhs]

/-- Starts with a hexadecimal digit. -/
def HexFirst (s : Str) : Prop := ∃ c t, s = c :: t ∧ IsHex c

theorem hexFirst_group {g : Str} (hg : IsGroup g) (t : Str) : HexFirst (g ++ t) := by
  obtain ⟨h1, -, h3⟩ := hg
  cases g with
  | nil => simp at h1
  | cons c g => exact ⟨c, g ++ t, rfl, h3 c (by simp)⟩

/-- `(h:){min,max}` on no more than `max` groups, after which it cannot go on: the first attempt takes
all of them, the others leave groups. -/
theorem rep_hc : ∀ (max min : Nat) (gs : List Str) (t : Str), (∀ g ∈ gs, IsGroup g) →
    hc.ends t = [] → gs.length ≤ max → min ≤ gs.length →
    ∃ L, (rep hc min max).ends (hcs gs ++ t) = t :: L ∧ ∀ v ∈ L, HexFirst v := by
  intro max
  induction max with
  | zero =>
    intro min gs t _ _ hl _
    have : gs = [] := List.length_eq_zero_iff.mp (by omega)
    subst this
    exact ⟨[], rfl, by simp⟩
  | succ max ih =>
    intro min gs t hgs ht hl hmin
    show ∃ L, repEnds hc.ends min (max + 1) _ = _ ∧ _
    rw [repEnds_succ]
    cases gs with
    | nil =>
      have : min = 0 := by simp only [List.length_nil] at hmin; omega
      subst this
      exact ⟨[], by simp [hcs, ht], by simp⟩
    | cons g gs =>
      obtain ⟨L, h1, h2⟩ := ih (min - 1) gs t (fun x hx => hgs x (by simp [hx])) ht
        (by simp only [List.length_cons] at hl; omega)
        (by simp only [List.length_cons] at hmin; omega)
      have hg := hgs g (by simp)
      have e : hcs (g :: gs) ++ t = g ++ ':' :: (hcs gs ++ t) := by rw [hcs_cons]; simp
      have h1' : repEnds hc.ends (min - 1) max (hcs gs ++ t) = t :: L := h1
      rw [e, hc_group hg, List.flatMap_cons, h1', List.flatMap_nil, List.append_nil]
      refine ⟨L ++ (if min = 0 then [g ++ ':' :: (hcs gs ++ t)] else []), rfl, ?_⟩
      intro v hv
      rcases List.mem_append.mp hv with hv | hv
      · exact h2 v hv
      · split at hv
        · simp only [List.mem_singleton] at hv
          rw [hv]; exact hexFirst_group hg _
        · cases hv

/-- On more groups than `max` every attempt leaves a group. -/
theorem rep_hc_many : ∀ (max min : Nat) (gs : List Str) (t : Str), (∀ g ∈ gs, IsGroup g) →
    max < gs.length → ∀ v ∈ (rep hc min max).ends (hcs gs ++ t), HexFirst v := by
  intro max
  induction max with
  | zero =>
    intro min gs t hgs hl v hv
    have hv : v = hcs gs ++ t := by
      have : v ∈ [hcs gs ++ t] := hv
      simpa using this
    subst hv
    cases gs with
    | nil => simp at hl
    | cons g gs =>
      rw [hcs_cons, List.append_assoc]
      exact hexFirst_group (hgs g (by simp)) _
  | succ max ih =>
    intro min gs t hgs hl v hv
    have hv : v ∈ repEnds hc.ends min (max + 1) (hcs gs ++ t) := hv
    cases gs with
    | nil => simp at hl
    | cons g gs =>
      have hg := hgs g (by simp)
      have e : hcs (g :: gs) ++ t = g ++ ':' :: (hcs gs ++ t) := by rw [hcs_cons]; simp
      rw [repEnds_succ, e, hc_group hg, List.flatMap_cons, List.flatMap_nil, List.append_nil] at hv
      rcases List.mem_append.mp hv with hv | hv
      · exact ih (min - 1) gs t (fun x hx => hgs x (by simp [hx]))
          (by simp only [List.length_cons] at hl; omega) v hv
      · split at hv
        · simp only [List.mem_singleton] at hv
          rw [hv]; exact hexFirst_group hg _
        · cases hv

/-- `(h:){n,n}` on `n` groups has one outcome. -/
theorem rep_hc_exact : ∀ (n : Nat) (gs : List Str) (t : Str), (∀ g ∈ gs, IsGroup g) →
    gs.length = n → ∀ v ∈ (rep hc n n).ends (hcs gs ++ t), v = t := by
  intro n
  induction n with
  | zero =>
    intro gs t _ hl v hv
    have : gs = [] := List.length_eq_zero_iff.mp hl
    subst this
    have hv : v ∈ [t] := hv
    simpa using hv
  | succ n ih =>
    intro gs t hgs hl v hv
    have hv : v ∈ repEnds hc.ends (n + 1) (n + 1) (hcs gs ++ t) := hv
    cases gs with
    | nil => simp at hl
    | cons g gs =>
      have e : hcs (g :: gs) ++ t = g ++ ':' :: (hcs gs ++ t) := by rw [hcs_cons]; simp
      rw [repEnds_succ, e, hc_group (hgs g (by simp)), List.flatMap_cons, List.flatMap_nil,
        List.append_nil, if_neg (by omega), List.append_nil] at hv
      exact ih gs t (fun x hx => hgs x (by simp [hx])) (by simpa using hl) v hv

/-- With too few groups there is no attempt left. -/
theorem rep_hc_few : ∀ (max min : Nat) (gs : List Str) (t : Str), (∀ g ∈ gs, IsGroup g) →
    hc.ends t = [] → gs.length < min → min ≤ max → (rep hc min max).ends (hcs gs ++ t) = [] := by
  intro max
  induction max with
  | zero => intro min gs t _ _ h1 h2; omega
  | succ max ih =>
    intro min gs t hgs ht hl hm
    show repEnds hc.ends min (max + 1) _ = _
    rw [repEnds_succ, if_neg (by omega), List.append_nil]
    cases gs with
    | nil => simp [hcs, ht]
    | cons g gs =>
      have e : hcs (g :: gs) ++ t = g ++ ':' :: (hcs gs ++ t) := by rw [hcs_cons]; simp
      rw [e, hc_group (hgs g (by simp)), List.flatMap_cons, List.flatMap_nil, List.append_nil]
      exact ih (min - 1) gs t (fun x hx => hgs x (by simp [hx])) ht
        (by simp only [List.length_cons] at hl; omega) (by omega)

theorem colh_fail {s : Str} (h : ∀ t, s ≠ ':' :: t) : colh.ends s = [] := by
  cases s with
  | nil => rfl
  | cons c s =>
    have : c ≠ ':' := by rintro rfl; exact h s rfl
    simp [colh, ends, ch, this]

theorem colh_colon (t : Str) : colh.ends (':' :: t) = h14.ends t := by
  simp [colh, ends, ch]

theorem colh_fail_hexFirst {s : Str} (h : HexFirst s) : colh.ends s = [] := by
  obtain ⟨c, t, rfl, hc⟩ := h
  exact colh_fail (by rintro t' he; cases he; exact (hex_ne hc).1 rfl)

theorem notHex_colhs {gs : List Str} {t : Str} (ht : NotHexFirst t) : NotHexFirst (colhs gs ++ t) := by
  cases gs with
  | nil => exact ht
  | cons g gs => rw [colhs_cons]; exact notHex_colon _

/-- `(:h){min,max}`: the first attempt takes as many groups as it may. -/
theorem rep_colh : ∀ (max min : Nat) (gs : List Str) (t : Str), (∀ g ∈ gs, IsGroup g) →
    NotHexFirst t → colh.ends t = [] → min ≤ gs.length → min ≤ max →
    ((rep colh min max).ends (colhs gs ++ t)).head? = some (colhs (gs.drop max) ++ t) := by
  intro max
  induction max with
  | zero => intro min gs t _ _ _ _ _; rfl
  | succ max ih =>
    intro min gs t hgs ht htc hmin hle
    show (repEnds colh.ends min (max + 1) _).head? = _
    rw [repEnds_succ]
    cases gs with
    | nil =>
      have : min = 0 := by simp only [List.length_nil] at hmin; omega
      subst this
      simp [colhs, htc]
    | cons g gs =>
      have hg := hgs g (by simp)
      obtain ⟨L, h1, -⟩ := h14_spec hg (notHex_colhs (gs := gs) ht)
      have e : colhs (g :: gs) ++ t = ':' :: (g ++ (colhs gs ++ t)) := by rw [colhs_cons]; simp
      have h2 := ih (min - 1) gs t (fun x hx => hgs x (by simp [hx])) ht htc
        (by simp only [List.length_cons] at hmin; omega) (by omega)
      rw [e, colh_colon, h1, List.head?_append]
      have h2' : (repEnds colh.ends (min - 1) max (colhs gs ++ t)).head? =
          some (colhs (gs.drop max) ++ t) := h2
      have h3 : ((colhs gs ++ t) :: L).head? = some (colhs gs ++ t) := rfl
      rw [head?_flatMap h3 h2']
      rfl

theorem rep_colh_fail {s : Str} (min max : Nat) (h0 : 0 < min) (hm : 0 < max) (h : colh.ends s = []) :
    (rep colh min max).ends s = [] := by
  cases max with
  | zero => omega
  | succ max =>
    show repEnds colh.ends min (max + 1) s = []
    rw [repEnds_succ, h, if_neg (by omega)]; rfl

/-- `(h:){min,max}` on something that does not start with a hexadecimal digit. -/
theorem rep_hc_fail {s : Str} (min max : Nat) (h0 : 0 < min) (hm : 0 < max) (h : NotHexFirst s) :
    (rep hc min max).ends s = [] := by
  cases max with
  | zero => omega
  | succ max =>
    show repEnds hc.ends min (max + 1) s = []
    rw [repEnds_succ, hc_fail h, if_neg (by omega)]; rfl

/-! ## Where `ipv6s` cannot match -/

/-- What follows `(h:){1,4}` follows a hexadecimal digit and a colon. -/
theorem rep_hc_before : ∀ (max min : Nat) (s t : Str), 0 < min → t ∈ (rep hc min max).ends s → 0 < max →
    ∃ u c, s = u ++ c :: ':' :: t ∧ IsHex c := by
  have one : ∀ (s t : Str), t ∈ hc.ends s → ∃ u c, s = u ++ c :: ':' :: t ∧ IsHex c := by
    intro s t h
    simp only [hc, ends, List.mem_flatMap] at h
    obtain ⟨v, hv, ht⟩ := h
    cases v with
    | nil => simp [ch, ends] at ht
    | cons x v =>
      simp only [ch, ends, List.mem_singleton] at ht
      split at ht
      · rename_i hx
        subst hx
        simp only [List.mem_singleton] at ht
        subst ht
        -- the last thing `h14` took is a hexadecimal digit
        have last : ∀ (max min : Nat) (s v : Str), 0 < min → 0 < max →
            v ∈ repEnds (cls hexChars).ends min max s → ∃ u c, s = u ++ c :: v ∧ IsHex c := by
          intro max
          induction max with
          | zero => intro min s v _ h; omega
          | succ max ih =>
            intro min s v h0 _ hv
            rw [repEnds_succ, if_neg (by omega), List.append_nil, List.mem_flatMap] at hv
            obtain ⟨w, hw, hv⟩ := hv
            cases s with
            | nil => simp [ends] at hw
            | cons y s =>
              simp only [ends] at hw
              split at hw
              · rename_i hy
                simp only [List.mem_singleton] at hw
                subst hw
                -- zero or more further digits
                have more : ∀ (max min : Nat) (s v : Str), v ∈ repEnds (cls hexChars).ends min max s →
                    ∀ y, IsHex y → ∃ u c, y :: s = u ++ c :: v ∧ IsHex c := by
                  intro max
                  induction max with
                  | zero =>
                    intro min s v hv y hy
                    simp only [repEnds, List.mem_singleton] at hv
                    subst hv
                    exact ⟨[], y, rfl, hy⟩
                  | succ max ihm =>
                    intro min s v hv y hy
                    rw [repEnds_succ, List.mem_append, List.mem_flatMap] at hv
                    rcases hv with ⟨w, hw, hv⟩ | hv
                    · cases s with
                      | nil => simp [ends] at hw
                      | cons z s =>
                        simp only [ends] at hw
                        split at hw
                        · rename_i hz
                          simp only [List.mem_singleton] at hw
                          subst hw
                          obtain ⟨u, c, h1, h2⟩ := ihm _ _ _ hv z hz
                          exact ⟨y :: u, c, by rw [h1]; rfl, h2⟩
                        · cases hw
                    · split at hv
                      · simp only [List.mem_singleton] at hv
                        subst hv
                        exact ⟨[], y, rfl, hy⟩
                      · cases hv
                exact more max (min - 1) _ v hv y hy
              · cases hw
        obtain ⟨u, c, h1, h2⟩ := last 4 1 s (':' :: t) (by omega) (by omega) hv
        exact ⟨u, c, h1, h2⟩
      · cases ht
  intro max
  induction max with
  | zero => intro min s t _ _ h; omega
  | succ max ih =>
    intro min s t h0 ht _
    have ht : t ∈ repEnds hc.ends min (max + 1) s := ht
    rw [repEnds_succ, if_neg (by omega), List.append_nil, List.mem_flatMap] at ht
    obtain ⟨w, hw, ht⟩ := ht
    obtain ⟨u, c, h1, h2⟩ := one s w hw
    -- zero or more further ones
    have more : ∀ (max min : Nat) (w t : Str), t ∈ repEnds hc.ends min max w →
        t = w ∨ ∃ u c, w = u ++ c :: ':' :: t ∧ IsHex c := by
      intro max
      induction max with
      | zero => intro min w t h; simp only [repEnds, List.mem_singleton] at h; exact .inl h
      | succ max ihm =>
        intro min w t h
        rw [repEnds_succ, List.mem_append, List.mem_flatMap] at h
        rcases h with ⟨v, hv, h⟩ | h
        · obtain ⟨u, c, h1, h2⟩ := one w v hv
          rcases ihm _ _ _ h with rfl | ⟨u', c', h3, h4⟩
          · exact .inr ⟨u, c, h1, h2⟩
          · exact .inr ⟨u ++ c :: ':' :: u', c', by rw [h1, h3]; simp, h4⟩
        · split at h
          · simp only [List.mem_singleton] at h; exact .inl h
          · cases h
    rcases more max (min - 1) w t ht with rfl | ⟨u', c', h3, h4⟩
    · exact ⟨u, c, h1, h2⟩
    · exact ⟨u ++ c :: ':' :: u', c', by rw [h1, h3]; simp, h4⟩

/-- Nowhere two colons between hexadecimal digits. -/
def NoGap (s : Str) : Prop :=
  ∀ u c d t, s = u ++ c :: ':' :: ':' :: d :: t → IsHex c → IsHex d → False

theorem ipv6s_none {s : Str} (h : NoGap s) : ipv6s.find s = none := by
  apply find_none
  intro t ht
  rw [List.eq_nil_iff_forall_not_mem]
  intro x hx
  simp only [ipv6s, ends, List.mem_flatMap] at hx
  obtain ⟨v, hv, hx⟩ := hx
  obtain ⟨u, c, h1, h2⟩ := rep_hc_before 4 1 t v (by omega) hv (by omega)
  rw [repEnds_succ, if_neg (by omega), List.append_nil, List.mem_flatMap] at hx
  obtain ⟨w, hw, -⟩ := hx
  cases v with
  | nil => simp [colh, ends, ch] at hw
  | cons y v =>
    by_cases hy : y = ':'
    · subst hy
      rw [colh_colon] at hw
      cases v with
      | nil => rw [h14_nil] at hw; cases hw
      | cons z v =>
        by_cases hz : IsHex z
        · obtain ⟨p, hp⟩ := ht
          exact h (p ++ u) c z v (by rw [← hp, h1]; simp) h2 hz
        · rw [h14_fail (by intro c' t' he; cases he; exact hz)] at hw; cases hw
    · rw [colh_fail (by rintro t' he; cases he; exact hy rfl)] at hw; cases hw

/-! ## Strings without a gap -/

/-- Not `:` and then a hexadecimal digit. -/
def NoColonHex (t : Str) : Prop := ∀ t', t = ':' :: t' → ¬ HexFirst t'

/-- Without a gap, also behind a hexadecimal digit. -/
def Tame (t : Str) : Prop := NoGap t ∧ ∀ t', t = ':' :: t' → NoColonHex t'

theorem noGap_cons_notHex {x : Char} {s : Str} (hx : ¬ IsHex x) (h : NoGap s) : NoGap (x :: s) := by
  intro u c d t he hc hd
  cases u with
  | nil => cases he; exact hx hc
  | cons y u => cases he; exact h u c d t rfl hc hd

theorem tame_cons {x : Char} {s : Str} (hx : x ≠ ':') (h : Tame s) : Tame (x :: s) := by
  constructor
  · intro u c d t he hc hd
    cases u with
    | nil => cases he; exact h.2 _ rfl _ rfl ⟨d, t, rfl, hd⟩
    | cons y u => cases he; exact h.1 u c d t rfl hc hd
  · intro t' he; cases he; exact absurd rfl hx

theorem notHex_colonChar : ¬ IsHex ':' := fun h => (hex_ne h).1 rfl

theorem tame_colon {s : Str} (h : Tame s) (h' : NoColonHex s) : Tame (':' :: s) :=
  ⟨noGap_cons_notHex notHex_colonChar h.1, by intro t' he; cases he; exact h'⟩

theorem tame_append {g s : Str} (hg : ∀ c ∈ g, c ≠ ':') (h : Tame s) : Tame (g ++ s) := by
  induction g with
  | nil => exact h
  | cons c g ih => exact tame_cons (hg c (by simp)) (ih fun x hx => hg x (by simp [hx]))

theorem group_no_colon {g : Str} (hg : IsGroup g) : ∀ c ∈ g, c ≠ ':' :=
  fun c hc => (hex_ne (hg.2.2 c hc)).1

theorem noColonHex_hexFirst {s : Str} (h : HexFirst s) : NoColonHex s := by
  obtain ⟨c, t, rfl, hc⟩ := h
  intro t' he; cases he; exact absurd hc notHex_colonChar

theorem tame_hcs {gs : List Str} {t : Str} (hgs : ∀ g ∈ gs, IsGroup g) (h : Tame t)
    (h' : NoColonHex t) : Tame (hcs gs ++ t) := by
  induction gs with
  | nil => exact h
  | cons g gs ih =>
    have hi := ih fun x hx => hgs x (by simp [hx])
    have e : hcs (g :: gs) ++ t = g ++ ':' :: (hcs gs ++ t) := by rw [hcs_cons]; simp
    rw [e]
    refine tame_append (group_no_colon (hgs g (by simp))) (tame_colon hi ?_)
    cases gs with
    | nil => exact h'
    | cons g' gs =>
      rw [hcs_cons, List.append_assoc]
      exact noColonHex_hexFirst (hexFirst_group (hgs g' (by simp)) _)

theorem tame_colhs {gs : List Str} {t : Str} (hgs : ∀ g ∈ gs, IsGroup g) (h : Tame t) :
    Tame (colhs gs ++ t) := by
  induction gs with
  | nil => exact h
  | cons g gs ih =>
    have hi := ih fun x hx => hgs x (by simp [hx])
    have e : colhs (g :: gs) ++ t = ':' :: (g ++ (colhs gs ++ t)) := by rw [colhs_cons]; simp
    rw [e]
    exact tame_colon (tame_append (group_no_colon (hgs g (by simp))) hi)
      (noColonHex_hexFirst (hexFirst_group (hgs g (by simp)) _))

theorem tame_nil : Tame [] := by
  constructor
  · intro u c d t he; simp at he
  · intro t' he; cases he

/-- What follows the address. -/
theorem tame_rest {port : Str} (hp : ∀ c ∈ port, c.isDigit = true) : Tame (']' :: ':' :: port) := by
  have h1 : Tame port := by
    have := tame_append (g := port) (s := []) (fun c hc => (digit_not_colon (hp c hc)).1) tame_nil
    simpa using this
  refine tame_cons (by decide) (tame_colon h1 ?_)
  intro t' he
  rw [he] at hp
  exact absurd (hp ':' (by simp)) (by decide)

/-! ## The whole expression on bracketed addresses -/

theorem hcs_snoc (gs : List Str) (g : Str) : hcs (gs ++ [g]) = hcs gs ++ (g ++ [':']) := by
  simp [hcs]

theorem colonJoin_cons_hcs : ∀ (gs : List Str) (g : Str), colonJoin (gs ++ [g]) = hcs gs ++ g := by
  intro gs
  induction gs with
  | nil => intro g; simp [colonJoin, join, hcs]
  | cons a gs ih =>
    intro g
    have := ih g
    cases gs with
    | nil => simp [colonJoin, join, hcs] at this ⊢
    | cons b gs =>
      simp only [colonJoin, List.cons_append, join] at this ⊢
      rw [this, hcs_cons a]; simp

theorem colonJoin_colon {gs : List Str} (h : gs ≠ []) : ':' :: colonJoin gs = colhs gs := by
  induction gs with
  | nil => exact absurd rfl h
  | cons g gs ih =>
    cases gs with
    | nil => simp [colonJoin, join, colhs]
    | cons g' gs =>
      have := ih (by simp)
      simp only [colonJoin, join] at this ⊢
      rw [colhs_cons, ← this]; simp

theorem colonJoin_hcs {gs : List Str} (h : gs ≠ []) : colonJoin gs ++ [':'] = hcs gs := by
  rcases List.eq_nil_or_concat gs with rfl | ⟨a, b, rfl⟩
  · exact absurd rfl h
  · rw [List.concat_eq_append, colonJoin_cons_hcs, hcs_snoc]; simp

/-- The compressed form with groups on both sides. -/
theorem v6Short_both {pre post : List Str} (h1 : pre ≠ []) (h2 : post ≠ []) :
    v6Short pre post = hcs pre ++ colhs post := by
  rw [← colonJoin_hcs h1, ← colonJoin_colon h2]; simp [v6Short]

theorem v6Short_pre {pre : List Str} (h1 : pre ≠ []) : v6Short pre [] = hcs pre ++ [':'] := by
  rw [← colonJoin_hcs h1]; simp [v6Short, colonJoin, join]

theorem v6Short_post {post : List Str} (h2 : post ≠ []) : v6Short [] post = ':' :: colhs post := by
  rw [← colonJoin_colon h2]; simp [v6Short, colonJoin, join]

def noDot (s : Str) : Prop := ∀ c ∈ s, c ≠ '.'

theorem ipv64e_none_of_noDot {s : Str} (h : ∀ c ∈ s, c ≠ '.') : ipv64e.find s = none := by
  apply find_none_of_need (by decide) isDot
  rw [cnt_zero (fun c hc => by simp [isDot, h c hc])]
  decide

theorem noDot_hcs {gs : List Str} (hgs : ∀ g ∈ gs, IsGroup g) : ∀ c ∈ hcs gs, c ≠ '.' := by
  intro c hc
  simp only [hcs, List.mem_flatMap, List.mem_append, List.mem_singleton] at hc
  obtain ⟨g, hg, hc | rfl⟩ := hc
  · exact (hex_ne ((hgs g hg).2.2 c hc)).2.2.1
  · decide

theorem noDot_colhs {gs : List Str} (hgs : ∀ g ∈ gs, IsGroup g) : ∀ c ∈ colhs gs, c ≠ '.' := by
  intro c hc
  simp only [colhs, List.mem_flatMap, List.mem_cons] at hc
  obtain ⟨g, hg, rfl | hc⟩ := hc
  · decide
  · exact (hex_ne ((hgs g hg).2.2 c hc)).2.2.1

theorem noDot_rest {port : Str} (hp : ∀ c ∈ port, c.isDigit = true) :
    ∀ c ∈ ']' :: ':' :: port, c ≠ '.' := by
  intro c hc
  simp only [List.mem_cons] at hc
  rcases hc with rfl | rfl | hc
  · decide
  · decide
  · exact (digit_not_colon (hp c hc)).2.1

/-- `ipv6s` right in front of the groups. -/
theorem ipv6s_here {pre post : List Str} {rest : Str} (h1 : pre ≠ []) (h2 : post ≠ [])
    (hpre : ∀ g ∈ pre, IsGroup g) (hpost : ∀ g ∈ post, IsGroup g) (hl : pre.length ≤ 4) :
    (ipv6s.ends (hcs pre ++ (colhs post ++ ']' :: rest))).head? =
      some (colhs (post.drop 3) ++ ']' :: rest) := by
  have hh : hc.ends (colhs post ++ ']' :: rest) = [] := hc_fail (notHex_colhs (notHex_bracket _))
  obtain ⟨L, h3, -⟩ := rep_hc 4 1 pre (colhs post ++ ']' :: rest) hpre hh hl
    (List.length_pos_iff.mpr h1)
  have h4 := rep_colh 3 1 post (']' :: rest) hpost (notHex_bracket _)
    (colh_fail (by rintro t he; cases he)) (List.length_pos_iff.mpr h2) (by omega)
  exact head?_flatMap (f := (rep colh 1 3).ends) (by rw [h3]; rfl) h4

/-- More than four groups before the gap: no match here. -/
theorem ipv6s_many {pre : List Str} {t : Str} (hpre : ∀ g ∈ pre, IsGroup g) (hl : 4 < pre.length) :
    ipv6s.ends (hcs pre ++ t) = [] := by
  simp only [ipv6s, ends]
  rw [List.flatMap_eq_nil_iff]
  intro v hv
  have := rep_hc_many 4 1 pre t hpre hl v hv
  exact rep_colh_fail 1 3 (by omega) (by omega) (colh_fail_hexFirst this)

theorem ipv6s_notHex {t : Str} (h : NotHexFirst t) : ipv6s.ends t = [] := by
  have h4 := rep_hc_fail 1 4 (by omega) (by omega) h
  simp only [ends] at h4
  simp only [ipv6s, ends]
  rw [h4]; rfl

/-- The search passes over a group in front of four or more groups. -/
theorem ipv6s_skip {gs : List Str} {t : Str} (hgs : ∀ g ∈ gs, IsGroup g) (hl : 4 ≤ gs.length) :
    ∀ g : Str, (g.length ≤ 4) → (∀ c ∈ g, IsHex c) →
      ipv6s.find (g ++ ':' :: (hcs gs ++ t)) = ipv6s.find (hcs gs ++ t) := by
  intro g
  induction g with
  | nil => intro _ _; exact find_skip (ipv6s_notHex (notHex_colon _))
  | cons c g ih =>
    intro h1 h2
    have hg : IsGroup (c :: g) := ⟨by simp, h1, h2⟩
    have e : c :: g ++ ':' :: (hcs gs ++ t) = hcs ((c :: g) :: gs) ++ t := by rw [hcs_cons]; simp
    have hm : ipv6s.ends (c :: (g ++ ':' :: (hcs gs ++ t))) = [] := by
      have e' : c :: (g ++ ':' :: (hcs gs ++ t)) = hcs ((c :: g) :: gs) ++ t := by rw [← e]; rfl
      rw [e']
      exact ipv6s_many (by
        intro x hx
        rcases List.mem_cons.mp hx with rfl | hx
        · exact hg
        · exact hgs x hx) (by simp only [List.length_cons]; omega)
    show ipv6s.find (c :: (g ++ ':' :: (hcs gs ++ t))) = _
    rw [find_skip hm]
    exact ih (by simp only [List.length_cons] at h1; omega) fun x hx => h2 x (by simp [hx])

/-- What the search finds in a compressed form with groups on both sides: at most the last four groups
before the gap and the first three behind it. -/
theorem ipv6s_find {pre post : List Str} {rest : Str} (h1 : pre ≠ []) (h2 : post ≠ [])
    (hpre : ∀ g ∈ pre, IsGroup g) (hpost : ∀ g ∈ post, IsGroup g) :
    ipv6s.find (hcs pre ++ (colhs post ++ ']' :: rest)) =
      some (hcs (pre.drop (pre.length - 4)) ++ colhs (post.take 3)) := by
  induction pre with
  | nil => exact absurd rfl h1
  | cons g pre ih =>
    by_cases hl : (g :: pre).length ≤ 4
    · have h0 : (g :: pre).length - 4 = 0 := by omega
      rw [h0, List.drop_zero]
      have e : colhs post = colhs (post.take 3) ++ colhs (post.drop 3) := by
        unfold colhs; rw [← List.flatMap_append, List.take_append_drop]
      have h := ipv6s_here (rest := rest) h1 h2 hpre hpost hl
      have e2 : hcs (g :: pre) ++ (colhs post ++ ']' :: rest) =
          (hcs (g :: pre) ++ colhs (post.take 3)) ++ (colhs (post.drop 3) ++ ']' :: rest) := by
        conv => lhs; rw [e]
        simp
      rw [e2] at h ⊢
      exact find_here h
    · have hg := hpre g (by simp)
      have hl' : 4 ≤ pre.length := by simp only [List.length_cons] at hl; omega
      have hne : pre ≠ [] := by rintro rfl; simp at hl'
      have hi := ih hne fun x hx => hpre x (by simp [hx])
      have e : hcs (g :: pre) ++ (colhs post ++ ']' :: rest) =
          g ++ ':' :: (hcs pre ++ (colhs post ++ ']' :: rest)) := by rw [hcs_cons]; simp
      rw [e, ipv6s_skip (fun x hx => hpre x (by simp [hx])) hl' g hg.2.1 hg.2.2, hi]
      have : (g :: pre).length - 4 = (pre.length - 4) + 1 := by
        simp only [List.length_cons]; omega
      rw [this, List.drop_succ_cons]

/-- All twelve alternatives fail in front of something that is neither hexadecimal nor a colon. -/
theorem ipv6_bracket (t : Str) : ipv6.ends ('[' :: t) = [] := by
  have hn : NotHexFirst ('[' :: t) := by
    intro c t' he; cases he; intro hh; exact (hex_ne hh).2.2.2.1 rfl
  simp only [ipv6, ends, linkLocal, mapped]
  simp only [ch, ends]
  have r1 := rep_hc_fail (s := '[' :: t) 7 7 (by omega) (by omega) hn
  have r2 := rep_hc_fail (s := '[' :: t) 1 7 (by omega) (by omega) hn
  have r3 := rep_hc_fail (s := '[' :: t) 1 6 (by omega) (by omega) hn
  have r4 := rep_hc_fail (s := '[' :: t) 1 5 (by omega) (by omega) hn
  have r5 := rep_hc_fail (s := '[' :: t) 1 4 (by omega) (by omega) hn
  have r6 := rep_hc_fail (s := '[' :: t) 1 3 (by omega) (by omega) hn
  have r7 := rep_hc_fail (s := '[' :: t) 1 2 (by omega) (by omega) hn
  simp only [ends] at r1 r2 r3 r4 r5 r6 r7
  rw [r1, r2, r3, r4, r5, r6, r7, hc_fail hn]
  simp

theorem ipv6s_bracket (t : Str) : ipv6s.ends ('[' :: t) = [] := by
  apply ipv6s_notHex
  intro c t' he; cases he; intro hh; exact (hex_ne hh).2.2.2.1 rfl

/-- The head of an alternative. -/
theorem alt_left {a b : Rex} {s t : Str} (h : (a.ends s).head? = some t) :
    ((alt a b).ends s).head? = some t := by
  simp only [ends]; rw [List.head?_append, h]; rfl

theorem alt_right {a b : Rex} {s : Str} {o : Option Str} (ha : a.ends s = [])
    (h : (b.ends s).head? = o) : ((alt a b).ends s).head? = o := by
  simp only [ends]; rw [ha, List.nil_append, h]

theorem seq_nil {a b : Rex} {s : Str} (h : a.ends s = []) : (seq a b).ends s = [] := by
  simp only [ends]; rw [h]; rfl

/-- Eight groups. -/
theorem ipv6_full {gs : List Str} {g rest : Str} (hgs : ∀ x ∈ gs, IsGroup x) (hg : IsGroup g)
    (hl : gs.length = 7) : (ipv6.ends (hcs gs ++ (g ++ ']' :: rest))).head? = some (']' :: rest) := by
  apply alt_left
  obtain ⟨L, h1, -⟩ := rep_hc 7 7 gs (g ++ ']' :: rest) hgs
    (hc_fail_group hg (notHex_bracket _) (by rintro t' he; cases he)) (by omega) (by omega)
  obtain ⟨L', h2, -⟩ := h14_spec (t := ']' :: rest) hg (notHex_bracket _)
  exact head?_flatMap (f := h14.ends) (by rw [h1]; rfl) (by rw [h2]; rfl)

/-- Up to seven groups and the gap at the end. -/
theorem ipv6_pre {gs : List Str} {rest : Str} (hgs : ∀ x ∈ gs, IsGroup x) (h1 : 1 ≤ gs.length)
    (hl : gs.length ≤ 7) : (ipv6.ends (hcs gs ++ ':' :: ']' :: rest)).head? = some (']' :: rest) := by
  have hn : hc.ends (':' :: ']' :: rest) = [] := hc_fail (notHex_colon _)
  have h0 : (seq (rep hc 7 7) h14).ends (hcs gs ++ ':' :: ']' :: rest) = [] := by
    by_cases h7 : gs.length = 7
    · simp only [ends]
      rw [List.flatMap_eq_nil_iff]
      intro v hv
      obtain ⟨L, h3, -⟩ := rep_hc 7 7 gs (':' :: ']' :: rest) hgs hn (by omega) (by omega)
      have hlen := rep_hc_exact 7 gs (':' :: ']' :: rest) hgs (by omega) v hv
      rw [hlen]
      exact h14_fail (notHex_colon _)
    · exact seq_nil (rep_hc_few 7 7 gs _ hgs hn (by omega) (by omega))
  refine alt_right h0 (alt_left ?_)
  obtain ⟨L, h3, -⟩ := rep_hc 7 1 gs (':' :: ']' :: rest) hgs hn hl h1
  exact head?_flatMap (f := (ch ':').ends) (by rw [h3]; rfl) (by simp [ch, ends])

/-- The gap first. -/
theorem ipv6_colons {t r : Str} (h : ((alt (rep colh 1 7) (ch ':')).ends (':' :: t)).head? = some r) :
    (ipv6.ends (':' :: ':' :: t)).head? = some r := by
  have hn : NotHexFirst (':' :: ':' :: t) := notHex_colon _
  have f : ∀ min max b, 0 < min → 0 < max → (seq (rep hc min max) b).ends (':' :: ':' :: t) = [] :=
    fun min max b h1 h2 => seq_nil (rep_hc_fail min max h1 h2 hn)
  refine alt_right (f 7 7 _ (by omega) (by omega)) ?_
  refine alt_right (f 1 7 _ (by omega) (by omega)) ?_
  refine alt_right (f 1 6 _ (by omega) (by omega)) ?_
  refine alt_right (f 1 5 _ (by omega) (by omega)) ?_
  refine alt_right (f 1 4 _ (by omega) (by omega)) ?_
  refine alt_right (f 1 3 _ (by omega) (by omega)) ?_
  refine alt_right (f 1 2 _ (by omega) (by omega)) ?_
  refine alt_right (seq_nil (hc_fail hn)) ?_
  refine alt_left ?_
  exact head?_flatMap (a := ':' :: t) (f := (alt (rep colh 1 7) (ch ':')).ends)
    (by simp [ch, ends]) h

end J8a.Iprex

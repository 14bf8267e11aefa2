import Verif.Lemmas.Iprex
/-!
# C61, C62 — client addresses in the logs

`extractAddr` searches a text, normally the `RemoteAddr` of a request, with four regular expressions.
The expressions are evaluated by `Rex.find`: leftmost start, and at that start the first match in the
order of preference of Perl, which is what package `regexp` documents.
-/
namespace J8a
open Go Iprex Rex

/-! ## C61 -/

/-- C61: for every IPv4 address and every port the address is extracted exactly. -/
theorem C61_ipv4_exact (a b c d : Nat) (port : Str) (ha : a < 256) (hb : b < 256) (hc : c < 256)
    (hd : d < 256) (hport : ∀ x ∈ port, x.isDigit = true) :
    extractAddr (v4Text a b c d ++ ':' :: port) = v4Text a b c d := by
  have hdig : ∀ n : Nat, ∀ x ∈ natToDec n, x.isDigit = true := fun n x hx =>
    Nat.isDigit_of_mem_toDigits (by omega) (by omega) hx
  have hA : ∀ x ∈ v4Text a b c d, x ≠ ':' ∧ x ≠ '%' := by
    intro x hx
    simp only [v4Text, List.mem_append, List.mem_cons, List.append_assoc] at hx
    rcases hx with hx | (rfl | hx) | (rfl | hx) | rfl | hx
    · exact ⟨(digit_not_colon (hdig _ _ hx)).1, (digit_not_colon (hdig _ _ hx)).2.2⟩
    · decide
    · exact ⟨(digit_not_colon (hdig _ _ hx)).1, (digit_not_colon (hdig _ _ hx)).2.2⟩
    · decide
    · exact ⟨(digit_not_colon (hdig _ _ hx)).1, (digit_not_colon (hdig _ _ hx)).2.2⟩
    · decide
    · exact ⟨(digit_not_colon (hdig _ _ hx)).1, (digit_not_colon (hdig _ _ hx)).2.2⟩
  have hcolA : cnt isColon (v4Text a b c d) = 0 :=
    cnt_zero fun x hx => by simp [isColon, (hA x hx).1]
  have hcolB : cnt isColon port = 0 :=
    cnt_zero fun x hx => by simp [isColon, (digit_not_colon (hport x hx)).1]
  have hdotB : cnt isDot port = 0 :=
    cnt_zero fun x hx => by simp [isDot, (digit_not_colon (hport x hx)).2.1]
  have h1 : ipv64e.find (v4Text a b c d ++ ':' :: port) = none :=
    ipv64e_none _ port _ rfl hcolA hcolB hdotB
  let p : Char → Bool := fun x => x == ':' || x == '%'
  have hp : cnt p (v4Text a b c d ++ ':' :: port) = 1 := by
    have e1 : cnt p (v4Text a b c d) = 0 :=
      cnt_zero fun x hx => by simp [p, (hA x hx).1, (hA x hx).2]
    have e2 : cnt p port = 0 := cnt_zero fun x hx => by
      simp [p, (digit_not_colon (hport x hx)).1, (digit_not_colon (hport x hx)).2.2]
    rw [cnt_append, cnt_cons, e1, e2]; rfl
  have h2 : ipv6s.find (v4Text a b c d ++ ':' :: port) = none :=
    find_none_of_need (by decide) p (by
      rw [hp]; exact (by decide : 1 < need (fun x => x == ':' || x == '%') ipv6s))
  have h3 : ipv6.find (v4Text a b c d ++ ':' :: port) = none :=
    find_none_of_need (by decide) p (by
      rw [hp]; exact (by decide : 1 < need (fun x => x == ':' || x == '%') ipv6))
  have h4 : ipv4.find (v4Text a b c d ++ ':' :: port) = some (v4Text a b c d) :=
    find_here (quad_spec a b c d ha hb hc hd ':' port (.inl rfl))
  simp only [extractAddr, h1, h2, h3, h4]

example : extractAddr "203.0.113.199:54321".toList = "203.0.113.199".toList := by decide +kernel
example : v4Text 203 0 113 199 = "203.0.113.199".toList := by decide +kernel

/-! ## C62 -/

/-- C62, part: the full form, eight groups, is extracted exactly. -/
theorem C62_full_exact_partial (gs : List Str) (port : Str) (hgs : ∀ g ∈ gs, IsGroup g)
    (hl : gs.length = 8) (hport : ∀ x ∈ port, x.isDigit = true) :
    extractAddr (v6Remote (colonJoin gs) port) = colonJoin gs := by
  rcases List.eq_nil_or_concat gs with rfl | ⟨pre, g, rfl⟩
  · simp at hl
  rw [List.concat_eq_append] at *
  have hpre : ∀ x ∈ pre, IsGroup x := fun x hx => hgs x (by simp [hx])
  have hg : IsGroup g := hgs g (by simp)
  have hl7 : pre.length = 7 := by simpa using hl
  rw [colonJoin_cons_hcs]
  have e : v6Remote (hcs pre ++ g) port = '[' :: (hcs pre ++ (g ++ ']' :: ':' :: port)) := by
    simp [v6Remote]
  rw [e]
  have h1 : ipv64e.find ('[' :: (hcs pre ++ (g ++ ']' :: ':' :: port))) = none := by
    apply ipv64e_none_of_noDot
    intro c hc
    rw [List.mem_cons, List.mem_append, List.mem_append] at hc
    rcases hc with rfl | hc | hc | hc
    · decide
    · exact noDot_hcs hpre c hc
    · exact (hex_ne (hg.2.2 c hc)).2.2.1
    · exact noDot_rest hport c hc
  have h2 : ipv6s.find ('[' :: (hcs pre ++ (g ++ ']' :: ':' :: port))) = none := by
    apply ipv6s_none
    refine (tame_cons (by decide) (tame_hcs hpre (tame_append (group_no_colon hg) (tame_rest hport)) ?_)).1
    exact noColonHex_hexFirst (hexFirst_group hg _)
  have h3 : ipv6.find ('[' :: (hcs pre ++ (g ++ ']' :: ':' :: port))) = some (hcs pre ++ g) := by
    rw [find_skip (ipv6_bracket _)]
    have := ipv6_full (rest := ':' :: port) hpre hg hl7
    rw [← List.append_assoc] at this ⊢
    exact find_here this
  simp only [extractAddr, h1, h2, h3]

example : extractAddr "[2001:db8:0:1:2:3:4:5]:443".toList = "2001:db8:0:1:2:3:4:5".toList := by
  decide +kernel

/-- C62, part: the compressed form with the gap at the end. -/
theorem C62_gap_last_exact_partial (pre : List Str) (port : Str) (hpre : ∀ g ∈ pre, IsGroup g)
    (h1 : pre ≠ []) (hl : pre.length ≤ 7) (hport : ∀ x ∈ port, x.isDigit = true) :
    extractAddr (v6Remote (v6Short pre []) port) = v6Short pre [] := by
  rw [v6Short_pre h1]
  have e : v6Remote (hcs pre ++ [':']) port = '[' :: (hcs pre ++ ':' :: ']' :: ':' :: port) := by
    simp [v6Remote]
  rw [e]
  have h2 : ipv64e.find ('[' :: (hcs pre ++ ':' :: ']' :: ':' :: port)) = none := by
    apply ipv64e_none_of_noDot
    intro c hc
    rw [List.mem_cons, List.mem_append, List.mem_cons] at hc
    rcases hc with rfl | hc | rfl | hc
    · decide
    · exact noDot_hcs hpre c hc
    · decide
    · exact noDot_rest hport c hc
  have hb : ∀ t, ¬ HexFirst (']' :: t) := by
    rintro t ⟨c, t', he, hc⟩; cases he; exact (hex_ne hc).2.1 rfl
  have h3 : ipv6s.find ('[' :: (hcs pre ++ ':' :: ']' :: ':' :: port)) = none := by
    apply ipv6s_none
    refine (tame_cons (by decide) (tame_hcs hpre (tame_colon (tame_rest hport) ?_) ?_)).1
    · intro t' he; cases he
    · intro t' he; cases he; exact hb _
  have h4 : ipv6.find ('[' :: (hcs pre ++ ':' :: ']' :: ':' :: port)) = some (hcs pre ++ [':']) := by
    rw [find_skip (ipv6_bracket _)]
    have := ipv6_pre (rest := ':' :: port) hpre (List.length_pos_iff.mpr h1) hl
    have e2 : hcs pre ++ ':' :: ']' :: ':' :: port = (hcs pre ++ [':']) ++ ']' :: ':' :: port := by simp
    rw [e2] at this ⊢
    exact find_here this
  simp only [extractAddr, h2, h3, h4]

example : extractAddr "[2001:db8:1:2::]:443".toList = "2001:db8:1:2::".toList := by decide +kernel

/-- C62, part: the compressed form with the gap first, `::` alone included. -/
theorem C62_gap_first_exact_partial (post : List Str) (port : Str) (hpost : ∀ g ∈ post, IsGroup g)
    (hl : post.length ≤ 7) (hport : ∀ x ∈ port, x.isDigit = true) :
    extractAddr (v6Remote (v6Short [] post) port) = v6Short [] post := by
  by_cases h1 : post = []
  · subst h1
    have e : v6Remote (v6Short [] []) port = '[' :: ':' :: ':' :: ']' :: ':' :: port := by
      simp [v6Remote, v6Short, colonJoin, join]
    rw [e]
    have h2 : ipv64e.find ('[' :: ':' :: ':' :: ']' :: ':' :: port) = none := by
      apply ipv64e_none_of_noDot
      intro c hc
      simp only [List.mem_cons] at hc
      rcases hc with rfl | rfl | rfl | rfl | rfl | hc
      · decide
      · decide
      · decide
      · decide
      · decide
      · exact (digit_not_colon (hport c hc)).2.1
    have h3 : ipv6s.find ('[' :: ':' :: ':' :: ']' :: ':' :: port) = none := by
      apply ipv6s_none
      refine noGap_cons_notHex (fun h => (hex_ne h).2.2.2.1 rfl) ?_
      refine noGap_cons_notHex notHex_colonChar ?_
      refine noGap_cons_notHex notHex_colonChar (tame_rest hport).1
    have h4 : ipv6.find ('[' :: ':' :: ':' :: ']' :: ':' :: port) = some "::".toList := by
      rw [find_skip (ipv6_bracket _)]
      refine find_here (w := "::".toList) (t := ']' :: ':' :: port) (ipv6_colons ?_)
      refine alt_right (rep_colh_fail 1 7 (by omega) (by omega) ?_) (by simp [ch, ends])
      rw [colh_colon]; exact h14_fail (notHex_bracket _)
    simp only [extractAddr, h2, h3, h4]
    simp [v6Short, colonJoin, join]
  · rw [v6Short_post h1]
    have e : v6Remote (':' :: colhs post) port = '[' :: ':' :: (colhs post ++ ']' :: ':' :: port) := by
      simp [v6Remote]
    rw [e]
    have h2 : ipv64e.find ('[' :: ':' :: (colhs post ++ ']' :: ':' :: port)) = none := by
      apply ipv64e_none_of_noDot
      intro c hc
      rw [List.mem_cons, List.mem_cons, List.mem_append] at hc
      rcases hc with rfl | rfl | hc | hc
      · decide
      · decide
      · exact noDot_colhs hpost c hc
      · exact noDot_rest hport c hc
    have h3 : ipv6s.find ('[' :: ':' :: (colhs post ++ ']' :: ':' :: port)) = none := by
      apply ipv6s_none
      refine noGap_cons_notHex (fun h => (hex_ne h).2.2.2.1 rfl) ?_
      exact noGap_cons_notHex notHex_colonChar (tame_colhs hpost (tame_rest hport)).1
    have h4 : ipv6.find ('[' :: ':' :: (colhs post ++ ']' :: ':' :: port)) =
        some (':' :: colhs post) := by
      rw [find_skip (ipv6_bracket _)]
      refine find_here (w := ':' :: colhs post) (t := ']' :: ':' :: port) ?_
      have hr := rep_colh 7 1 post (']' :: ':' :: port) hpost (notHex_bracket _)
        (colh_fail (by rintro t he; cases he)) (List.length_pos_iff.mpr h1) (by omega)
      rw [List.drop_eq_nil_of_le hl] at hr
      cases post with
      | nil => exact absurd rfl h1
      | cons g post =>
        have e2 : ':' :: colhs (g :: post) ++ ']' :: ':' :: port =
            ':' :: ':' :: ((g ++ colhs post) ++ ']' :: ':' :: port) := by rw [colhs_cons]; rfl
        rw [e2]
        apply ipv6_colons
        apply alt_left
        rw [colhs_cons] at hr
        exact hr
    simp only [extractAddr, h2, h3, h4]

example : extractAddr "[::1]:443".toList = "::1".toList := by decide +kernel
example : extractAddr "[::]:443".toList = "::".toList := by decide +kernel

/-- C62: exactly what is extracted from a compressed address with groups on both sides of the gap, for
every number of groups: the last four groups before the gap and the first three behind it. -/
theorem C62_gap_middle_result (pre post : List Str) (port : Str) (hpre : ∀ g ∈ pre, IsGroup g)
    (hpost : ∀ g ∈ post, IsGroup g) (h1 : pre ≠ []) (h2 : post ≠ [])
    (hport : ∀ x ∈ port, x.isDigit = true) :
    extractAddr (v6Remote (v6Short pre post) port) =
      v6Short (pre.drop (pre.length - 4)) (post.take 3) := by
  have e : v6Remote (v6Short pre post) port = '[' :: (hcs pre ++ (colhs post ++ ']' :: ':' :: port)) := by
    rw [v6Short_both h1 h2]; simp [v6Remote]
  rw [e]
  have h3 : ipv64e.find ('[' :: (hcs pre ++ (colhs post ++ ']' :: ':' :: port))) = none := by
    apply ipv64e_none_of_noDot
    intro c hc
    rw [List.mem_cons, List.mem_append, List.mem_append] at hc
    rcases hc with rfl | hc | hc | hc
    · decide
    · exact noDot_hcs hpre c hc
    · exact noDot_colhs hpost c hc
    · exact noDot_rest hport c hc
  have h4 : ipv6s.find ('[' :: (hcs pre ++ (colhs post ++ ']' :: ':' :: port))) =
      some (hcs (pre.drop (pre.length - 4)) ++ colhs (post.take 3)) := by
    rw [find_skip (ipv6s_bracket _)]
    exact ipv6s_find h1 h2 hpre hpost
  have n1 : pre.drop (pre.length - 4) ≠ [] := by
    intro h
    have := congrArg List.length h
    rw [List.length_drop] at this
    have := List.length_pos_iff.mpr h1
    simp only [List.length_nil] at *
    omega
  have n2 : post.take 3 ≠ [] := by
    intro h
    have := congrArg List.length h
    rw [List.length_take] at this
    have := List.length_pos_iff.mpr h2
    simp only [List.length_nil] at *
    omega
  rw [v6Short_both n1 n2]
  simp only [extractAddr, h3, h4]

/-- C62: with groups on both sides of the gap the address is extracted exactly iff there are at most four
before it and at most three behind it. -/
theorem C62_gap_middle_exact_iff (pre post : List Str) (port : Str) (hpre : ∀ g ∈ pre, IsGroup g)
    (hpost : ∀ g ∈ post, IsGroup g) (h1 : pre ≠ []) (h2 : post ≠ [])
    (hport : ∀ x ∈ port, x.isDigit = true) :
    extractAddr (v6Remote (v6Short pre post) port) = v6Short pre post ↔
      pre.length ≤ 4 ∧ post.length ≤ 3 := by
  rw [C62_gap_middle_result pre post port hpre hpost h1 h2 hport]
  constructor
  · intro h
    have n1 : pre.drop (pre.length - 4) ≠ [] := by
      intro h
      have := congrArg List.length h
      rw [List.length_drop] at this
      have := List.length_pos_iff.mpr h1
      simp only [List.length_nil] at *
      omega
    have n2 : post.take 3 ≠ [] := by
      intro h
      have := congrArg List.length h
      rw [List.length_take] at this
      have := List.length_pos_iff.mpr h2
      simp only [List.length_nil] at *
      omega
    rw [v6Short_both n1 n2, v6Short_both h1 h2] at h
    have hc := congrArg (cnt isColon) h
    have k1 : ∀ gs : List Str, (∀ g ∈ gs, IsGroup g) → cnt isColon (hcs gs) = gs.length := by
      intro gs
      induction gs with
      | nil => intro _; rfl
      | cons g gs ih =>
        intro hg
        have hg0 : cnt isColon g = 0 :=
          cnt_zero fun x hx => by simp [isColon, group_no_colon (hg g (by simp)) x hx]
        rw [hcs_cons, cnt_append, cnt_cons, hg0, ih fun x hx => hg x (by simp [hx]),
          if_pos (show isColon ':' = true from rfl), List.length_cons]
        omega
    have k2 : ∀ gs : List Str, (∀ g ∈ gs, IsGroup g) → cnt isColon (colhs gs) = gs.length := by
      intro gs
      induction gs with
      | nil => intro _; rfl
      | cons g gs ih =>
        intro hg
        have hg0 : cnt isColon g = 0 :=
          cnt_zero fun x hx => by simp [isColon, group_no_colon (hg g (by simp)) x hx]
        rw [colhs_cons, cnt_cons, cnt_append, hg0, ih fun x hx => hg x (by simp [hx]),
          if_pos (show isColon ':' = true from rfl), List.length_cons]
        omega
    rw [cnt_append, cnt_append, k1 pre hpre, k2 post hpost,
      k1 _ (fun g hg => hpre g (List.mem_of_mem_drop hg)),
      k2 _ (fun g hg => hpost g (List.mem_of_mem_take hg)), List.length_drop, List.length_take] at hc
    omega
  · rintro ⟨ha, hb⟩
    have : pre.length - 4 = 0 := by omega
    rw [this, List.drop_zero, List.take_of_length_le hb]

/-- C62 fails: a link local address with an interface identifier made from a MAC address, the usual form,
loses its last group. -/
theorem C62_violated_truncated :
    extractAddr (v6Remote "fe80::a00:27ff:fe4e:66a1".toList "443".toList) =
      "fe80::a00:27ff:fe4e".toList := by decide +kernel

/-- C62 fails: the first group is lost. -/
theorem C62_violated_wrong_start :
    extractAddr (v6Remote "1:2:3:4:5::6".toList "443".toList) = "2:3:4:5::6".toList := by decide +kernel

example : v6Short ["fe80".toList] ["a00".toList, "27ff".toList, "fe4e".toList, "66a1".toList] =
    "fe80::a00:27ff:fe4e:66a1".toList := by decide +kernel

end J8a

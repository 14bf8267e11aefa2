import Verif.Lemmas.Url
/-!
# Which upstream URLs parse
-/
namespace J8a.Go
open J8a.Uri

/-! ## Escaping and decoding -/

theorem isHex_hexdig {c : Char} (h : isHex c = true) : c ∈ hexdig := by
  simp only [isHex, Bool.or_eq_true, Bool.and_eq_true, decide_eq_true_eq] at h
  have hc : c = Char.ofNat c.toNat := (Char.ofNat_toNat c).symm
  have key : ∀ n < 128, (48 ≤ n ∧ n ≤ 57) ∨ (97 ≤ n ∧ n ≤ 102) ∨ (65 ≤ n ∧ n ≤ 70) → Char.ofNat n ∈ hexdig := by
    decide +kernel
  have h' : (48 ≤ c.toNat ∧ c.toNat ≤ 57) ∨ (97 ≤ c.toNat ∧ c.toNat ≤ 102) ∨ (65 ≤ c.toNat ∧ c.toNat ≤ 70) := by
    rcases h with (h | h) | h
    · exact Or.inl h
    · exact Or.inr (Or.inl h)
    · exact Or.inr (Or.inr h)
  rw [hc]
  exact key _ (by omega) h'

theorem isHex_iff (c : Char) : isHex c = decide (c ∈ hexdig) := by
  rw [Bool.eq_iff_iff, decide_eq_true_iff]
  exact ⟨isHex_hexdig, hexdig_isHex⟩

/-- A path or fragment decodes when every `%` starts an encoded byte. -/
theorem unescape_isSome {m : Enc} (hm : m = .path ∨ m = .fragment ∨ m = .userPassword) :
    ∀ s : Str, (unescape m s).isSome = escapesOk s
  | [] => rfl
  | c :: r => by
    have h1 : m ≠ .host := by rcases hm with rfl | rfl | rfl <;> decide
    have h2 : m ≠ .zone := by rcases hm with rfl | rfl | rfl <;> decide
    by_cases hc : c = '%'
    · subst hc
      match r with
      | [] => simp [unescape, escapesOk]
      | [a] => simp [unescape, escapesOk]
      | a :: b :: r =>
        rw [unescape.eq_def, escapesOk.eq_def]
        simp only [if_true, isHex_iff, h1, h2, false_and, if_false]
        by_cases ha : a ∈ hexdig <;> by_cases hb : b ∈ hexdig <;>
          simp [ha, hb, unescape_isSome hm r]
    · rw [unescape.eq_def, escapesOk.eq_def]
      simp only [hc, if_false, h1, h2, false_or, false_and, Option.isSome_map]
      exact unescape_isSome hm r

theorem escapesOk_path (s : Str) : (unescape .path s).isSome = escapesOk s := unescape_isSome (.inl rfl) s

theorem escapesOk_append : ∀ {a : Str} (b : Str), escapesOk a = true → escapesOk (a ++ b) = escapesOk b
  | [], b, _ => rfl
  | c :: r, b, h => by
    by_cases hc : c = '%'
    · subst hc
      match r, h with
      | [], h => simp [escapesOk] at h
      | [a], h => simp [escapesOk] at h
      | a :: a' :: r, h =>
        simp only [escapesOk, if_true, Bool.and_eq_true, decide_eq_true_eq] at h
        simp only [List.cons_append, escapesOk, if_true, h.1.1, h.1.2, decide_true, Bool.true_and]
        exact escapesOk_append b h.2
    · rw [escapesOk.eq_def] at h
      simp only [hc, if_false] at h
      rw [List.cons_append, escapesOk.eq_def]
      simp only [hc, if_false]
      exact escapesOk_append b h

theorem escapesOk_before {s : Str} (r : Str) (h : escapesOk (s ++ '/' :: r) = true) : escapesOk s = true := by
  rw [← escapesOk_path] at h ⊢
  exact unescape_path_before r h

theorem pathText_escapes {p : Str} (h : pathText p = true) : escapesOk p = true := by
  rw [← escapesOk_path]
  exact pathText_decodes h

/-! ## What `EscapedPath` writes -/

/-- Bytes that are written as they are in a path. -/
theorem valid_plain {c : Char} (h : (c ∈ "!$&'()*+,;=:@[]%".toList || !shouldEscape .path c) = true) :
    c ≠ '?' ∧ c ≠ '#' ∧ 0x20 < c.toNat ∧ c.toNat ≠ 0x7f := by
  have key : ∀ n < 128, ((Char.ofNat n) ∈ "!$&'()*+,;=:@[]%".toList || !shouldEscape .path (Char.ofNat n)) = true →
      Char.ofNat n ≠ '?' ∧ Char.ofNat n ≠ '#' ∧ 0x20 < n ∧ n ≠ 0x7f := by decide +kernel
  by_cases hn : c.toNat < 128
  · have hc : Char.ofNat c.toNat = c := Char.ofNat_toNat c
    have := key c.toNat hn (by rw [hc]; exact h)
    rw [hc] at this
    exact this
  · refine ⟨?_, ?_, by omega, by omega⟩ <;> (rintro rfl; exact hn (by decide))

theorem escape_plain : ∀ {s : Str}, (∀ c ∈ s, c.toNat < 256) →
    ∀ c ∈ escape .path s, c ≠ '?' ∧ c ≠ '#' ∧ 0x20 < c.toNat ∧ c.toNat ≠ 0x7f
  | [], _ => by simp [escape]
  | d :: s, hb => by
    have hs := escape_plain (s := s) (fun c hc => hb c (by simp [hc]))
    have hx : ∀ n < 16, upperHex n ≠ '?' ∧ upperHex n ≠ '#' ∧ 0x20 < (upperHex n).toNat ∧ (upperHex n).toNat ≠ 0x7f := by
      decide
    have hd := hb d (by simp)
    rw [escape]
    split
    · intro c hc
      simp only [List.mem_cons] at hc
      rcases hc with rfl | rfl | rfl | hc
      · decide
      · exact hx _ (by omega)
      · exact hx _ (by omega)
      · exact hs c hc
    · rename_i hn
      intro c hc
      rcases List.mem_cons.mp hc with rfl | hc
      · exact valid_plain (by simp [hn])
      · exact hs c hc

theorem shouldEscape_pct : shouldEscape .path '%' = true := by decide +kernel
theorem shouldEscape_slash : shouldEscape .path '/' = false := by decide +kernel

/-- What is escaped decodes to what it was. -/
theorem unescape_escape : ∀ {s : Str}, (∀ c ∈ s, c.toNat < 256) → unescape .path (escape .path s) = some s
  | [], _ => rfl
  | d :: s, hb => by
    have hs := unescape_escape (s := s) (fun c hc => hb c (by simp [hc]))
    have hd := hb d (by simp)
    rw [escape]
    split
    · have hx : ∀ n < 16, isHex (upperHex n) = true ∧ unhex (upperHex n) = n := by decide
      have h1 := hx (d.toNat / 16) (by omega)
      have h2 := hx (d.toNat % 16) (by omega)
      rw [unescape_path_pct h1.1 h2.1, hs, h1.2, h2.2, Nat.div_add_mod, Char.ofNat_toNat]
      rfl
    · rename_i hn
      have hne : d ≠ '%' := by rintro rfl; exact hn shouldEscape_pct
      rw [unescape_path_cons hne, hs]
      rfl

/-- Decoding gives bytes. -/
theorem unescape_bytes : ∀ {s x : Str}, (∀ c ∈ s, c.toNat < 256) → unescape .path s = some x →
    ∀ c ∈ x, c.toNat < 256
  | [], x, _, h => by
    simp only [unescape, Option.some.injEq] at h
    subst h
    simp
  | d :: s, x, hb, h => by
    by_cases hc : d = '%'
    · subst hc
      match s, h with
      | [], h => simp [unescape] at h
      | [a], h => simp [unescape] at h
      | a :: b :: s, h =>
        by_cases hab : isHex a = true ∧ isHex b = true
        · rw [unescape_path_pct hab.1 hab.2] at h
          cases hs : unescape .path s with
          | none => rw [hs] at h; simp at h
          | some y =>
            rw [hs] at h
            simp only [Option.map_some, Option.some.injEq] at h
            subst h
            have hu : ∀ c ∈ hexdig, unhex c < 16 := by decide
            have hn : ∀ n < 256, (Char.ofNat n).toNat < 256 := by decide +kernel
            have h1 := hu a (isHex_hexdig hab.1)
            have h2 := hu b (isHex_hexdig hab.2)
            intro c hc
            rcases List.mem_cons.mp hc with rfl | hc
            · exact hn _ (by omega)
            · exact unescape_bytes (fun c hc => hb c (by simp [hc])) hs c hc
        · rw [unescape.eq_def] at h
          have : (!(isHex a && isHex b)) = true := by
            cases ha : isHex a <;> cases hb : isHex b <;> simp_all
          simp [this] at h
    · rw [unescape_path_cons hc] at h
      cases hs : unescape .path s with
      | none => rw [hs] at h; simp at h
      | some y =>
        rw [hs] at h
        simp only [Option.map_some, Option.some.injEq] at h
        subst h
        intro c hc
        rcases List.mem_cons.mp hc with rfl | hc
        · exact hb _ (by simp)
        · exact unescape_bytes (fun c hc => hb c (by simp [hc])) hs c hc

/-- A path as it can stand in a URL: starts with a slash, decodes, ends where the query starts. -/
structure WirePath (p : Str) : Prop where
  slash : p.head? = some '/'
  plain : ∀ c ∈ p, c ≠ '?' ∧ c ≠ '#' ∧ 0x20 < c.toNat ∧ c.toNat ≠ 0x7f
  escapes : escapesOk p = true

theorem plain_ctl {p : Str} (h : ∀ c ∈ p, c ≠ '?' ∧ c ≠ '#' ∧ 0x20 < c.toNat ∧ c.toNat ≠ 0x7f) :
    containsCTL p = false := by
  rw [containsCTL, List.any_eq_false]
  intro c hc
  have := (h c hc).2.2
  simp only [Bool.or_eq_true, decide_eq_true_eq, not_or]
  omega

/-- What `EscapedPath` writes for a path that was set. -/
theorem escapedPath_wire {u v : Url} {p : Str} (hb : ∀ c ∈ '/' :: p, c.toNat < 256)
    (h : u.setPath ('/' :: p) = some v) : WirePath v.escapedPath := by
  unfold Url.setPath at h
  cases hd : unescape .path ('/' :: p) with
  | none => rw [hd] at h; cases h
  | some path =>
    rw [hd] at h
    obtain rfl := Option.some.inj h
    have hpb := unescape_bytes hb hd
    have hhead : ∃ y, path = '/' :: y := by
      rw [unescape_path_cons (by decide)] at hd
      cases hs : unescape .path p with
      | none => rw [hs] at hd; simp at hd
      | some y => rw [hs] at hd; exact ⟨y, (Option.some.inj hd).symm⟩
    have hne : path ≠ ['*'] := by
      obtain ⟨y, hy⟩ := hhead
      rw [hy]
      intro h0
      exact absurd (List.cons.inj h0).1 (by decide)
    have hesc : WirePath (escape .path path) := by
      refine ⟨?_, escape_plain hpb, ?_⟩
      · obtain ⟨y, rfl⟩ := hhead
        rw [escape, shouldEscape_slash]
        rfl
      · rw [← escapesOk_path, unescape_escape hpb]; rfl
    unfold Url.escapedPath
    dsimp only
    by_cases he : '/' :: p = escape .path path
    · rw [if_pos he, if_neg (by simp), if_neg hne]
      exact hesc
    · rw [if_neg he]
      split
      · rename_i hv
        refine ⟨rfl, ?_, ?_⟩
        · intro c hc
          have := hv.2.1
          rw [validEncoded, List.all_eq_true] at this
          exact valid_plain (this c hc)
        · rw [← escapesOk_path, hd]; rfl
      · exact hesc

/-- The part of a target from the question mark on, whatever it contains. -/
def RawQuery (q : Str) : Prop := (q = [] ∨ q.head? = some '?') ∧ containsCTL q = false

/-- The URI of an accepted target that starts with a slash: a path and the query of the target. -/
theorem target_wire {t : Str} {u : Url} (hb : ∀ c ∈ t, c.toNat < 256) (hs : t.head? = some '/')
    (h : parseRequestURI t = some u) :
    ∃ p q, WirePath p ∧ RawQuery q ∧ u.requestURI = p ++ q ∧ q = t.dropWhile (· ≠ '?') := by
  have hctl := parseRequestURI_ctl h
  match t, hs with
  | c :: t, hs =>
    obtain rfl : c = '/' := by simpa using hs
    rw [parseRequestURI_slash hctl] at h
    by_cases hq : '?' ∈ '/' :: t
    · obtain ⟨a, q, ha, he⟩ := exists_cut hq
      obtain ⟨a', rfl⟩ : ∃ a', a = '/' :: a' := by
        match a with
        | [] => exact absurd (List.cons.inj he).1 (by decide)
        | d :: a => exact ⟨a, by rw [(List.cons.inj he).1]⟩
      rw [he] at h hctl hb ⊢
      rw [splitQuery_some ha] at h
      dsimp only at h
      have hw := escapedPath_wire (fun c hc => hb c (by simp only [List.mem_append]; exact Or.inl hc)) h
      refine ⟨u.escapedPath, '?' :: q, hw, ⟨Or.inr rfl, ?_⟩, ?_, (dropWhile_sep ha q).symm⟩
      · rw [containsCTL_append, Bool.or_eq_false_iff] at hctl
        exact hctl.2
      · have hu : u.opaq = [] ∧ u.forceQuery = decide (q = []) ∧ u.rawQuery = q := by
          unfold Url.setPath at h
          split at h
          · cases h
          · obtain rfl := Option.some.inj h
            exact ⟨rfl, rfl, rfl⟩
        rw [requestURI_query hu.1, hu.2.1, hu.2.2, if_neg, if_pos]
        · by_cases hq : q = [] <;> simp [hq]
        · intro h0
          have := hw.slash
          rw [h0] at this
          cases this
    · rw [splitQuery_none hq] at h
      dsimp only at h
      have hw := escapedPath_wire hb h
      refine ⟨u.escapedPath, [], hw, ⟨Or.inl rfl, rfl⟩, ?_, ?_⟩
      · have hu : u.opaq = [] ∧ u.forceQuery = false ∧ u.rawQuery = [] := by
          unfold Url.setPath at h
          split at h
          · cases h
          · obtain rfl := Option.some.inj h
            exact ⟨rfl, rfl, rfl⟩
        rw [requestURI_query hu.1, hu.2.1, hu.2.2, if_neg, if_neg (by simp)]
        intro h0
        have := hw.slash
        rw [h0] at this
        cases this
      · rw [dropWhile_all]
        intro d hd
        simp only [decide_eq_true_eq]
        rintro rfl
        exact hq hd

/-! ## Parsing what was put together -/

theorem base_noFrag {sch h : Str} (hs : sch = "http".toList ∨ sch = "https".toList) (hh : HostName h) (n : Nat) :
    '#' ∉ sch ++ "://".toList ++ h ++ ":".toList ++ natToDec n := by
  have e : sch ++ "://".toList ++ h ++ ":".toList ++ natToDec n =
    sch ++ "://".toList ++ (h ++ ':' :: natToDec n) := by simp
  rw [e]
  intro hm
  simp only [List.mem_append] at hm
  rcases hm with (hm | hm) | hm
  · rcases hs with rfl | rfl <;> revert hm <;> decide
  · revert hm; decide
  · exact (nameChars_ok _ (authority_chars hh n _ (List.mem_append.mpr hm))).2.2.2.1 rfl

theorem splitQuery_raw {p q : Str} (hp : '?' ∉ p) (hq : q = [] ∨ q.head? = some '?') :
    (splitQuery (p ++ q)).2.2 = p := by
  match q, hq with
  | [], _ => rw [List.append_nil, splitQuery_none hp]
  | c :: q, hq =>
    obtain rfl : c = '?' := by simpa using hq
    rw [splitQuery_some hp]

/-- Without fragment. -/
theorem parseUrl_wire {sch h : Str} (hs : sch = "http".toList ∨ sch = "https".toList) (hh : HostName h) (n : Nat)
    {p q : Str} (hp : WirePath p) (hq : RawQuery q) :
    (parseUrl false (sch ++ "://".toList ++ h ++ ":".toList ++ natToDec n ++ (p ++ q))).isSome = true := by
  have hnq : '?' ∉ p := fun hm => (hp.plain _ hm).1 rfl
  have hsp := splitQuery_raw hnq hq.1
  rw [parse_base hs hh n (by rw [containsCTL_append, plain_ctl hp.plain, hq.2]; rfl)
    (by rw [hsp]; exact Or.inr hp.slash), hsp]
  unfold Url.setPath
  have := hp.escapes
  rw [← escapesOk_path] at this
  obtain ⟨path, hpath⟩ := Option.isSome_iff_exists.mp this
  rw [hpath]
  rfl

/-- The fragment of the query decides. -/
theorem parse_wire {sch h : Str} (hs : sch = "http".toList ∨ sch = "https".toList) (hh : HostName h) (n : Nat)
    {p q : Str} (hp : WirePath p) (hq : RawQuery q) :
    (Url.parse (sch ++ "://".toList ++ h ++ ":".toList ++ natToDec n ++ (p ++ q))).isSome =
      escapesOk (q.dropWhile (· ≠ '#')) := by
  have hb := base_noFrag hs hh n
  have hpn : '#' ∉ p := fun hm => (hp.plain _ hm).2.1 rfl
  unfold Url.parse
  by_cases hf : '#' ∈ q
  · obtain ⟨a, f, ha, rfl⟩ := exists_cut hf
    have hq' : RawQuery a := by
      refine ⟨?_, ?_⟩
      · match a, hq.1 with
        | [], _ => exact Or.inl rfl
        | c :: a, h => exact Or.inr (by simpa using h)
      · have := hq.2
        rw [containsCTL_append, Bool.or_eq_false_iff] at this
        exact this.1
    rw [← List.append_assoc p, ← List.append_assoc, cutAt_sep (by simp only [List.mem_append, not_or] at hb ⊢; exact ⟨hb, hpn, ha⟩),
      dropWhile_sep ha]
    obtain ⟨v, hv⟩ := Option.isSome_iff_exists.mp (parseUrl_wire hs hh n hp hq')
    simp only [hv]
    rw [escapesOk.eq_def]
    simp only [show ('#' : Char) ≠ '%' by decide, if_false]
    rw [← unescape_isSome (m := .fragment) (.inr (.inl rfl))]
    cases hu : unescape Enc.fragment f <;> simp
  · rw [cutAt_none (by simp only [List.mem_append, not_or] at hb ⊢; exact ⟨hb, hpn, hf⟩), dropWhile_all]
    · obtain ⟨v, hv⟩ := Option.isSome_iff_exists.mp (parseUrl_wire hs hh n hp hq)
      simp only [hv]
      rfl
    · intro d hd
      simp only [decide_eq_true_eq]
      rintro rfl
      exact hf hd

/-- Replacing a path by another, wherever it is found first. -/
theorem replace_wire {p q w t : Str} (hp : WirePath p) (hq : RawQuery q) (hw : pathText w = true)
    (hw1 : w.head? = some '/') (ht : pathText t = true) (ht1 : t.head? = some '/') :
    ∃ p' q', WirePath p' ∧ RawQuery q' ∧ replace1 (p ++ q) w t = p' ++ q' ∧ ('#' ∉ q → '#' ∉ q') := by
  have htn := pathText_no ht
  have hwn := pathText_no hw
  have htp : ∀ c ∈ t, c ≠ '?' ∧ c ≠ '#' ∧ 0x20 < c.toNat ∧ c.toNat ≠ 0x7f :=
    fun c hc => pathChars_plain c (pathText_mem ht c hc)
  unfold replace1
  cases hi : index (p ++ q) w with
  | none => exact ⟨p, q, hp, hq, rfl, id⟩
  | some i =>
    obtain ⟨a, b, he, hl⟩ := index_some hi
    dsimp only
    have hres : (p ++ q).take i ++ t ++ (p ++ q).drop (i + w.length) = a ++ t ++ b := by
      rw [he, ← hl]
      rw [List.append_assoc a w b, List.take_left, ← List.append_assoc, ← List.length_append, List.drop_left]
    rw [hres]
    -- the occurrence inside the path
    have inside : ∀ c, p = a ++ w ++ c → b = c ++ q → ∃ p' q', WirePath p' ∧ RawQuery q' ∧
        a ++ t ++ b = p' ++ q' ∧ ('#' ∉ q → '#' ∉ q') := by
      intro c hpc hbc
      refine ⟨a ++ t ++ c, q, ⟨?_, ?_, ?_⟩, hq, by rw [hbc]; simp, id⟩
      · match a, hpc with
        | [], _ =>
          match t, ht1 with
          | d :: t, ht1 => simpa using ht1
        | d :: a, hpc =>
          have := hp.slash
          rw [hpc] at this
          simpa using this
      · intro d hd
        simp only [List.mem_append] at hd
        rcases hd with (hd | hd) | hd
        · exact hp.plain d (by rw [hpc]; simp [hd])
        · exact htp d hd
        · exact hp.plain d (by rw [hpc]; simp [hd])
      · have hesc := hp.escapes
        rw [hpc] at hesc
        have ha : escapesOk a = true := by
          match w, hw1 with
          | d :: w, hw1 =>
            obtain rfl : d = '/' := by simpa using hw1
            rw [List.append_assoc, List.cons_append] at hesc
            exact escapesOk_before _ hesc
        rw [List.append_assoc, escapesOk_append _ ha, escapesOk_append _ (pathText_escapes hw)] at hesc
        rw [List.append_assoc, escapesOk_append _ ha, escapesOk_append _ (pathText_escapes ht), hesc]
    rcases List.append_eq_append_iff.mp he with ⟨c, h1, h2⟩ | ⟨c, h1, h2⟩
    · -- a ++ w = p ++ c, q = c ++ b
      match c, h1, h2 with
      | [], h1, h2 => exact inside [] (by simpa using h1.symm) (by simpa using h2.symm)
      | d :: c, h1, h2 =>
        have hd : d = '?' := by
          rcases hq.1 with h0 | h0
          · rw [h0] at h2; cases h2
          · rw [h2] at h0; simpa using h0
        subst hd
        rcases List.append_eq_append_iff.mp h1 with ⟨e, h3, h4⟩ | ⟨e, h3, h4⟩
        · -- p = a ++ e, w = e ++ '?' :: c
          exact absurd (by rw [h4]; simp) hwn.1
        · -- a = p ++ e, '?' :: c = e ++ w
          obtain ⟨e', rfl⟩ : ∃ e', e = '?' :: e' := by
            match e with
            | [] =>
              rw [List.nil_append] at h4
              rw [← h4] at hw1
              exact absurd hw1 (by simp)
            | x :: e => exact ⟨e, by rw [(List.cons.inj h4).1]⟩
          have hqe : q = '?' :: e' ++ w ++ b := by rw [h2, h4]
          refine ⟨p, '?' :: e' ++ t ++ b, hp, ⟨Or.inr rfl, ?_⟩, by rw [h3]; simp, ?_⟩
          · have := hq.2
            rw [hqe, containsCTL_append, containsCTL_append, Bool.or_eq_false_iff, Bool.or_eq_false_iff] at this
            rw [containsCTL_append, containsCTL_append, this.1.1, this.2, htn.2.2]
            rfl
          · intro hn
            rw [hqe] at hn
            simp only [List.mem_append, not_or] at hn ⊢
            exact ⟨⟨hn.1.1, htn.2.1⟩, hn.2⟩
    · -- p = a ++ w ++ c, b = c ++ q
      exact inside c h1 h2

end J8a.Go

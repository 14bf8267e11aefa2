import Verif.Lemmas.Message
import Verif.Lemmas.Num
import Verif.Lemmas.Utf8
import Verif.Model.WireBytes
/-!
# Lemmas about the bytes of a request
-/
namespace J8a
open Go

/-! ## Spaces in targets -/

theorem ofNat_ne_space {n : Nat} (h : n ≠ 32) : Char.ofNat n ≠ ' ' := by
  intro he
  by_cases hv : n.isValidChar
  · have : (Char.ofNat n).toNat = n := by
      simp [Char.ofNat, hv, Char.toNat, Char.ofNatAux]
    rw [he] at this
    exact h this.symm
  · rw [Char.ofNat, dif_neg hv] at he
    exact absurd he (by decide)

theorem upperHex_ne_space (n : Nat) : upperHex n ≠ ' ' := by
  unfold upperHex
  split
  · exact ofNat_ne_space (by simp only [show '0'.toNat = 48 from rfl]; omega)
  · exact ofNat_ne_space (by simp only [show 'A'.toNat = 65 from rfl]; omega)

theorem escape_no_space (s : Str) : ' ' ∉ escape .path s := by
  induction s with
  | nil => simp [escape]
  | cons c s ih =>
    unfold escape
    split
    · intro hm
      simp only [List.mem_cons] at hm
      rcases hm with h | h | h | h
      · exact absurd h (by decide)
      · exact upperHex_ne_space _ h.symm
      · exact upperHex_ne_space _ h.symm
      · exact ih h
    · rename_i hc
      intro hm
      rcases List.mem_cons.1 hm with h | h
      · subst h; exact hc (by decide)
      · exact ih h

theorem escapedPath_no_space (u : Url) : ' ' ∉ u.escapedPath := by
  unfold Url.escapedPath
  split
  · rename_i h
    intro hm
    have := List.all_eq_true.1 h.2.1 _ hm
    exact absurd this (by decide)
  · split
    · decide
    · exact escape_no_space _

theorem mem_cutAt_fst {c d : Char} {s : Str} (h : d ∈ (cutAt c s).1) : d ∈ s :=
  (List.takeWhile_sublist _).subset h

theorem mem_cutAt_snd {c d : Char} {s : Str} (h : d ∈ (cutAt c s).2) : d ∈ s :=
  (List.dropWhile_sublist _).subset (List.mem_of_mem_tail h)

theorem getScheme_mem {raw : Str} : ∀ {s acc a b : Str} {d : Char}, (∀ x ∈ acc, x ∈ raw) →
    (∀ x ∈ s, x ∈ raw) → getScheme raw acc s = some (a, b) → d ∈ a ∨ d ∈ b → d ∈ raw := by
  intro s
  induction s with
  | nil =>
    intro acc a b d _ _ h hd
    simp only [getScheme, Option.some.injEq, Prod.mk.injEq] at h
    obtain ⟨rfl, rfl⟩ := h
    simpa using hd
  | cons c s ih =>
    intro acc a b d h1 h2 h hd
    have hs : ∀ x ∈ s, x ∈ raw := fun x hx => h2 x (by simp [hx])
    have hacc : ∀ x ∈ c :: acc, x ∈ raw := by
      intro x hx
      rcases List.mem_cons.1 hx with rfl | hx
      · exact h2 _ (by simp)
      · exact h1 x hx
    unfold getScheme at h
    split at h
    · exact ih hacc hs h hd
    · split at h
      · split at h
        · simp only [Option.some.injEq, Prod.mk.injEq] at h
          obtain ⟨rfl, rfl⟩ := h
          simpa using hd
        · exact ih hacc hs h hd
      · split at h
        · split at h
          · cases h
          · simp only [Option.some.injEq, Prod.mk.injEq] at h
            obtain ⟨rfl, rfl⟩ := h
            rcases hd with hd | hd
            · exact h1 _ (List.mem_reverse.1 hd)
            · exact hs _ hd
        · simp only [Option.some.injEq, Prod.mk.injEq] at h
          obtain ⟨rfl, rfl⟩ := h
          simpa using hd

theorem splitQuery_mem {s : Str} {d : Char} (h : d ∈ (splitQuery s).2.1 ∨ d ∈ (splitQuery s).2.2) : d ∈ s := by
  unfold splitQuery at h
  split at h
  · simp only [List.not_mem_nil, false_or] at h
    exact List.dropLast_subset _ h
  · rcases h with h | h
    · exact mem_cutAt_snd h
    · exact mem_cutAt_fst h

theorem setPath_fields {u v : Url} {p : Str} (h : u.setPath p = some v) :
    v.rawQuery = u.rawQuery ∧ v.opaq = u.opaq ∧ v.scheme = u.scheme ∧ v.host = u.host := by
  unfold Url.setPath at h
  split at h
  · cases h
  · cases h; exact ⟨rfl, rfl, rfl, rfl⟩

theorem parseRest_fields {b : Bool} {u v : Url} {rest : Str} (h : parseRest b u rest = some v) :
    v.rawQuery = u.rawQuery ∧ v.opaq = u.opaq ∧ v.scheme = u.scheme := by
  unfold parseRest at h
  split at h
  · split at h
    · cases h
    · have := setPath_fields h
      exact ⟨this.1, this.2.1, this.2.2.1⟩
  · have := setPath_fields h
    exact ⟨this.1, this.2.1, this.2.2.1⟩

theorem toLower_space {s : Str} (h : ' ' ∉ s) : ' ' ∉ toLower s := by
  intro hm
  obtain ⟨c, hc, he⟩ := List.mem_map.1 hm
  have : c = ' ' := by
    unfold Char.toLower at he
    split at he
    · rename_i hu
      have := congrArg Char.toNat he
      have h1 : 65 ≤ c.toNat := hu.1
      have h2 : c.toNat ≤ 90 := hu.2
      exfalso
      have key : ∀ k : Fin 26, (Char.ofNat (65 + k.1)).toLower ≠ ' ' := by decide
      have hk := key ⟨c.toNat - 65, by omega⟩
      simp only [Nat.add_sub_cancel' h1, Char.ofNat_toNat] at hk
      apply hk
      unfold Char.toLower
      rw [dif_pos hu]
      exact he
    · exact he
  exact h (this ▸ hc)

theorem parseUrl_no_space {b : Bool} {raw : Str} {u : Url} (hs : ' ' ∉ raw) (h : parseUrl b raw = some u) :
    ' ' ∉ u.rawQuery ∧ ' ' ∉ u.opaq ∧ ' ' ∉ u.scheme := by
  unfold parseUrl at h
  split at h
  · cases h
  · split at h
    · cases h
    · split at h
      · cases h; simp
      · split at h
        · cases h
        · rename_i scheme rest hg
          have hsch : ' ' ∉ scheme := fun hm => hs (getScheme_mem (by simp) (fun _ hx => hx) hg (.inl hm))
          have hrest : ' ' ∉ rest := fun hm => hs (getScheme_mem (by simp) (fun _ hx => hx) hg (.inr hm))
          have hq : ' ' ∉ (splitQuery rest).2.1 := fun hm => hrest (splitQuery_mem (.inl hm))
          have hr : ' ' ∉ (splitQuery rest).2.2 := fun hm => hrest (splitQuery_mem (.inr hm))
          simp only at h
          split at h
          · obtain ⟨h1, h2, h3⟩ := parseRest_fields h
            rw [h1, h2, h3]
            exact ⟨hq, by simp, toLower_space hsch⟩
          · split at h
            · cases h
              exact ⟨hq, hr, toLower_space hsch⟩
            · split at h
              · cases h
              · split at h
                · cases h
                · obtain ⟨h1, h2, h3⟩ := parseRest_fields h
                  rw [h1, h2, h3]
                  exact ⟨hq, by simp, toLower_space hsch⟩

theorem requestURI_no_space {u : Url} (h : ' ' ∉ u.rawQuery ∧ ' ' ∉ u.opaq ∧ ' ' ∉ u.scheme) :
    ' ' ∉ u.requestURI := by
  obtain ⟨h1, h2, h3⟩ := h
  have hp := escapedPath_no_space u
  unfold Url.requestURI
  intro hm
  rcases List.mem_append.1 hm with hm | hm
  · split at hm
    · split at hm
      · exact absurd hm (by decide)
      · exact hp hm
    · split at hm
      · rcases List.mem_append.1 hm with hm | hm
        · exact h3 hm
        · rcases List.mem_cons.1 hm with hm | hm
          · exact absurd hm (by decide)
          · exact h2 hm
      · exact h2 hm
  · split at hm
    · rcases List.mem_cons.1 hm with hm | hm
      · exact absurd hm (by decide)
      · exact h1 hm
    · simp at hm

/-! ## Hosts -/

theorem mem_beforeLast {c d : Char} {s : Str} (h : d ∈ beforeLast c s) : d ∈ s := by
  unfold beforeLast at h
  exact List.mem_reverse.1 ((List.dropWhile_sublist _).subset (List.mem_of_mem_tail (List.mem_reverse.1 h)))

theorem mem_afterLast {c d : Char} {s : Str} (h : d ∈ afterLast c s) : d ∈ s := by
  unfold afterLast at h
  exact List.mem_reverse.1 ((List.takeWhile_sublist _).subset (List.mem_reverse.1 h))

theorem removeZone_mem {h : Str} {c : Char} (hc : c ∈ removeZone h) : c ∈ h ∨ c = ']' := by
  unfold removeZone at hc
  split at hc
  · rcases List.mem_append.1 hc with hc | hc
    · exact .inl (mem_beforeLast (mem_beforeLast hc))
    · rcases List.mem_cons.1 hc with hc | hc
      · exact .inr hc
      · exact .inl (mem_afterLast hc)
  · exact .inl hc

/-- No control characters in a host. -/
def Visible (c : Char) : Prop := 0x20 ≤ c.toNat ∧ c.toNat ≠ 0x7f

theorem unhex_small (a : Char) : unhex a < 16 := by
  unfold unhex
  split
  · rename_i h
    simp only [Bool.and_eq_true, decide_eq_true_eq] at h
    have h2 : a.toNat ≤ 57 := h.2
    simp only [show '0'.toNat = 48 from rfl]; omega
  · split
    · rename_i h
      simp only [Bool.and_eq_true, decide_eq_true_eq] at h
      have h2 : a.toNat ≤ 102 := h.2
      simp only [show 'a'.toNat = 97 from rfl]; omega
    · split
      · rename_i h
        simp only [Bool.and_eq_true, decide_eq_true_eq] at h
        have h2 : a.toNat ≤ 70 := h.2
        simp only [show 'A'.toNat = 65 from rfl]; omega
      · omega

theorem unescape_visible {m : Enc} (hm : m = .host ∨ m = .zone) : ∀ {s x : Str}, (∀ c ∈ s, Visible c) →
    unescape m s = some x → ∀ c ∈ x, Visible c
  | [], x, _, h => by
    simp only [unescape, Option.some.injEq] at h
    subst h; simp
  | c :: r, x, hv, h => by
    rw [unescape.eq_def] at h
    simp only at h
    split at h
    · split at h
      · rename_i a b r'
        split at h
        · cases h
        · rename_i hhex
          split at h
          · cases h
          · rename_i h1
            split at h
            · cases h
            · rename_i h2
              obtain ⟨y, hy, rfl⟩ := Option.map_eq_some_iff.1 h
              have ih := unescape_visible hm (s := r') (fun d hd => hv d (by simp [hd])) hy
              intro d hd
              rcases List.mem_cons.1 hd with rfl | hd
              · have ha := unhex_small a
                have hb := unhex_small b
                have hn : (Char.ofNat (16 * unhex a + unhex b)).toNat = 16 * unhex a + unhex b :=
                  ofNat_toNat_lt (by omega)
                by_cases h25 : a = '2' ∧ b = '5'
                · rw [h25.1, h25.2]; unfold Visible; decide
                · rcases hm with rfl | rfl
                  · have : 8 ≤ unhex a := by
                      simp only [true_and, h25, not_false_eq_true, and_true] at h1
                      omega
                    unfold Visible
                    rw [hn]; omega
                  · simp only [true_and, h25, not_false_eq_true, Bool.not_eq_true, not_and] at h2
                    by_cases hsp : Char.ofNat (16 * unhex a + unhex b) = ' '
                    · rw [hsp]; unfold Visible; decide
                    · have hes := h2 hsp
                      have key : ∀ k : Fin 256, shouldEscape .host (Char.ofNat k.1) = false →
                          0x20 ≤ k.1 ∧ k.1 ≠ 0x7f := by decide +kernel
                      have := key ⟨16 * unhex a + unhex b, by omega⟩ hes
                      unfold Visible
                      rw [hn]; exact this
              · exact ih d hd
      · cases h
    · split at h
      · cases h
      · obtain ⟨y, hy, rfl⟩ := Option.map_eq_some_iff.1 h
        have ih := unescape_visible hm (s := r) (fun d hd => hv d (by simp [hd])) hy
        intro d hd
        rcases List.mem_cons.1 hd with rfl | hd
        · exact hv _ (by simp)
        · exact ih d hd

theorem parseHost_visible {h x : Str} (hv : ∀ c ∈ h, Visible c) (hp : parseHost h = some x) :
    ∀ c ∈ x, Visible c := by
  have hb : ∀ c ∈ ']' :: afterLast ']' h, Visible c := by
    intro c hc
    rcases List.mem_cons.1 hc with rfl | hc
    · unfold Visible; decide
    · exact hv c (mem_afterLast hc)
  unfold parseHost at hp
  split at hp
  · split at hp
    · split at hp
      · split at hp
        · split at hp
          · rename_i a b c ha hb' hc'
            cases hp
            intro d hd
            rcases List.mem_append.1 hd with hd | hd
            · rcases List.mem_append.1 hd with hd | hd
              · exact unescape_visible (.inl rfl) (fun e he => hv e (List.mem_of_mem_take he)) ha d hd
              · exact unescape_visible (.inr rfl)
                  (fun e he => hv e (mem_beforeLast (List.mem_of_mem_drop he))) hb' d hd
            · exact unescape_visible (.inl rfl) hb hc' d hd
          · cases hp
        · exact unescape_visible (.inl rfl) hv hp
      · cases hp
    · cases hp
  · split at hp
    · split at hp
      · exact unescape_visible (.inl rfl) hv hp
      · cases hp
    · exact unescape_visible (.inl rfl) hv hp

theorem parseRest_visible {b : Bool} {u v : Url} {rest : Str} (hu : ∀ c ∈ u.host, Visible c)
    (hr : ∀ c ∈ rest, Visible c) (h : parseRest b u rest = some v) : ∀ c ∈ v.host, Visible c := by
  unfold parseRest at h
  split at h
  · split at h
    · cases h
    · rename_i user hst ha
      rw [(setPath_fields h).2.2.2]
      have hsub : ∀ c ∈ (rest.drop 2).takeWhile (· ≠ '/'), Visible c := fun c hc =>
        hr c (List.mem_of_mem_drop ((List.takeWhile_sublist _).subset hc))
      unfold parseAuthority at ha
      split at ha
      · split at ha
        · cases ha
        · rename_i hst' hp
          simp only at ha
          split at ha
          · cases ha
          · split at ha
            · cases ha
              exact parseHost_visible (fun c hc => hsub c (mem_afterLast hc)) hp
            · cases ha
      · obtain ⟨y, hy, he⟩ := Option.map_eq_some_iff.1 ha
        cases he
        exact parseHost_visible hsub hy
  · rw [(setPath_fields h).2.2.2]; exact hu

theorem parseUrl_visible {b : Bool} {raw : Str} {u : Url} (h : parseUrl b raw = some u) :
    ∀ c ∈ u.host, Visible c := by
  unfold parseUrl at h
  split at h
  · cases h
  · rename_i hctl
    have hraw : ∀ c ∈ raw, Visible c := by
      intro c hc
      unfold Visible
      simp only [containsCTL, Bool.not_eq_true, List.any_eq_false] at hctl
      have := hctl c hc
      simp at this
      omega
    split at h
    · cases h
    · split at h
      · cases h; simp
      · split at h
        · cases h
        · rename_i scheme rest hg
          have hrest : ∀ c ∈ (splitQuery rest).2.2, Visible c := fun c hc =>
            hraw c (getScheme_mem (by simp) (fun _ hx => hx) hg (.inr (splitQuery_mem (.inr hc))))
          simp only at h
          split at h
          · exact parseRest_visible (by simp) hrest h
          · split at h
            · cases h; simp
            · split at h
              · cases h
              · split at h
                · cases h
                · exact parseRest_visible (by simp) hrest h

theorem urlParse_some {raw : Str} {u : Url} (h : Url.parse raw = some u) :
    parseUrl false (cutAt '#' raw).1 = some u := by
  unfold Url.parse at h
  split at h
  · cases h
  · rename_i v hv
    split at h
    · cases h; exact hv
    · cases h

theorem sentHost_chars {q : UpReq} {h : Str} (hh : sentHost q = some h) :
    ∀ c ∈ h, Visible c ∧ c ≠ ' ' := by
  unfold sentHost wireHost at hh
  simp only [Option.map_map] at hh
  obtain ⟨u, hu, rfl⟩ := Option.map_eq_some_iff.1 hh
  have hv := parseUrl_visible (urlParse_some hu)
  intro c hc
  rcases removeZone_mem hc with hc | rfl
  · have hm : c ∈ u.host := by
      have := (List.takeWhile_sublist _).subset hc
      simp only at this
      split at this
      · exact List.dropLast_subset _ this
      · exact this
    refine ⟨hv c hm, ?_⟩
    have := List.all_eq_true.1 (List.all_takeWhile (p := fun c => c ≠ '/' && c ≠ ' ')) c hc
    simp only [Bool.and_eq_true, decide_eq_true_eq] at this
    exact this.2
  · unfold Visible; decide

/-! ## Fields -/

theorem token_of_char {c : Char} (h : isTokenChar c = true) : c ∈ tchars := by
  have hlt : c.toNat < 128 := by
    simp only [isTokenChar, Bool.or_eq_true, Char.isAlphanum, Char.isAlpha, Char.isUpper, Char.isLower,
      Char.isDigit, Bool.and_eq_true, decide_eq_true_eq] at h
    rcases h with ((h | h) | h) | h
    · have : c.toNat ≤ 90 := h.2
      omega
    · have : c.toNat ≤ 122 := h.2
      omega
    · have : c.toNat ≤ 57 := h.2
      omega
    · have key : ∀ d ∈ "!#$%&'*+-.^_`|~".toList, d.toNat < 128 := by decide
      exact key c h
  have key : ∀ k : Fin 128, isTokenChar (Char.ofNat k.1) = true → Char.ofNat k.1 ∈ tchars := by
    decide +kernel
  have := key ⟨c.toNat, hlt⟩
  simp only [Char.ofNat_toNat] at this
  exact this h

theorem token_of_valid {s : Str} (h : validFieldName s = true) : Token s := by
  simp only [validFieldName, Bool.and_eq_true, decide_eq_true_eq] at h
  exact ⟨h.1, fun c hc => token_of_char (List.all_eq_true.1 h.2 c hc)⟩

/-- The characters of a field value. -/
def FieldText (s : Str) : Prop := ∀ c ∈ s, c = '\t' ∨ (0x20 ≤ c.toNat ∧ c.toNat ≠ 0x7f)

theorem fieldText_of_valid {s : Str} (h : validFieldValue s = true) : FieldText s := by
  intro c hc
  have := List.all_eq_true.1 h c hc
  simp only [Bool.not_eq_true', Bool.and_eq_false_iff, Bool.or_eq_false_iff, decide_eq_false_iff_not,
    Bool.not_eq_false', Bool.or_eq_true, decide_eq_true_eq] at this
  rcases this with h | h | h
  · exact .inr ⟨by omega, h.2⟩
  · subst h; exact .inr (by decide)
  · exact .inl h

theorem trim_split (v : Str) : ∃ w1 w2, Ows w1 ∧ Ows w2 ∧ v = w1 ++ (trimOws v ++ w2) ∧
    (∀ c, (trimOws v).head? = some c → c ≠ ' ' ∧ c ≠ '\t') ∧
    (∀ c, (trimOws v).getLast? = some c → c ≠ ' ' ∧ c ≠ '\t') := by
  have hws : ∀ s : Str, Ows (s.takeWhile isOws) := by
    intro s c hc
    have := List.all_eq_true.1 (List.all_takeWhile (p := isOws) (l := s)) c hc
    simpa [isOws] using this
  have hhead : ∀ s : Str, ∀ c, (s.dropWhile isOws).head? = some c → c ≠ ' ' ∧ c ≠ '\t' := by
    intro s c hc
    have := List.head?_dropWhile_not isOws s
    rw [hc] at this
    simpa [isOws] using this
  refine ⟨v.takeWhile isOws, ((v.dropWhile isOws).reverse.takeWhile isOws).reverse, hws v, ?_, ?_, ?_, ?_⟩
  · intro c hc
    exact hws _ c (List.mem_reverse.1 hc)
  · unfold trimOws
    rw [← List.reverse_append, List.takeWhile_append_dropWhile, List.reverse_reverse,
      List.takeWhile_append_dropWhile]
  · intro c hc
    apply hhead v c
    have hsplit : v.dropWhile isOws = trimOws v ++
        ((v.dropWhile isOws).reverse.takeWhile isOws).reverse := by
      unfold trimOws
      rw [← List.reverse_append, List.takeWhile_append_dropWhile, List.reverse_reverse]
    rw [hsplit, List.head?_append, hc]; rfl
  · intro c hc
    unfold trimOws at hc
    rw [List.getLast?_reverse] at hc
    exact hhead _ c hc

theorem fieldLine_write {name v : Str} (hn : Token name) (hv : FieldText v) :
    FieldLine (name ++ ": ".toList ++ v) (name, trimOws v) := by
  obtain ⟨w1, w2, h1, h2, e, hf, hl⟩ := trim_split v
  refine ⟨hn, ?_, hf, hl, ' ' :: w1, w2, ?_, h2, ?_⟩
  · intro c hc
    apply hv c
    rw [e]; simp [hc]
  · intro c hc
    rcases List.mem_cons.1 hc with rfl | hc
    · exact .inl rfl
    · exact h1 c hc
  · conv => lhs; rw [e]
    simp

theorem newline_id {v : Str} (h : FieldText v) : newlineToSpace v = v := by
  unfold newlineToSpace
  conv => rhs; rw [← List.map_id v]
  apply List.map_congr_left
  intro c hc
  rw [if_neg]
  · rfl
  · rintro (rfl | rfl) <;> (have := h _ hc; revert this; decide)

theorem dropWhile_congr' {p q : Char → Bool} : ∀ {s : Str}, (∀ c ∈ s, p c = q c) → s.dropWhile p = s.dropWhile q
  | [], _ => rfl
  | c :: s, h => by
    simp only [List.dropWhile_cons, h c (by simp)]
    rw [dropWhile_congr' (s := s) (fun d hd => h d (by simp [hd]))]

theorem trim_eq {v : Str} (h : FieldText v) : trimString v = trimOws v := by
  have hp : ∀ c ∈ v, isASCIISpace c = isOws c := by
    intro c hc
    have h1 : c ≠ '\n' := by rintro rfl; have := h _ hc; revert this; decide
    have h2 : c ≠ '\r' := by rintro rfl; have := h _ hc; revert this; decide
    simp [isASCIISpace, isOws, h1, h2]
  unfold trimString trimOws
  rw [dropWhile_congr' hp, dropWhile_congr' (p := isASCIISpace) (q := isOws)]
  intro c hc
  exact hp c ((List.dropWhile_sublist _).subset (List.mem_reverse.1 hc))

theorem trimOws_text {v : Str} (h : FieldText v) : FieldText (trimOws v) := by
  obtain ⟨w1, w2, _, _, e, _⟩ := trim_split v
  intro c hc
  exact h c (by rw [e]; simp [hc])

theorem trimOws_idem (v : Str) : trimOws (trimOws v) = trimOws v := by
  obtain ⟨w1, w2, h1, h2, e, hf, hl⟩ := trim_split v
  have := trimOws_value (w1 := []) (w2 := []) (v := trimOws v) (by simp [Ows]) (by simp [Ows]) hf hl
  simpa using this

end J8a

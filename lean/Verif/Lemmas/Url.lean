import Verif.Go.Url
import Verif.Spec.Uri
import Verif.Lemmas.Str
/-!
# Lemmas about package `net/url`
-/
namespace J8a.Go
open J8a.Uri

/-! ## Decoding -/

theorem unescape_path_cons {c : Char} (h : c ≠ '%') (r : Str) :
    unescape .path (c :: r) = (unescape .path r).map (c :: ·) := by
  rw [unescape.eq_def]
  simp [h]

theorem unescape_path_pct {a b : Char} (ha : isHex a = true) (hb : isHex b = true) (r : Str) :
    unescape .path ('%' :: a :: b :: r) =
      (unescape .path r).map (Char.ofNat (16 * unhex a + unhex b) :: ·) := by
  rw [unescape.eq_def]
  simp [ha, hb]

/-- A string is read in front of one that decodes. -/
theorem unescape_path_append : ∀ {s x : Str} (r : Str), unescape .path s = some x →
    unescape .path (s ++ r) = (unescape .path r).map (x ++ ·)
  | [], x, r, h => by
    simp only [unescape, Option.some.injEq] at h
    subst h
    cases h : unescape .path r <;> simp [h]
  | c :: s, x, r, h => by
    by_cases hc : c = '%'
    · subst hc
      match s, h with
      | [], h => simp [unescape] at h
      | [a], h => simp [unescape] at h
      | a :: b :: s, h =>
        by_cases hab : isHex a = true ∧ isHex b = true
        · rw [unescape_path_pct hab.1 hab.2] at h
          cases hs : unescape .path s with
          | none => rw [hs] at h; simp at h
          | some y =>
            rw [hs] at h
            simp only [Option.map_some, Option.some.injEq] at h
            subst h
            rw [List.cons_append, List.cons_append, List.cons_append, unescape_path_pct hab.1 hab.2,
              unescape_path_append r hs, Option.map_map]
            rfl
        · rw [unescape.eq_def] at h
          have : (!(isHex a && isHex b)) = true := by
            cases ha : isHex a <;> cases hb : isHex b <;> simp_all
          simp [this] at h
    · rw [unescape_path_cons hc] at h
      cases hs : unescape .path s with
      | none => rw [hs] at h; simp at h
      | some y =>
        rw [hs] at h
        simp only [Option.map_some, Option.some.injEq] at h
        subst h
        rw [List.cons_append, unescape_path_cons hc, unescape_path_append r hs, Option.map_map]
        rfl

/-- What stands in front of a slash decodes by itself. -/
theorem unescape_path_before : ∀ {s : Str} (r : Str), (unescape .path (s ++ '/' :: r)).isSome = true →
    (unescape .path s).isSome = true
  | [], _, _ => rfl
  | c :: s, r, h => by
    by_cases hc : c = '%'
    · subst hc
      match s, h with
      | [], h =>
        exfalso
        match r, h with
        | [], h => simp [unescape] at h
        | b :: r, h =>
          rw [List.cons_append, List.nil_append, unescape.eq_def] at h
          simp [show isHex '/' = false from rfl] at h
      | [a], h =>
        exfalso
        rw [List.cons_append, List.cons_append, List.nil_append, unescape.eq_def] at h
        simp [show isHex '/' = false from rfl] at h
      | a :: b :: s, h =>
        by_cases hab : isHex a = true ∧ isHex b = true
        · rw [List.cons_append, List.cons_append, List.cons_append, unescape_path_pct hab.1 hab.2,
            Option.isSome_map] at h
          rw [unescape_path_pct hab.1 hab.2, Option.isSome_map]
          exact unescape_path_before r h
        · rw [List.cons_append, unescape.eq_def] at h
          have : (!(isHex a && isHex b)) = true := by
            cases ha : isHex a <;> cases hb : isHex b <;> simp_all
          simp [this] at h
    · rw [List.cons_append, unescape_path_cons hc, Option.isSome_map] at h
      rw [unescape_path_cons hc, Option.isSome_map]
      exact unescape_path_before r h

theorem hexdig_isHex {c : Char} (h : c ∈ hexdig) : isHex c = true := by
  revert c; decide

/-- Text in the syntax of paths decodes. -/
theorem pathText_decodes : ∀ {p : Str}, pathText p = true → (unescape .path p).isSome = true
  | [], _ => rfl
  | c :: r, h => by
    by_cases hc : c = '%'
    · subst hc
      match r, h with
      | [], h => simp [pathText] at h
      | [a], h => simp [pathText] at h
      | a :: b :: r, h =>
        simp only [pathText, if_true, Bool.and_eq_true, decide_eq_true_eq] at h
        rw [unescape_path_pct (hexdig_isHex h.1.1) (hexdig_isHex h.1.2), Option.isSome_map]
        exact pathText_decodes h.2
    · rw [pathText.eq_def] at h
      simp only [hc, if_false, Bool.and_eq_true] at h
      rw [unescape_path_cons hc, Option.isSome_map]
      exact pathText_decodes h.2

/-- The characters of path text. -/
theorem pathText_chars : ∀ {p : Str}, pathText p = true → ∀ c ∈ p,
    c = '%' ∨ c ∈ hexdig ∨ c ∈ unreserved ∨ c ∈ subDelims ∨ c ∈ ":@/".toList
  | [], _ => by simp
  | c :: r, h => by
    by_cases hc : c = '%'
    · subst hc
      match r, h with
      | [], h => simp [pathText] at h
      | [a], h => simp [pathText] at h
      | a :: b :: r, h =>
        simp only [pathText, if_true, Bool.and_eq_true, decide_eq_true_eq] at h
        have := pathText_chars h.2
        intro d hd
        simp only [List.mem_cons] at hd
        rcases hd with rfl | rfl | rfl | hd
        · exact Or.inl rfl
        · exact Or.inr (Or.inl h.1.1)
        · exact Or.inr (Or.inl h.1.2)
        · exact this d hd
    · rw [pathText.eq_def] at h
      simp only [hc, if_false, Bool.and_eq_true, Bool.or_eq_true, decide_eq_true_eq] at h
      have := pathText_chars h.2
      intro d hd
      simp only [List.mem_cons] at hd
      rcases hd with rfl | hd
      · rcases h.1 with (h1 | h1) | h1
        · exact Or.inr (Or.inr (Or.inl h1))
        · exact Or.inr (Or.inr (Or.inr (Or.inl h1)))
        · exact Or.inr (Or.inr (Or.inr (Or.inr h1)))
      · exact this d hd

/-- The characters that can occur in path text. -/
def pathChars : List Char := '%' :: hexdig ++ unreserved ++ subDelims ++ ":@/".toList

theorem pathText_mem {p : Str} (h : pathText p = true) : ∀ c ∈ p, c ∈ pathChars := by
  intro c hc
  rcases pathText_chars h c hc with rfl | h | h | h | h
  · simp [pathChars]
  all_goals (simp only [pathChars, List.cons_append, List.mem_cons, List.mem_append]; simp only [h, or_true, true_or])

theorem pathChars_valid : ∀ c ∈ pathChars,
    (c ∈ "!$&'()*+,;=:@[]%".toList || !shouldEscape .path c) = true := by decide +kernel

theorem pathChars_plain : ∀ c ∈ pathChars, c ≠ '?' ∧ c ≠ '#' ∧ 0x20 < c.toNat ∧ c.toNat ≠ 0x7f := by
  decide +kernel

theorem pathText_valid {p : Str} (h : pathText p = true) : validEncoded .path p = true := by
  unfold validEncoded
  rw [List.all_eq_true]
  exact fun c hc => pathChars_valid c (pathText_mem h c hc)

/-! ## Paths are written as they were read -/

theorem setPath_text {u : Url} {p : Str} (h : pathText ('/' :: p) = true) :
    ∃ path, u.setPath ('/' :: p) = some { u with
      path := path, rawPath := if '/' :: p = escape .path path then [] else '/' :: p } ∧
      unescape .path ('/' :: p) = some path := by
  obtain ⟨path, hp⟩ := Option.isSome_iff_exists.mp (pathText_decodes h)
  exact ⟨path, by rw [Url.setPath, hp], hp⟩

/-- `EscapedPath` after `setPath` gives the text back. -/
theorem escapedPath_text {u v : Url} {p : Str} (h : pathText ('/' :: p) = true)
    (hv : u.setPath ('/' :: p) = some v) : v.escapedPath = '/' :: p := by
  obtain ⟨path, hs, hd⟩ := setPath_text (u := u) h
  rw [hs] at hv
  obtain rfl := Option.some.inj hv
  by_cases he : '/' :: p = escape .path path
  · have hne : path ≠ ['*'] := by
      rintro rfl
      rw [show escape .path ['*'] = "%2A".toList from by decide +kernel] at he
      cases he
    simp [Url.escapedPath, ← he, hne]
  · simp [Url.escapedPath, he, pathText_valid h, hd]

/-! ## The query -/

theorem takeWhile_all {P : Char → Bool} : ∀ {a : Str}, (∀ c ∈ a, P c = true) → a.takeWhile P = a
  | [], _ => rfl
  | c :: a, h => by
    rw [List.takeWhile_cons, if_pos (h c (by simp)), takeWhile_all (fun d hd => h d (by simp [hd]))]

theorem dropWhile_all {P : Char → Bool} : ∀ {a : Str}, (∀ c ∈ a, P c = true) → a.dropWhile P = []
  | [], _ => rfl
  | c :: a, h => by
    rw [List.dropWhile_cons, if_pos (h c (by simp)), dropWhile_all (fun d hd => h d (by simp [hd]))]

theorem cutAt_none {c : Char} {s : Str} (h : c ∉ s) : cutAt c s = (s, []) := by
  have hs : ∀ d ∈ s, decide (d ≠ c) = true := fun d hd => by
    simp only [decide_eq_true_eq]; rintro rfl; exact h hd
  unfold cutAt
  rw [takeWhile_all hs, dropWhile_all hs]
  rfl

theorem takeWhile_sep {c : Char} {a : Str} (h : c ∉ a) (b : Str) :
    (a ++ c :: b).takeWhile (· ≠ c) = a := by
  induction a with
  | nil => simp
  | cons d a ih =>
    simp only [List.mem_cons, not_or] at h
    rw [List.cons_append, List.takeWhile_cons, if_pos (by simpa using fun hd => h.1 hd.symm), ih h.2]

theorem dropWhile_sep {c : Char} {a : Str} (h : c ∉ a) (b : Str) :
    (a ++ c :: b).dropWhile (· ≠ c) = c :: b := by
  induction a with
  | nil => simp
  | cons d a ih =>
    simp only [List.mem_cons, not_or] at h
    rw [List.cons_append, List.dropWhile_cons, if_pos (by simpa using fun hd => h.1 hd.symm), ih h.2]

theorem cutAt_sep {c : Char} {a : Str} (h : c ∉ a) (b : Str) : cutAt c (a ++ c :: b) = (a, b) := by
  unfold cutAt
  rw [takeWhile_sep h, dropWhile_sep h]
  rfl

theorem splitQuery_none {a : Str} (h : '?' ∉ a) : splitQuery a = (false, [], a) := by
  unfold splitQuery
  rw [if_neg, cutAt_none h]
  rintro ⟨h1, -⟩
  exact h (List.mem_of_getLast? h1)

theorem splitQuery_some {a : Str} (h : '?' ∉ a) (q : Str) :
    splitQuery (a ++ '?' :: q) = (decide (q = []), q, a) := by
  unfold splitQuery
  by_cases hq : q = []
  · subst hq
    have h0 : a.count '?' = 0 := List.count_eq_zero.mpr h
    rw [if_pos ⟨by simp, by simp [h0]⟩]
    simp
  · rw [if_neg, cutAt_sep h]
    · simp [hq]
    · rintro ⟨h1, h2⟩
      have h0 : a.count '?' = 0 := List.count_eq_zero.mpr h
      have h3 : q.getLast? = some '?' := by
        rw [List.getLast?_append] at h1
        cases q with
        | nil => exact absurd rfl hq
        | cons d q => simpa using h1
      have h4 : 0 < q.count '?' := List.count_pos_iff.mpr (List.mem_of_getLast? h3)
      rw [List.count_append, List.count_cons, h0] at h2
      simp at h2
      omega

/-- The query of a target, as written back by `RequestURI`. -/
theorem requestURI_query {u : Url} (h : u.opaq = []) :
    u.requestURI = (if u.escapedPath = [] then ['/'] else u.escapedPath) ++
      if u.forceQuery ∨ u.rawQuery ≠ [] then '?' :: u.rawQuery else [] := by
  unfold Url.requestURI
  rw [if_pos h]

/-! ## Parsing -/

/-- A string with a question mark, cut at the first. -/
theorem exists_cut {c : Char} : ∀ {s : Str}, c ∈ s → ∃ a q, c ∉ a ∧ s = a ++ c :: q
  | d :: s, h => by
    by_cases hd : d = c
    · exact ⟨[], s, by simp, by simp [hd]⟩
    · obtain ⟨a, q, ha, hs⟩ := exists_cut (s := s) (by
        rcases List.mem_cons.mp h with h | h
        · exact absurd h.symm hd
        · exact h)
      exact ⟨d :: a, q, by simp [ha, Ne.symm hd], by rw [hs]; rfl⟩

theorem splitQuery_append {a : Str} (h : '?' ∉ a) (s : Str) :
    splitQuery (a ++ s) = ((splitQuery s).1, (splitQuery s).2.1, a ++ (splitQuery s).2.2) := by
  by_cases hs : '?' ∈ s
  · obtain ⟨b, q, hb, rfl⟩ := exists_cut hs
    rw [splitQuery_some hb, ← List.append_assoc, splitQuery_some (by simp [h, hb])]
  · rw [splitQuery_none hs, splitQuery_none (by simp [h, hs])]

theorem containsCTL_append (a b : Str) : containsCTL (a ++ b) = (containsCTL a || containsCTL b) := by
  simp [containsCTL]

/-- A target that starts with a slash. -/
theorem parseRequestURI_slash {t : Str} (hc : containsCTL ('/' :: t) = false) :
    parseRequestURI ('/' :: t) =
      ({ forceQuery := (splitQuery ('/' :: t)).1, rawQuery := (splitQuery ('/' :: t)).2.1 } : Url).setPath
        (splitQuery ('/' :: t)).2.2 := by
  have hg : getScheme ('/' :: t) [] ('/' :: t) = some ([], '/' :: t) := rfl
  have hq := splitQuery_append (a := ['/']) (by decide) t
  rw [List.singleton_append] at hq
  unfold parseRequestURI parseUrl
  rw [hc, hg]
  simp [parseRest, toLower, hq]

/-- No target is accepted with control characters. -/
theorem parseRequestURI_ctl {t : Str} {u : Url} (h : parseRequestURI t = some u) : containsCTL t = false := by
  unfold parseRequestURI parseUrl at h
  cases hc : containsCTL t with
  | false => rfl
  | true => rw [hc] at h; simp at h

theorem afterLast_sep {c : Char} {b : Str} (h : c ∉ b) (a : Str) : afterLast c (a ++ c :: b) = b := by
  unfold afterLast
  rw [List.reverse_append, List.reverse_cons, List.append_assoc, List.singleton_append,
    takeWhile_sep (by simpa using h), List.reverse_reverse]

theorem beforeLast_sep {c : Char} {b : Str} (h : c ∉ b) (a : Str) : beforeLast c (a ++ c :: b) = a := by
  unfold beforeLast
  rw [List.reverse_append, List.reverse_cons, List.append_assoc, List.singleton_append,
    dropWhile_sep (by simpa using h)]
  simp

theorem unescape_host_plain : ∀ {h : Str}, (∀ c ∈ h, c ≠ '%' ∧ shouldEscape .host c = false) →
    unescape .host h = some h
  | [], _ => rfl
  | c :: r, h => by
    have hc := h c (by simp)
    rw [unescape.eq_def]
    simp only [hc.1, if_false, hc.2]
    rw [if_neg (by simp), unescape_host_plain (fun d hd => h d (by simp [hd]))]
    rfl

theorem digits_mem (n : Nat) : ∀ c ∈ natToDec n, c ∈ digit := by
  intro c hc
  have h := Nat.isDigit_of_mem_toDigits (b := 10) (by decide) (by decide) hc
  simp only [Char.isDigit, Bool.and_eq_true, decide_eq_true_eq, ge_iff_le] at h
  have h1 : 48 ≤ c.toNat := h.1
  have h2 : c.toNat ≤ 57 := h.2
  have h3 : c = Char.ofNat c.toNat := (Char.ofNat_toNat c).symm
  have h4 : ∀ n, 48 ≤ n → n ≤ 57 → Char.ofNat n ∈ digit := by
    intro n a b
    have : n = 48 ∨ n = 49 ∨ n = 50 ∨ n = 51 ∨ n = 52 ∨ n = 53 ∨ n = 54 ∨ n = 55 ∨ n = 56 ∨ n = 57 := by omega
    rcases this with rfl | rfl | rfl | rfl | rfl | rfl | rfl | rfl | rfl | rfl <;> decide
  rw [h3]
  exact h4 _ h1 h2

/-- The characters of a registered name. -/
def nameChars : List Char := unreserved ++ subDelims

/-- The characters of an address in brackets. -/
def addrChars : List Char := hexdig ++ ":.".toList

theorem nameChars_ok : ∀ c ∈ nameChars ++ addrChars ++ digit ++ ":[]".toList,
    (c ≠ '%' ∧ shouldEscape .host c = false) ∧ c ≠ '/' ∧ c ≠ '?' ∧ c ≠ '#' ∧ c ≠ '@' ∧
      0x20 < c.toNat ∧ c.toNat ≠ 0x7f := by decide +kernel

theorem nameChars_not : ∀ c ∈ nameChars, c ≠ ':' ∧ c ≠ '[' := by decide +kernel
theorem addrChars_not : ∀ c ∈ addrChars, c ≠ ']' := by decide +kernel
theorem digit_not : ∀ c ∈ digit, c ≠ ':' ∧ c ≠ ']' ∧ ('0' ≤ c && c ≤ '9') = true := by decide +kernel

/-- The characters of host and port. -/
theorem authority_chars {h : Str} (hh : HostName h) (n : Nat) :
    ∀ c ∈ h ++ ':' :: natToDec n, c ∈ nameChars ++ addrChars ++ digit ++ ":[]".toList := by
  intro c hc
  simp only [List.mem_append, List.mem_cons] at hc ⊢
  rcases hc with hc | rfl | hc
  · rcases hh with ⟨-, hn⟩ | ⟨a, rfl, ha⟩
    · exact Or.inl (Or.inl (Or.inl (List.mem_append.mpr (hn c hc))))
    · simp only [List.cons_append, List.mem_cons, List.mem_append, List.not_mem_nil, or_false] at hc
      rcases hc with rfl | hc | rfl
      · exact Or.inr (by decide)
      · exact Or.inl (Or.inl (Or.inr (List.mem_append.mpr (ha c hc))))
      · exact Or.inr (by decide)
  · exact Or.inr (by decide)
  · exact Or.inl (Or.inr (digits_mem n c hc))

theorem parseHost_authority {h : Str} (hh : HostName h) (n : Nat) :
    parseHost (h ++ ':' :: natToDec n) = some (h ++ ':' :: natToDec n) := by
  have hun : unescape .host (h ++ ':' :: natToDec n) = some (h ++ ':' :: natToDec n) :=
    unescape_host_plain fun c hc => (nameChars_ok c (authority_chars hh n c hc)).1
  have hdig : ∀ c ∈ natToDec n, c ≠ ':' ∧ c ≠ ']' ∧ ('0' ≤ c && c ≤ '9') = true :=
    fun c hc => digit_not c (digits_mem n c hc)
  have hport : validOptionalPort (':' :: natToDec n) = true := by
    simp only [validOptionalPort, decide_true, Bool.true_and, List.all_eq_true]
    exact fun c hc => (hdig c hc).2.2
  rcases hh with ⟨hne, hn⟩ | ⟨a, rfl, ha⟩
  · have h1 : (h ++ ':' :: natToDec n).head? ≠ some '[' := by
      match h, hne, hn with
      | c :: h, _, hn =>
        have := (nameChars_not c (List.mem_append.mpr (hn c (by simp)))).2
        simpa using this
    unfold parseHost
    rw [if_neg h1, if_pos (by simp), afterLast_sep (fun hm => (hdig _ hm).1 rfl), if_pos hport, hun]
  · have hp : ']' ∉ ':' :: natToDec n := by
      intro hm
      rcases List.mem_cons.mp hm with h | h
      · cases h
      · exact (hdig _ h).2.1 rfl
    have he : '[' :: a ++ [']'] ++ ':' :: natToDec n = ('[' :: a) ++ ']' :: (':' :: natToDec n) := by simp
    have hidx : index ('[' :: a) "%25".toList = none := by
      cases hi : index ('[' :: a) "%25".toList with
      | none => rfl
      | some i =>
        have hc : contains ('[' :: a) "%25".toList = true := by rw [contains, hi]; rfl
        obtain ⟨x, y, hxy⟩ := contains_iff.mp hc
        have hm : '%' ∈ '[' :: a := by rw [hxy]; simp
        rcases List.mem_cons.mp hm with h | h
        · cases h
        · have h' : '%' ∈ addrChars := List.mem_append.mpr (ha _ h)
          exact absurd h' (by decide)
    unfold parseHost
    rw [if_pos (by simp), if_pos (by simp)]
    rw [he] at hun ⊢
    rw [afterLast_sep hp, if_pos hport, beforeLast_sep hp, hidx]
    exact hun

theorem parseAuthority_host {h : Str} (hh : HostName h) (n : Nat) :
    parseAuthority (h ++ ':' :: natToDec n) = some (none, h ++ ':' :: natToDec n) := by
  unfold parseAuthority
  rw [if_neg, parseHost_authority hh n]
  · rfl
  · intro hm
    exact (nameChars_ok _ (authority_chars hh n _ hm)).2.2.2.2.1 rfl

/-- An upstream URL: the base of a resource, and a rest that is empty or starts with a slash or a question
mark. -/
theorem parse_base {sch h : Str} (hs : sch = "http".toList ∨ sch = "https".toList) (hh : HostName h) (n : Nat)
    {tail : Str} (hc : containsCTL tail = false)
    (hr : (splitQuery tail).2.2 = [] ∨ (splitQuery tail).2.2.head? = some '/') :
    parseUrl false (sch ++ "://".toList ++ h ++ ":".toList ++ natToDec n ++ tail) =
      ({ scheme := sch, host := h ++ ':' :: natToDec n, forceQuery := (splitQuery tail).1,
         rawQuery := (splitQuery tail).2.1 } : Url).setPath (splitQuery tail).2.2 := by
  have hA : ∀ c ∈ h ++ ':' :: natToDec n, _ := fun c hc => nameChars_ok c (authority_chars hh n c hc)
  have e : sch ++ "://".toList ++ h ++ ":".toList ++ natToDec n ++ tail =
      sch ++ ':' :: ('/' :: '/' :: (h ++ ':' :: natToDec n) ++ tail) := by simp
  rw [e]
  generalize hAe : h ++ ':' :: natToDec n = A at hA
  have hne : A ≠ [] := by rw [← hAe]; simp
  have hpa : parseAuthority A = some (none, A) := by rw [← hAe]; exact parseAuthority_host hh n
  have hctlA : containsCTL A = false := by
    rw [containsCTL, List.any_eq_false]
    intro c hc
    have := (hA c hc).2.2.2.2.2
    simp only [Bool.or_eq_true, decide_eq_true_eq, not_or]
    omega
  have hctl : containsCTL (sch ++ ':' :: ('/' :: '/' :: A ++ tail)) = false := by
    have h1 : containsCTL sch = false := by rcases hs with rfl | rfl <;> decide
    rw [containsCTL_append, h1, show ':' :: ('/' :: '/' :: A ++ tail) = "://".toList ++ (A ++ tail) from by simp,
      containsCTL_append, containsCTL_append, hctlA, hc]
    decide
  have hg : getScheme (sch ++ ':' :: ('/' :: '/' :: A ++ tail)) [] (sch ++ ':' :: ('/' :: '/' :: A ++ tail)) =
      some (sch, '/' :: '/' :: A ++ tail) := by
    rcases hs with rfl | rfl <;> rfl
  have hq : '?' ∉ '/' :: '/' :: A := by
    simp only [List.mem_cons, not_or]
    refine ⟨by decide, by decide, fun hm => (hA _ hm).2.2.1 rfl⟩
  have hslash : '/' ∉ A := fun hm => (hA _ hm).2.1 rfl
  have hlow : toLower sch = sch := by rcases hs with rfl | rfl <;> decide
  have hsne : sch ≠ [] := by rcases hs with rfl | rfl <;> decide
  have hr' : (A ++ (splitQuery tail).2.2).takeWhile (· ≠ '/') = A ∧
      (A ++ (splitQuery tail).2.2).dropWhile (· ≠ '/') = (splitQuery tail).2.2 := by
    rcases hr with h0 | h0
    · rw [h0, List.append_nil]
      have : ∀ d ∈ A, decide (d ≠ '/') = true := fun d hd => by
        simp only [decide_eq_true_eq]; rintro rfl; exact hslash hd
      exact ⟨takeWhile_all this, dropWhile_all this⟩
    · cases hrest : (splitQuery tail).2.2 with
      | nil => rw [hrest] at h0; cases h0
      | cons d r =>
        rw [hrest] at h0
        obtain rfl : d = '/' := by simpa using h0
        exact ⟨takeWhile_sep hslash r, dropWhile_sep hslash r⟩
  have hn1 : sch ++ ':' :: ('/' :: '/' :: A ++ tail) ≠ ['*'] := by
    rcases hs with rfl | rfl <;> simp
  unfold parseUrl
  rw [hctl, hg, if_neg (by decide), if_neg (by simp), if_neg hn1]
  simp only
  rw [show '/' :: '/' :: A ++ tail = ('/' :: '/' :: A) ++ tail from rfl, splitQuery_append hq]
  simp only [List.cons_append, List.head?_cons, if_true]
  unfold parseRest
  rw [if_pos ⟨Or.inl (by simpa [hlow] using hsne), by simp [hasPrefix]⟩]
  rw [show List.drop 2 ('/' :: '/' :: (A ++ (splitQuery tail).2.2)) = A ++ (splitQuery tail).2.2 from rfl,
    hr'.1, hr'.2, hpa]
  simp [hlow]

/-! ## Targets -/

/-- The part of a target from the question mark on. -/
def QueryPart (q : Str) : Prop := q = [] ∨ ∃ q', queryText q' = true ∧ q = '?' :: q'

theorem originForm_split {t : Str} : OriginForm t ↔ ∃ p q, t = p ++ q ∧ p.head? = some '/' ∧
    pathText p = true ∧ QueryPart q := by
  constructor
  · rintro ⟨p, hp, rfl | ⟨q, hq, rfl⟩⟩
    · exact ⟨'/' :: p, [], by simp, rfl, hp, Or.inl rfl⟩
    · exact ⟨'/' :: p, '?' :: q, rfl, rfl, hp, Or.inr ⟨q, hq, rfl⟩⟩
  · rintro ⟨p, q, rfl, hh, hp, hq⟩
    match p, hh with
    | c :: p, hh =>
      obtain rfl : c = '/' := by simpa using hh
      refine ⟨p, hp, ?_⟩
      rcases hq with rfl | ⟨q', hq', rfl⟩
      · exact Or.inl (by simp)
      · exact Or.inr ⟨q', hq', rfl⟩

theorem pathText_append : ∀ {a : Str} (b : Str), pathText a = true → (pathText (a ++ b) = pathText b)
  | [], b, _ => rfl
  | c :: r, b, h => by
    by_cases hc : c = '%'
    · subst hc
      match r, h with
      | [], h => simp [pathText] at h
      | [a], h => simp [pathText] at h
      | a :: a' :: r, h =>
        simp only [pathText, if_true, Bool.and_eq_true, decide_eq_true_eq] at h
        simp only [List.cons_append, pathText, if_true, h.1.1, h.1.2, decide_true, Bool.true_and]
        exact pathText_append b h.2
    · rw [pathText.eq_def] at h
      simp only [hc, if_false, Bool.and_eq_true] at h
      rw [List.cons_append, pathText.eq_def]
      simp only [hc, if_false, h.1, Bool.true_and]
      exact pathText_append b h.2

theorem pathText_no {p : Str} (h : pathText p = true) : '?' ∉ p ∧ '#' ∉ p ∧ containsCTL p = false := by
  have hp := fun c hc => pathChars_plain c (pathText_mem h c hc)
  refine ⟨fun hm => (hp _ hm).1 rfl, fun hm => (hp _ hm).2.1 rfl, ?_⟩
  rw [containsCTL, List.any_eq_false]
  intro c hc
  have := (hp c hc).2.2
  simp only [Bool.or_eq_true, decide_eq_true_eq, not_or]
  omega

theorem queryPart_no {q : Str} (h : QueryPart q) : '#' ∉ q ∧ containsCTL q = false := by
  rcases h with rfl | ⟨q, hq, rfl⟩
  · exact ⟨by simp, rfl⟩
  · simp only [queryText, List.all_eq_true, Bool.and_eq_true, decide_eq_true_eq] at hq
    refine ⟨?_, ?_⟩
    · intro hm
      rcases List.mem_cons.mp hm with h | h
      · cases h
      · exact (hq _ h).1.1 rfl
    · rw [containsCTL, List.any_cons, show (decide ('?'.toNat < 32) || decide ('?'.toNat = 127)) = false from rfl,
        Bool.false_or, List.any_eq_false]
      intro c hc
      have := hq c hc
      simp only [Bool.or_eq_true, decide_eq_true_eq, not_or]
      omega

theorem splitQuery_part {p q : Str} (hp : '?' ∉ p) (hq : QueryPart q) :
    (splitQuery (p ++ q)).2.2 = p ∧
    (if (splitQuery (p ++ q)).1 ∨ (splitQuery (p ++ q)).2.1 ≠ [] then '?' :: (splitQuery (p ++ q)).2.1 else []) = q := by
  rcases hq with rfl | ⟨q, -, rfl⟩
  · rw [List.append_nil, splitQuery_none hp]; simp
  · rw [splitQuery_some hp]
    by_cases h : q = [] <;> simp [h]

/-- What follows path text in a target. -/
theorem originForm_rest {w rest : Str} (h : OriginForm (w ++ rest)) (hw : pathText w = true) :
    ∃ p q, rest = p ++ q ∧ pathText p = true ∧ QueryPart q := by
  obtain ⟨P, Q, he, -, hP, hQ⟩ := originForm_split.mp h
  rcases List.append_eq_append_iff.mp he with ⟨a, rfl, rfl⟩ | ⟨c, rfl, rfl⟩
  · refine ⟨a, Q, rfl, ?_, hQ⟩
    rwa [pathText_append a hw] at hP
  · match c with
    | [] => exact ⟨[], rest, rfl, rfl, by simpa using hQ⟩
    | d :: c =>
      exfalso
      have hd : d = '?' := by
        rcases hQ with h | ⟨q, -, h⟩
        · cases h
        · exact (List.cons.inj h).1
      exact (pathText_no hw).1 (by simp [hd])

/-- A target in origin form is parsed, and written back as it was. -/
theorem origin_roundtrip {t : Str} (h : OriginForm t) : ∃ u, parseRequestURI t = some u ∧ u.requestURI = t := by
  obtain ⟨p, q, rfl, hh, hp, hq⟩ := originForm_split.mp h
  match p, hh with
  | c :: p, hh =>
    obtain rfl : c = '/' := by simpa using hh
    have hctl : containsCTL ('/' :: p ++ q) = false := by
      rw [containsCTL_append, (pathText_no hp).2.2, (queryPart_no hq).2]; rfl
    have hs := splitQuery_part (pathText_no hp).1 hq
    obtain ⟨path, hset, hd⟩ := setPath_text (u := { forceQuery := (splitQuery ('/' :: p ++ q)).1, rawQuery := (splitQuery ('/' :: p ++ q)).2.1 }) hp
    have hpr := parseRequestURI_slash (t := p ++ q) hctl
    rw [show '/' :: (p ++ q) = '/' :: p ++ q from rfl, hs.1, hset] at hpr
    refine ⟨_, hpr, ?_⟩
    rw [requestURI_query rfl, escapedPath_text hp hset]
    simp only [reduceCtorEq, if_false]
    rw [hs.2]

/-- The same through the base of a resource. -/
theorem upstream_roundtrip {sch h : Str} (hs : sch = "http".toList ∨ sch = "https".toList) (hh : HostName h)
    (n : Nat) {p q : Str} (hp : pathText p = true) (hd : p = [] ∨ p.head? = some '/') (hq : QueryPart q) :
    ∃ u, Url.parse (sch ++ "://".toList ++ h ++ ":".toList ++ natToDec n ++ (p ++ q)) = some u ∧
      u.requestURI = (if p = [] then ['/'] else p) ++ q ∧ u.host = h ++ ':' :: natToDec n ∧ u.hasUser = false ∧
      (p ≠ [] → u.path ≠ []) := by
  have hctl : containsCTL (p ++ q) = false := by
    rw [containsCTL_append, (pathText_no hp).2.2, (queryPart_no hq).2]; rfl
  have hsq := splitQuery_part (pathText_no hp).1 hq
  have hfrag : '#' ∉ sch ++ "://".toList ++ h ++ ":".toList ++ natToDec n ++ (p ++ q) := by
    have e : sch ++ "://".toList ++ h ++ ":".toList ++ natToDec n ++ (p ++ q) =
      sch ++ "://".toList ++ (h ++ ':' :: natToDec n) ++ (p ++ q) := by simp
    rw [e]
    intro hm
    simp only [List.mem_append] at hm
    rcases hm with ((hm | hm) | hm) | hm | hm
    · rcases hs with rfl | rfl <;> revert hm <;> decide
    · revert hm; decide
    · exact (nameChars_ok _ (authority_chars hh n _ (List.mem_append.mpr hm))).2.2.2.1 rfl
    · exact (pathText_no hp).2.1 hm
    · exact (queryPart_no hq).1 hm
  have hb := parse_base hs hh n hctl (by rw [hsq.1]; exact hd)
  rw [hsq.1] at hb
  have hpar : ∀ v, parseUrl false (sch ++ "://".toList ++ h ++ ":".toList ++ natToDec n ++ (p ++ q)) = some v →
      Url.parse (sch ++ "://".toList ++ h ++ ":".toList ++ natToDec n ++ (p ++ q)) = some v := by
    intro v hv
    unfold Url.parse
    rw [cutAt_none hfrag]
    simp only [hv]
    rfl
  rcases hd with rfl | hd
  · rw [show ∀ u : Url, u.setPath [] = some { u with path := [], rawPath := [] } from fun _ => rfl] at hb
    refine ⟨_, hpar _ hb, ?_, rfl, rfl, fun h => absurd rfl h⟩
    rw [requestURI_query rfl]
    exact congrArg (['/'] ++ ·) hsq.2
  · match p, hd with
    | c :: p, hd =>
      obtain rfl : c = '/' := by simpa using hd
      obtain ⟨path, hset, hdec⟩ := setPath_text (u := { scheme := sch, host := h ++ ':' :: natToDec n, forceQuery := (splitQuery ('/' :: p ++ q)).1, rawQuery := (splitQuery ('/' :: p ++ q)).2.1 }) hp
      have hesc := escapedPath_text hp hset
      rw [hset] at hb
      refine ⟨_, hpar _ hb, ?_, rfl, rfl, ?_⟩
      · rw [requestURI_query rfl, hesc]
        exact congrArg ('/' :: p ++ ·) hsq.2
      · intro _ h0
        have h0 : path = [] := h0
        rw [unescape_path_cons (by decide), h0] at hdec
        cases hu : unescape .path p <;> rw [hu] at hdec <;> simp at hdec

end J8a.Go

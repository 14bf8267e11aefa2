import Verif.Spec.Tls
import Verif.Lemmas.Str
/-! # Facts about certificate chains -/
namespace J8a
open Go

/-! ## The link loop -/

/-- The link made for certificate `i`. -/
def linkAt (now : Nat → Int) (i : Nat) (c : Cert) : TlsLink :=
  { cert := c, remainingValidity := timeUntil c.notAfter (now i), isCA := c.isCA }

theorem timeUntil_le (t now : Int) : timeUntil t now ≤ maxInt64 := by
  unfold timeUntil minInt64 maxInt64; omega

/-- What the loop keeps: all links so far, and the first smallest one. -/
structure LoopInv (now : Nat → Int) (links : List TlsLink) (si : Nat) (earliest : Int) : Prop where
  made : ∀ (j : Nat) (l : TlsLink), links[j]? = some l → ∃ c, l = linkAt now j c
  bound : ∀ (j : Nat) (l : TlsLink), links[j]? = some l → earliest ≤ l.remainingValidity
  start : links = [] → si = 0 ∧ earliest = maxInt64
  mark : links ≠ [] → ∃ l, links[si]? = some l ∧ l.remainingValidity = earliest
  first : ∀ (j : Nat) (l : TlsLink), j < si → links[j]? = some l → earliest < l.remainingValidity

theorem linkLoop_spec (now : Nat → Int) : ∀ (chain : List Cert) (links : List TlsLink) (si : Nat)
    (earliest : Int), LoopInv now links si earliest →
    ∃ e, LoopInv now (linkLoop now links.length links si earliest chain).1
        (linkLoop now links.length links si earliest chain).2 e ∧
      (linkLoop now links.length links si earliest chain).1.map TlsLink.cert =
        links.map TlsLink.cert ++ chain := by
  intro chain
  induction chain with
  | nil => intro links si e h; exact ⟨e, h, by simp [linkLoop]⟩
  | cons c rest ih =>
    intro links si e h
    have hle := timeUntil_le c.notAfter (now links.length)
    have happ : ∀ (j : Nat) (l : TlsLink), (links ++ [linkAt now links.length c])[j]? = some l →
        links[j]? = some l ∨ (j = links.length ∧ l = linkAt now links.length c) := by
      intro j l hj
      rw [List.getElem?_append] at hj
      split at hj
      · exact .inl hj
      · rename_i hlt
        rw [List.getElem?_singleton] at hj
        split at hj
        · right; exact ⟨by omega, by simpa using hj.symm⟩
        · cases hj
    have hlast : (links ++ [linkAt now links.length c])[links.length]? =
        some (linkAt now links.length c) := by
      rw [List.getElem?_append_right (by omega)]; simp
    have hmade : ∀ (j : Nat) (l : TlsLink),
        (links ++ [linkAt now links.length c])[j]? = some l → ∃ c, l = linkAt now j c := by
      intro j l hj
      rcases happ j l hj with hj | ⟨rfl, rfl⟩
      · exact h.made j l hj
      · exact ⟨c, rfl⟩
    have hlen : links.length + 1 = (links ++ [linkAt now links.length c]).length := by simp
    have hidx : ∀ (j : Nat) (l : TlsLink), links[j]? = some l → j < links.length := by
      intro j l hj
      exact (List.getElem?_eq_some_iff.mp hj).1
    simp only [linkLoop]
    split
    · rename_i hlt
      have := ih (links ++ [linkAt now links.length c]) links.length
        (timeUntil c.notAfter (now links.length)) {
          made := hmade
          bound := by
            intro j l hj
            rcases happ j l hj with hj | ⟨rfl, rfl⟩
            · have := h.bound j l hj; omega
            · exact Int.le_refl _
          start := by simp
          mark := fun _ => ⟨_, hlast, rfl⟩
          first := by
            intro j l hlt' hj
            rcases happ j l hj with hj | ⟨rfl, -⟩
            · have := h.bound j l hj; omega
            · omega }
      rw [← hlen, List.map_append, List.append_assoc] at this
      exact this
    · rename_i hge
      have := ih (links ++ [linkAt now links.length c]) si e {
          made := hmade
          bound := by
            intro j l hj
            rcases happ j l hj with hj | ⟨rfl, rfl⟩
            · exact h.bound j l hj
            · simp only [linkAt]; omega
          start := by simp
          mark := by
            intro _
            by_cases hne : links = []
            · obtain ⟨h1, h2⟩ := h.start hne
              subst hne
              refine ⟨linkAt now 0 c, by rw [h1]; rfl, ?_⟩
              simp only [linkAt, List.length_nil] at *
              omega
            · obtain ⟨l, hl, he⟩ := h.mark hne
              refine ⟨l, ?_, he⟩
              rw [List.getElem?_append_left (hidx _ _ hl)]; exact hl
          first := by
            intro j l hlt' hj
            rcases happ j l hj with hj | ⟨rfl, -⟩
            · exact h.first j l hlt' hj
            · by_cases hne : links = []
              · have := (h.start hne).1; omega
              · obtain ⟨l', hl', -⟩ := h.mark hne
                have := hidx _ _ hl'; omega }
      rw [← hlen, List.map_append, List.append_assoc] at this
      exact this

/-- The result for a non-empty chain. -/
theorem parseTlsLinks_spec (now : Nat → Int) {chain : List Cert} (hne : chain ≠ []) :
    ∃ links k, parseTlsLinks now chain = some links ∧ links.length = chain.length ∧
      k < chain.length ∧
      (∀ (i : Nat) (c : Cert), chain[i]? = some c →
        links[i]? = some { linkAt now i c with earliestExpiry := decide (i = k) }) ∧
      (∀ (i : Nat) (c ck : Cert), chain[i]? = some c → chain[k]? = some ck →
        timeUntil ck.notAfter (now k) ≤ timeUntil c.notAfter (now i) ∧
        (i < k → timeUntil ck.notAfter (now k) < timeUntil c.notAfter (now i))) := by
  obtain ⟨e, hinv, hmap⟩ := linkLoop_spec now chain [] 0 maxInt64
    { made := by simp, bound := by simp, start := fun _ => ⟨rfl, rfl⟩, mark := by simp,
      first := by simp }
  unfold parseTlsLinks
  simp only [List.length_nil] at hinv hmap
  generalize hr : linkLoop now 0 [] 0 maxInt64 chain = r at *
  obtain ⟨ls, si⟩ := r
  simp only [List.map_nil, List.nil_append] at hinv hmap ⊢
  have hlen : ls.length = chain.length := by rw [← hmap]; simp
  obtain ⟨m, hm, hme⟩ := hinv.mark (by intro h; rw [h] at hlen; exact hne (List.length_eq_zero_iff.mp hlen.symm))
  have hget : ∀ (i : Nat) (c : Cert), chain[i]? = some c → ls[i]? = some (linkAt now i c) := by
    intro i c hc
    rw [← hmap, List.getElem?_map] at hc
    cases hl : ls[i]? with
    | none => rw [hl] at hc; cases hc
    | some l =>
      rw [hl] at hc
      obtain ⟨c', rfl⟩ := hinv.made i l hl
      simp only [Option.map_some, Option.some.injEq, linkAt] at hc
      rw [← hc]
  have hsi : si < ls.length := (List.getElem?_eq_some_iff.mp hm).1
  rw [hm]
  refine ⟨_, si, rfl, by simp [hlen], by omega, ?_, ?_⟩
  · intro i c hc
    have hg := hget i c hc
    rw [List.getElem?_set]
    by_cases hik : si = i
    · subst hik
      rw [hm] at hg
      simp only [Option.some.injEq] at hg
      subst hg
      simp [hsi]
    · rw [if_neg hik, hg]
      have : ¬ i = si := fun h => hik h.symm
      simp [linkAt, this]
  · intro i c ck hc hck
    have h1 := hget i c hc
    have h2 := hget si ck hck
    rw [hm] at h2
    simp only [Option.some.injEq] at h2
    subst h2
    simp only [linkAt] at hme
    have h3 := hinv.bound i _ h1
    simp only [linkAt] at h3
    refine ⟨by omega, ?_⟩
    intro hlt
    have h4 := hinv.first i _ hlt h1
    simp only [linkAt] at h4
    omega

/-! ## Hexadecimal -/

theorem upper_digitChar (d : Nat) (h : d < 16) :
    hexDigitVal (Nat.digitChar d).toUpper = d ∧ IsHexDigit (Nat.digitChar d).toUpper := by
  have : ∀ d : Fin 16, hexDigitVal (Nat.digitChar d).toUpper = d ∧
      (Nat.digitChar d).toUpper ∈ "0123456789ABCDEF".toList := by decide +kernel
  exact this ⟨d, h⟩

/-- The digits of `%X`. -/
theorem hexDigits_spec (n : Nat) : hexVal (toUpper (Nat.toDigits 16 n)) = n ∧
    ∀ c ∈ toUpper (Nat.toDigits 16 n), IsHexDigit c := by
  induction n using Nat.strongRecOn with
  | ind n ih =>
    by_cases h : n < 16
    · rw [Nat.toDigits_of_lt_base h]
      have := upper_digitChar n h
      simp only [toUpper, List.map_cons, List.map_nil, hexVal, List.foldl_cons, List.foldl_nil]
      refine ⟨by omega, ?_⟩
      intro c hc
      simp only [List.mem_singleton] at hc
      rw [hc]; exact this.2
    · rw [Nat.toDigits_of_base_le (by decide) (by omega)]
      obtain ⟨h1, h2⟩ := ih (n / 16) (by omega)
      have := upper_digitChar (n % 16) (by omega)
      simp only [toUpper, hexVal, List.map_append, List.map_cons, List.map_nil, List.foldl_append,
        List.foldl_cons, List.foldl_nil] at h1 h2 ⊢
      refine ⟨by rw [h1]; omega, ?_⟩
      intro c hc
      rcases List.mem_append.mp hc with hc | hc
      · exact h2 c hc
      · simp only [List.mem_singleton] at hc
        rw [hc]; exact this.2

theorem hexLen_le (n k : Nat) (hk : 0 < k) : (toUpper (Nat.toDigits 16 n)).length ≤ k ↔ n < 16 ^ k := by
  unfold toUpper
  rw [List.length_map]
  exact Nat.length_toDigits_le_iff (by decide) hk

/-- The loop over an even number of digits. -/
theorem hexPairs_even : ∀ (k : Nat) (s : Str), s.length = 2 * k →
    ∃ gs : List Str, hexPairs s = some (join ['-'] gs) ∧ gs.length = k ∧ gs.flatten = s ∧
      (∀ p ∈ gs, p.length = 2) ∧ gs.head? = (if k = 0 then none else some (s.take 2)) := by
  intro k
  induction k with
  | zero =>
    intro s h
    have : s = [] := List.length_eq_zero_iff.mp (by omega)
    subst this
    exact ⟨[], rfl, rfl, rfl, by simp, rfl⟩
  | succ k ih =>
    intro s h
    match s, h with
    | a :: b :: rest, h =>
      obtain ⟨gs, h1, h2, h3, h4, -⟩ := ih rest (by simp only [List.length_cons] at h; omega)
      refine ⟨[a, b] :: gs, ?_, by simp [h2], by simp [h3], ?_, by simp⟩
      · simp only [hexPairs, h1]
        split
        · rename_i hr
          subst hr
          have : gs = [] := by
            cases gs with
            | nil => rfl
            | cons g gs =>
              have := h4 g (by simp)
              simp only [List.flatten_cons, List.append_eq_nil_iff] at h3
              rw [h3.1] at this; simp at this
          subst this; rfl
        · rename_i hr
          cases gs with
          | nil => simp at h3; exact absurd h3 hr
          | cons g gs => rfl
      · intro p hp
        rcases List.mem_cons.mp hp with rfl | hp
        · rfl
        · exact h4 p hp
    | [x], h => simp only [List.length_cons, List.length_nil] at h; omega
    | [], h => simp at h

theorem hexPairs_odd : ∀ (k : Nat) (s : Str), s.length = 2 * k + 1 → hexPairs s = none := by
  intro k
  induction k with
  | zero =>
    intro s h
    match s, h with
    | [x], _ => rfl
    | [], h => simp at h
    | _ :: _ :: _, h => simp only [List.length_cons] at h; omega
  | succ k ih =>
    intro s h
    match s, h with
    | a :: b :: rest, h =>
      simp only [hexPairs, ih rest (by simp only [List.length_cons] at h; omega)]
    | [x], h => simp only [List.length_cons, List.length_nil] at h; omega
    | [], h => simp at h

/-! ## Pools -/

theorem splitCertPools_spec (parse : Bytes → Option Cert) : ∀ (ds : List Bytes) (inter root : List Cert),
    splitCertPools parse ds = some (inter, root) →
    (∀ d ∈ ds, (parse d).isSome) ∧
    (∀ c, c ∈ root ↔ c.isCA = true ∧ c.issuer.cn = c.subject.cn ∧ ∃ d ∈ ds, parse d = some c) ∧
    (∀ c, c ∈ inter ↔ c.isCA = true ∧ c.issuer.cn ≠ c.subject.cn ∧ ∃ d ∈ ds, parse d = some c) := by
  intro ds
  induction ds with
  | nil =>
    intro inter root h
    simp only [splitCertPools, Option.some.injEq, Prod.mk.injEq] at h
    obtain ⟨rfl, rfl⟩ := h
    simp
  | cons d ds ih =>
    intro inter root h
    simp only [splitCertPools] at h
    split at h
    · rename_i c i r hc hp
      obtain ⟨h1, h2, h3⟩ := ih i r hp
      have hex : ∀ x, (∃ d' ∈ d :: ds, parse d' = some x) ↔ (x = c ∨ ∃ d' ∈ ds, parse d' = some x) := by
        intro x
        simp only [List.mem_cons, exists_eq_or_imp, hc, Option.some.injEq]
        constructor <;> rintro (h | h) <;> first | exact .inl h.symm | exact .inr h
      refine ⟨?_, ?_, ?_⟩
      · intro d' hd'
        rcases List.mem_cons.mp hd' with rfl | hd'
        · rw [hc]; rfl
        · exact h1 d' hd'
      · intro x
        rw [hex x]
        simp only [isRoot] at h
        have := h2 x
        grind
      · intro x
        rw [hex x]
        simp only [isRoot] at h
        have := h3 x
        grind
    · cases h

theorem splitCertPools_isSome (parse : Bytes → Option Cert) {ds : List Bytes}
    (h : ∀ d ∈ ds, (parse d).isSome) : (splitCertPools parse ds).isSome := by
  induction ds with
  | nil => rfl
  | cons d ds ih =>
    have h1 := h d (by simp)
    have h2 := ih (fun d' hd' => h d' (by simp [hd']))
    simp only [splitCertPools]
    obtain ⟨c, hc⟩ := Option.isSome_iff_exists.mp h1
    obtain ⟨⟨i, r⟩, hp⟩ := Option.isSome_iff_exists.mp h2
    rw [hc, hp]; rfl

end J8a

import Verif.Spec.Message
/-!
# A stream begins with at most one request
-/
namespace J8a
open Go (digitsVal toLower)

theorem cut_unique {c : Char} {a b x y : Str} (ha : c ∉ a) (hb : c ∉ b) (h : a ++ c :: x = b ++ c :: y) :
    a = b ∧ x = y := by
  induction a generalizing b with
  | nil =>
    cases b with
    | nil => simpa using h
    | cons d b => simp only [List.nil_append, List.cons_append, List.cons.injEq] at h; simp [← h.1] at hb
  | cons d a ih =>
    cases b with
    | nil => simp only [List.nil_append, List.cons_append, List.cons.injEq] at h; simp [h.1] at ha
    | cons e b =>
      simp only [List.cons_append, List.cons.injEq] at h
      obtain ⟨h1, h2⟩ := ih (fun hm => ha (by simp [hm])) (fun hm => hb (by simp [hm])) h.2
      exact ⟨by rw [h.1, h1], h2⟩

def isOws (c : Char) : Bool := c = ' ' || c = '\t'

/-- Without white space at the ends. -/
def trimOws (s : Str) : Str := ((s.dropWhile isOws).reverse.dropWhile isOws).reverse

theorem dropWhile_ows {w s : Str} (h : Ows w) : (w ++ s).dropWhile isOws = s.dropWhile isOws := by
  induction w with
  | nil => rfl
  | cons c w ih =>
    have hc : isOws c = true := by
      have := h c (by simp)
      simpa [isOws] using this
    simp only [List.cons_append, List.dropWhile_cons, hc, if_true]
    exact ih (fun d hd => h d (by simp [hd]))

theorem dropWhile_first {s : Str} (h : ∀ c, s.head? = some c → c ≠ ' ' ∧ c ≠ '\t') :
    s.dropWhile isOws = s := by
  cases s with
  | nil => rfl
  | cons c s =>
    have := h c rfl
    simp [isOws, this.1, this.2]

theorem trimOws_value {w1 w2 v : Str} (h1 : Ows w1) (h2 : Ows w2)
    (hf : ∀ c, v.head? = some c → c ≠ ' ' ∧ c ≠ '\t')
    (hl : ∀ c, v.getLast? = some c → c ≠ ' ' ∧ c ≠ '\t') : trimOws (w1 ++ (v ++ w2)) = v := by
  unfold trimOws
  rw [dropWhile_ows h1]
  cases v with
  | nil =>
    have : (([] : Str) ++ w2).dropWhile isOws = [] := by
      have := dropWhile_ows (s := []) h2
      simpa using this
    rw [this]; rfl
  | cons c v =>
    have e : (c :: v ++ w2).dropWhile isOws = c :: v ++ w2 :=
      dropWhile_first (by intro d hd; exact hf d (by simpa using hd))
    have h2' : Ows w2.reverse := fun d hd => h2 d (by simpa using hd)
    rw [e, List.reverse_append, dropWhile_ows h2', dropWhile_first, List.reverse_reverse]
    intro d hd
    exact hl d (by rw [← hd, List.head?_reverse])

theorem token_no {s : Str} (h : Token s) {c : Char} (hc : c ∉ tchars) : c ∉ s := fun hm => hc (h.2 c hm)

theorem FieldLine.unique {line : Str} {f g : Str × Str} (hf : FieldLine line f) (hg : FieldLine line g) :
    f = g := by
  obtain ⟨w1, w2, h1, h2, e⟩ := hf.text
  obtain ⟨u1, u2, k1, k2, e'⟩ := hg.text
  rw [e] at e'
  obtain ⟨hn, hv⟩ := cut_unique (token_no hf.name (by decide)) (token_no hg.name (by decide)) e'
  have a := trimOws_value h1 h2 hf.first hf.last
  have b := trimOws_value k1 k2 hg.first hg.last
  rw [hv] at a
  exact Prod.ext hn (a.symm.trans b)

theorem FieldLine.no_cr {line : Str} {f : Str × Str} (h : FieldLine line f) : '\r' ∉ line := by
  obtain ⟨w1, w2, h1, h2, rfl⟩ := h.text
  intro hm
  simp only [List.mem_append, List.mem_cons] at hm
  rcases hm with hm | hm | hm | hm | hm
  · exact token_no h.name (by decide) hm
  · exact absurd hm (by decide)
  · rcases h1 _ hm with h | h <;> exact absurd h (by decide)
  · rcases h.value _ hm with h | h
    · exact absurd h (by decide)
    · exact absurd h (by decide)
  · rcases h2 _ hm with h | h <;> exact absurd h (by decide)

theorem FieldLine.ne_nil {line : Str} {f : Str × Str} (h : FieldLine line f) : line ≠ [] := by
  obtain ⟨w1, w2, h1, h2, rfl⟩ := h.text
  simp

theorem lines_unique : ∀ {l l' : List (Str × (Str × Str))} {x y : Str}, (∀ a ∈ l, FieldLine a.1 a.2) →
    (∀ a ∈ l', FieldLine a.1 a.2) →
    l.flatMap (fun a => a.1 ++ crlf) ++ (crlf ++ x) = l'.flatMap (fun a => a.1 ++ crlf) ++ (crlf ++ y) →
    l.map Prod.snd = l'.map Prod.snd ∧ x = y := by
  intro l
  induction l with
  | nil =>
    intro l' x y _ h' e
    cases l' with
    | nil =>
      simp only [List.flatMap_nil, List.nil_append, crlf, List.cons_append, List.cons.injEq, true_and] at e
      exact ⟨rfl, e⟩
    | cons a l' =>
      exfalso
      have ha := h' a (by simp)
      obtain ⟨c, r, hr⟩ := List.exists_cons_of_ne_nil ha.ne_nil
      have hcr := ha.no_cr
      rw [List.flatMap_cons, hr] at e
      simp only [List.flatMap_nil, List.nil_append, crlf, List.cons_append, List.cons.injEq] at e
      rw [hr, ← e.1] at hcr
      simp at hcr
  | cons a l ih =>
    intro l' x y h h' e
    have ha := h a (by simp)
    cases l' with
    | nil =>
      exfalso
      obtain ⟨c, r, hr⟩ := List.exists_cons_of_ne_nil ha.ne_nil
      have hcr := ha.no_cr
      rw [List.flatMap_cons, hr] at e
      simp only [List.flatMap_nil, List.nil_append, crlf, List.cons_append, List.cons.injEq] at e
      rw [hr, e.1] at hcr
      simp at hcr
    | cons b l' =>
      have hb := h' b (by simp)
      simp only [List.flatMap_cons, List.append_assoc] at e
      have e2 : a.1 ++ '\r' :: ('\n' :: (l.flatMap (fun a => a.1 ++ crlf) ++ (crlf ++ x))) =
          b.1 ++ '\r' :: ('\n' :: (l'.flatMap (fun a => a.1 ++ crlf) ++ (crlf ++ y))) := by
        simpa [crlf] using e
      obtain ⟨h1, h2⟩ := cut_unique ha.no_cr hb.no_cr e2
      obtain ⟨h3, h4⟩ := ih (fun c hc => h c (by simp [hc])) (fun c hc => h' c (by simp [hc]))
        (List.cons.inj h2).2
      refine ⟨?_, h4⟩
      rw [h1] at ha
      simp [h3, ha.unique hb]

theorem BodyLength.unique {fields : List (Str × Str)} {n m : Nat} (h : BodyLength fields n)
    (h' : BodyLength fields m) : n = m := by
  cases h with
  | none a b => cases h' with
    | none => rfl
    | one c d => rw [b] at d; cases d
  | one a b => cases h' with
    | none c d => rw [b] at d; cases d
    | one c d =>
      rw [b] at d
      simp only [List.cons.injEq, and_true] at d
      rw [d]

/-- Reading is deterministic: request and rest. -/
theorem ReadsRequest.unique {s : Str} {m m' : HttpRequest} {r r' : Str} (h : ReadsRequest s m r) (h' : ReadsRequest s m' r') :
    m = m' ∧ r = r' := by
  obtain ⟨lines, hl, hf, e⟩ := h.text
  obtain ⟨lines', hl', hf', e'⟩ := h'.text
  rw [e] at e'
  obtain ⟨h1, e1⟩ := cut_unique (token_no h.method (by decide)) (token_no h'.method (by decide)) e'
  have no : ∀ {m : HttpRequest}, (∀ c ∈ m.target, 0x20 < c.toNat ∧ c.toNat ≠ 0x7f) → ' ' ∉ m.target :=
    fun hm hc => absurd (hm _ hc).1 (by decide)
  obtain ⟨h2, e2⟩ := cut_unique (no h.target.2) (no h'.target.2) e1
  have e3 := List.append_cancel_left (List.append_cancel_left e2)
  obtain ⟨h3, e4⟩ := lines_unique hl hl' e3
  rw [hf, hf'] at h3
  have hlen : m.body.length = m'.body.length := by
    have := h'.length
    rw [← h3] at this
    exact h.length.unique this
  obtain ⟨h5, h6⟩ := List.append_inj e4 hlen
  obtain ⟨a, b, c, d⟩ := m
  obtain ⟨a', b', c', d'⟩ := m'
  simp_all

end J8a

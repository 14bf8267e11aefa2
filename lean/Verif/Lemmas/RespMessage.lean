import Verif.Lemmas.WireMessage
import Verif.Spec.RespMessage
import Verif.Model.RespBytes
/-!
# What is written to a client is read in one way
-/
namespace J8a
open Go

/-! ## Reading is deterministic -/

theorem hex_no_cr {s : Str} (h : ∀ c ∈ s, c ∈ hexDigits) : '\r' ∉ s := fun hm => absurd (h _ hm) (by decide)

theorem hexNumber_zeros {s : Str} (h : ∀ c ∈ s, c = '0') : hexNumber s = 0 := by
  unfold hexNumber
  have : ∀ s : Str, (∀ c ∈ s, c = '0') → s.foldl (fun n c => 16 * n + hexDigitValue c) 0 = 0 := by
    intro s
    induction s with
    | nil => intro _; rfl
    | cons c s ih =>
      intro h
      rw [List.foldl_cons, h c (by simp)]
      exact ih (fun d hd => h d (by simp [hd]))
  exact this s h

theorem Chunked.unique {s b r b' r' : Str} (h : Chunked s b r) (h' : Chunked s b' r') : b = b' ∧ r = r' := by
  induction h generalizing b' r' with
  | @last zeros rest hz h0 =>
    have hcr : '\r' ∉ zeros := fun hm => absurd (h0 _ hm) (by decide)
    generalize e : zeros ++ (crlf ++ (crlf ++ rest)) = t at h'
    cases h' with
    | @last zeros' _ hz' h0' =>
      have hcr' : '\r' ∉ zeros' := fun hm => absurd (h0' '\r' hm) (by decide)
      simp only [crlf, List.cons_append, List.nil_append] at e
      obtain ⟨-, e⟩ := cut_unique hcr hcr' e
      exact ⟨rfl, by simpa using e⟩
    | @chunk size data stream body _ hs hx hd hl _ =>
      simp only [crlf, List.cons_append, List.nil_append] at e
      obtain ⟨e1, -⟩ := cut_unique hcr (hex_no_cr hx) e
      rw [← e1, hexNumber_zeros h0] at hl
      exact absurd (List.length_eq_zero_iff.1 hl.symm) hd
  | @chunk size data stream body rest hs hx hd hl _ ih =>
    generalize e : size ++ (crlf ++ (data ++ (crlf ++ stream))) = t at h'
    cases h' with
    | @last zeros _ hz' h0' =>
      have hcr' : '\r' ∉ zeros := fun hm => absurd (h0' '\r' hm) (by decide)
      simp only [crlf, List.cons_append, List.nil_append] at e
      obtain ⟨e1, -⟩ := cut_unique (hex_no_cr hx) hcr' e
      rw [e1, hexNumber_zeros h0'] at hl
      exact absurd (List.length_eq_zero_iff.1 hl.symm) hd
    | @chunk size' data' stream' body' _ hs' hx' hd' hl' hc' =>
      simp only [crlf, List.cons_append, List.nil_append] at e
      obtain ⟨e1, e2⟩ := cut_unique (hex_no_cr hx) (hex_no_cr hx') e
      rw [e1] at hl
      have e3 := (List.cons.inj e2).2
      obtain ⟨e4, e5⟩ := List.append_inj e3 (hl.symm.trans hl')
      have e6 := (List.cons.inj (List.cons.inj e5).2).2
      rw [← e6] at hc'
      obtain ⟨h1, h2⟩ := ih hc'
      exact ⟨by rw [e4, h1], h2⟩

theorem RespBody.unique {method version : Str} {status : Nat} {fields : List (Str × Str)} {s b r b' r' : Str}
    (h : RespBody method version status fields s b r) (h' : RespBody method version status fields s b' r') : b = b' ∧ r = r' := by
  generalize e : s = t at h'
  cases h with
  | none hb =>
    cases h' with
    | none => exact ⟨rfl, e⟩
    | sized hn => exact absurd hb hn
    | chunked hn => exact absurd hb hn
    | untilEnd hn => exact absurd hb hn
  | sized hn ht hc hv hd hl =>
    cases h' with
    | none hb => exact absurd hb hn
    | sized hn' ht' hc' hv' hd' hl' =>
      rw [hc] at hc'
      rw [(List.cons.inj hc').1, hl'] at hl
      obtain ⟨h1, h2⟩ := List.append_inj e hl.symm
      exact ⟨h1, h2⟩
    | chunked hn' _ ht' => rw [ht] at ht'; cases ht'
    | untilEnd hn' ht' hc' => rw [hc] at hc'; cases hc'
  | chunked hn _ ht hc hk =>
    subst e
    cases h' with
    | none hb => exact absurd hb hn
    | sized hn' ht' => rw [ht] at ht'; cases ht'
    | chunked hn' _ ht' hc' hk' => exact hk.unique hk'
    | untilEnd hn' ht' hc' => rw [ht] at ht'; cases ht'
  | untilEnd hn ht hc =>
    subst e
    cases h' with
    | none hb => exact absurd hb hn
    | sized hn' ht' hc' => rw [hc] at hc'; cases hc'
    | chunked hn' _ ht' => rw [ht] at ht'; cases ht'
    | untilEnd => exact ⟨rfl, rfl⟩

theorem text_no_cr {s : Str} (h : FieldText s) : '\r' ∉ s := fun hm => by have := h _ hm; revert this; decide

theorem ReadsResponse.unique {method s : Str} {m m' : HttpResponse} {r r' : Str} (h : ReadsResponse method s m r)
    (h' : ReadsResponse method s m' r') : m = m' ∧ r = r' := by
  obtain ⟨code, lines, t, h1, h2, h3, h4, h5, h6, e⟩ := h.text
  obtain ⟨code', lines', t', h1', h2', h3', h4', h5', h6', e'⟩ := h'.text
  rw [e] at e'
  have hlen : m.version.length = m'.version.length := by
    rcases h.version with h | h <;> rcases h'.version with h' | h' <;> rw [h, h'] <;> decide
  obtain ⟨e0, e'⟩ := List.append_inj e' hlen
  obtain ⟨e1, e2⟩ := List.append_inj (List.cons.inj e').2 (h1.trans h1'.symm)
  have e3 := (List.cons.inj e2).2
  simp only [crlf, List.cons_append, List.nil_append] at e3
  obtain ⟨e4, e5⟩ := cut_unique (text_no_cr h.reason) (text_no_cr h'.reason) e3
  have e6 := (List.cons.inj e5).2
  have e7 : lines.flatMap (fun l => l.1 ++ crlf) ++ (crlf ++ t) = lines'.flatMap (fun l => l.1 ++ crlf) ++ (crlf ++ t') := by
    simpa [crlf] using e6
  obtain ⟨e8, e9⟩ := lines_unique h4 h4' e7
  rw [h5, h5'] at e8
  have e10 : m.status = m'.status := by rw [← h3, ← h3', e1]
  rw [← e0, ← e8, ← e10, ← e9] at h6'
  obtain ⟨e11, e12⟩ := h6.unique h6'
  refine ⟨?_, e12⟩
  cases m
  cases m'
  exact HttpResponse.mk.injEq .. ▸ ⟨e0, e10, e4, e8, e11⟩

/-! ## Fields that cannot be read -/

/-- If lines that were written from names and values can be read, then the names are tokens and the values text. -/
theorem fields_forced : ∀ {fields : List (Str × Str)} {lines : List (Str × (Str × Str))} {x y : Str},
    (∀ f ∈ fields, ':' ∉ f.1 ∧ '\n' ∉ f.1 ∧ '\r' ∉ f.2) → (∀ l ∈ lines, FieldLine l.1 l.2) →
    fields.flatMap (fun f => f.1 ++ ": ".toList ++ f.2 ++ "\r\n".toList) ++ (crlf ++ x) =
      lines.flatMap (fun l => l.1 ++ crlf) ++ (crlf ++ y) → ∀ f ∈ fields, Token f.1 ∧ FieldText f.2 := by
  intro fields
  induction fields with
  | nil => intro _ _ _ _ _ _ f hf; simp at hf
  | cons f fields ih =>
    intro lines x y hn hl e
    obtain ⟨k1, k2, k3⟩ := hn f (by simp)
    have e1 : f.1 ++ ':' :: ' ' :: (f.2 ++ '\r' :: '\n' :: (fields.flatMap
        (fun f => f.1 ++ ": ".toList ++ f.2 ++ "\r\n".toList) ++ (crlf ++ x))) =
        lines.flatMap (fun l => l.1 ++ crlf) ++ (crlf ++ y) := by
      rw [← e]; simp
    -- no carriage return followed by anything but a line feed
    have bad : ∀ (a b : Str) (z w : Str), '\n' ∉ b → b ++ ':' :: z = '\n' :: w → False := by
      intro a b z w hb hh
      cases b with
      | nil => simp at hh
      | cons d b => simp only [List.cons_append, List.cons.injEq] at hh; simp [hh.1] at hb
    cases lines with
    | nil =>
      exfalso
      simp only [List.flatMap_nil, List.nil_append, crlf, List.cons_append] at e1
      cases hk : f.1 with
      | nil => rw [hk] at e1; simp at e1
      | cons d b =>
        rw [hk] at e1 k2
        simp only [List.cons_append, List.cons.injEq] at e1
        exact bad [] b _ _ (fun hm => k2 (by simp [hm])) e1.2
    | cons l lines =>
      have hL := hl l (by simp)
      have e2 : f.1 ++ ':' :: ' ' :: (f.2 ++ '\r' :: '\n' :: (fields.flatMap
          (fun f => f.1 ++ ": ".toList ++ f.2 ++ "\r\n".toList) ++ (crlf ++ x))) =
          l.1 ++ '\r' :: '\n' :: (lines.flatMap (fun l => l.1 ++ crlf) ++ (crlf ++ y)) := by
        rw [e1]; simp [crlf]
      by_cases hcr : '\r' ∈ f.1
      · exfalso
        obtain ⟨a, b, hab, ha⟩ := List.eq_append_cons_of_mem hcr
        rw [hab] at e2 k2
        simp only [List.append_assoc, List.cons_append] at e2
        obtain ⟨-, e3⟩ := cut_unique ha hL.no_cr e2
        exact bad a b _ _ (fun hm => k2 (by simp [hm])) e3
      · have hline : '\r' ∉ f.1 ++ ':' :: ' ' :: f.2 := by
          intro hm
          simp only [List.mem_append, List.mem_cons] at hm
          rcases hm with hm | hm | hm | hm
          · exact hcr hm
          · exact absurd hm (by decide)
          · exact absurd hm (by decide)
          · exact k3 hm
        have e3 : (f.1 ++ ':' :: ' ' :: f.2) ++ '\r' :: ('\n' :: (fields.flatMap
            (fun f => f.1 ++ ": ".toList ++ f.2 ++ "\r\n".toList) ++ (crlf ++ x))) =
            l.1 ++ '\r' :: ('\n' :: (lines.flatMap (fun l => l.1 ++ crlf) ++ (crlf ++ y))) := by
          rw [← e2]; simp
        obtain ⟨e4, e5⟩ := cut_unique hline hL.no_cr e3
        have e6 := (List.cons.inj e5).2
        intro g hg
        rcases List.mem_cons.1 hg with rfl | hg
        · obtain ⟨w1, w2, o1, o2, et⟩ := hL.text
          rw [← e4] at et
          obtain ⟨n1, n2⟩ := cut_unique k1 (token_no hL.name (by decide)) et
          refine ⟨by rw [n1]; exact hL.name, ?_⟩
          intro c hc
          have hm : c ∈ w1 ++ (l.2.2 ++ w2) := by rw [← n2]; simp [hc]
          have ows : ∀ {w : Str}, Ows w → c ∈ w → c = '\t' ∨ (0x20 ≤ c.toNat ∧ c.toNat ≠ 0x7f) := by
            intro w hw hc
            rcases hw c hc with h | h
            · subst h; exact .inr (by decide)
            · exact .inl h
          rcases List.mem_append.1 hm with hm | hm
          · exact ows o1 hm
          · rcases List.mem_append.1 hm with hm | hm
            · exact hL.value c hm
            · exact ows o2 hm
        · exact ih (fun f hf => hn f (by simp [hf])) (fun l hl' => hl l (by simp [hl'])) e6 g hg

/-! ## Numbers -/

theorem digitChar_hex : ∀ n, n < 16 → Nat.digitChar n ∈ hexDigits ∧ hexDigitValue (Nat.digitChar n) = n := by
  decide

theorem hex_digits (n : Nat) : (∀ c ∈ natToHex n, c ∈ hexDigits) ∧ hexNumber (natToHex n) = n := by
  induction n using Nat.strongRecOn with
  | _ n ih =>
    unfold natToHex at ih ⊢
    by_cases hn : n < 16
    · rw [Nat.toDigits_of_lt_base hn]
      obtain ⟨h1, h2⟩ := digitChar_hex n hn
      exact ⟨fun c hc => by rw [List.mem_singleton.1 hc]; exact h1, by simp [hexNumber, h2]⟩
    · rw [Nat.toDigits_of_base_le (by decide) (by omega)]
      obtain ⟨h1, h2⟩ := digitChar_hex (n % 16) (by omega)
      obtain ⟨h3, h4⟩ := ih (n / 16) (by omega)
      constructor
      · intro c hc
        rcases List.mem_append.1 hc with hc | hc
        · exact h3 c hc
        · rw [List.mem_singleton.1 hc]; exact h1
      · unfold hexNumber at h4 ⊢
        rw [List.foldl_append, h4]
        simp only [List.foldl_cons, List.foldl_nil, h2]
        omega

theorem natToHex_ne (n : Nat) : natToHex n ≠ [] := Nat.toDigits_ne_nil

theorem three_digits {n : Nat} (h1 : 100 ≤ n) (h2 : n ≤ 999) : (natToDec n).length = 3 := by
  have key : ∀ k : Fin 900, (natToDec (100 + k.1)).length = 3 := by decide +kernel
  have := key ⟨n - 100, by omega⟩
  simp only at this
  rwa [show 100 + (n - 100) = n by omega] at this

theorem reason_text (n : Nat) : FieldText (reasonFor n) := by
  unfold reasonFor
  split
  · rename_i t ht
    have key : ∀ p ∈ statusTexts, p.2.toList.all
        (fun c => c = '\t' || (decide (0x20 ≤ c.toNat) && c.toNat ≠ 0x7f)) = true := by decide +kernel
    obtain ⟨l1, l2, e, -⟩ := List.lookup_eq_some_iff.1 ht
    exact fieldText_lit (key (n, t) (by rw [e]; simp))
  · intro c hc
    rcases List.mem_append.1 hc with hc | hc
    · exact fieldText_lit (s := "status code ".toList) (by decide) c hc
    · exact digits_text n c hc

end J8a

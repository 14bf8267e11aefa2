import Verif.Spec.Request
/-!
# Facts about reading bodies and copying headers
-/
namespace J8a
open Go

/-- What is left after a read, in terms of bytes; `p ≥ 1`. -/
theorem Body.read_spec (b : Body) (p : Nat) (hp : 0 < p) :
    (b.read p).1.length ≤ p ∧ b.bytes = (b.read p).1 ++ (b.read p).2.2.bytes ∧
    (b.read p).2.2.ending = b.ending ∧
    (∀ e, (b.read p).2.1 = some e → e = b.ending ∧ (b.read p).2.2.bytes = []) ∧
    ((b.read p).2.1 = none →
      (b.read p).2.2.bytes.length + (b.read p).2.2.pieces.length + 1
        ≤ b.bytes.length + b.pieces.length) := by
  obtain ⟨pieces, ending, eager⟩ := b
  cases pieces with
  | nil =>
    simp [Body.read, Body.bytes]
  | cons c cs =>
    by_cases hc : c.length ≤ p
    · simp only [Body.read, if_pos hc, Body.bytes, List.flatten_cons, List.length_append,
        List.length_cons]
      refine ⟨hc, trivial, trivial, ?_, fun _ => by omega⟩
      intro e he
      split at he
      · rename_i h
        simp only [Option.some.injEq] at he
        exact ⟨he.symm, by simp [h.2]⟩
      · cases he
    · simp only [Body.read, if_neg hc, Body.bytes, List.flatten_cons, List.length_append,
        List.length_cons, List.length_take, List.length_drop]
      refine ⟨by omega, ?_, trivial, by simp, fun _ => by omega⟩
      rw [← List.append_assoc, List.take_append_drop]

/-- Reading through the limit: the bytes up to the limit, and how reading ended. It does not matter
in which pieces the bytes arrive or which buffer sizes are used. -/
theorem readAllMax_eq (sz : Nat → Nat) (fuel i n : Nat) (b : Body) (acc : Bytes)
    (hf : b.bytes.length + b.pieces.length + 1 ≤ fuel) :
    readAllMax sz fuel i n b acc =
      if b.bytes.length ≤ n then (acc ++ b.bytes, b.ending.toReadEnd)
      else (acc ++ b.bytes.take n, .tooLarge) := by
  induction fuel generalizing i n b acc with
  | zero => omega
  | succ fuel ih =>
    obtain ⟨h1, h2, h3, h4, h5⟩ := b.read_spec (min (sz i + 1) (n + 1)) (by omega)
    rw [readAllMax]
    generalize hr : b.read (min (sz i + 1) (n + 1)) = r at h1 h2 h3 h4 h5
    obtain ⟨got, e, rest⟩ := r
    simp only at h1 h2 h3 h4 h5 ⊢
    by_cases hg : got.length ≤ n
    · rw [if_pos hg]
      cases e with
      | some e =>
        obtain ⟨he, hrest⟩ := h4 e rfl
        rw [hrest, List.append_nil] at h2
        simp only
        rw [h2, if_pos hg, he]
      | none =>
        simp only
        rw [ih _ _ rest _ (by have := h5 rfl; omega), h2, h3, List.length_append]
        by_cases hn : rest.bytes.length ≤ n - got.length
        · rw [if_pos hn, if_pos (by omega), List.append_assoc]
        · rw [if_neg hn, if_neg (by omega), List.take_append, List.take_of_length_le hg,
            List.append_assoc]
    · rw [if_neg hg, h2, List.length_append, if_neg (by omega), List.take_append,
        show n - got.length = 0 by omega]
      simp

theorem Body.fuel_eq (b : Body) : b.fuel = b.bytes.length + b.pieces.length + 1 := rfl

/-- `parseRequestBody` in terms of the bytes of the body. -/
theorem parseRequestBody_eq (sz : Nat → Nat) (max : Int) (rq : Request) (h0 : 0 ≤ max) :
    parseRequestBody sz max rq =
      if rq.contentLength = 0 then {}
      else if rq.contentLength ≥ max then { tooLarge := true }
      else if (rq.body.bytes.length : Int) ≤ max ∧ rq.body.ending = .eof then
        { body := rq.body.bytes }
      else {} := by
  unfold parseRequestBody
  split
  · rfl
  · split
    · rfl
    · rw [readAllMax_eq _ _ _ _ _ _ (by rw [Body.fuel_eq]; omega)]
      by_cases hn : rq.body.bytes.length ≤ max.toNat
      · rw [if_pos hn]
        simp only [List.nil_append]
        rw [if_neg (by omega)]
        cases he : rq.body.ending
        · rw [if_neg (by simp [BodyEnd.toReadEnd]), if_pos (by simp; omega)]
        · rw [if_pos (by simp [BodyEnd.toReadEnd]), if_neg (by simp)]
      · rw [if_neg hn]
        simp only [List.nil_append, List.length_take]
        rw [if_neg (by omega), if_pos (by simp), if_neg (by omega)]

/-! ## Header copying -/

theorem foldl_add (k : Str) (vs : List Str) (h : Hdr) (k' : Str) :
    (vs.foldl (fun h v => h.add k v) h) k' = if k' = canon k then h k' ++ vs else h k' := by
  induction vs generalizing h with
  | nil => simp
  | cons v vs ih =>
    rw [List.foldl_cons, ih]
    unfold Hdr.add
    split <;> simp

/-- The values a header gets from a list of entries. -/
theorem copyHeaders_eq (src : Entries) (dst : Hdr) (k : Str) :
    copyHeaders src dst k = dst k ++
      (src.filter fun kv => shouldProxyHeader kv.1 && canon kv.1 == k).flatMap Prod.snd := by
  unfold copyHeaders
  induction src generalizing dst with
  | nil => simp
  | cons kv src ih =>
    rw [List.foldl_cons, ih]
    by_cases hp : shouldProxyHeader kv.1
    · rw [if_pos hp, foldl_add]
      by_cases hk : k = canon kv.1
      · rw [if_pos hk, List.filter_cons_of_pos (by simp [hp, hk]), List.flatMap_cons,
          List.append_assoc]
      · rw [if_neg hk, List.filter_cons_of_neg (by simp [hp]; exact fun h => hk h.symm)]
    · rw [if_neg hp, List.filter_cons_of_neg (by simp [hp])]

theorem lookup_eq_filter (src : Entries) (hn : (src.map Prod.fst).Nodup) (k : Str) (q : Bool) :
    (src.filter fun kv => q && kv.1 == k).flatMap Prod.snd =
      if q then src.values k else [] := by
  cases q
  · simp
  · simp only [Bool.true_and, if_true, Entries.values]
    induction src with
    | nil => simp
    | cons kv src ih =>
      rw [List.map_cons, List.nodup_cons] at hn
      rw [List.lookup_cons]
      by_cases hk : kv.1 = k
      · rw [List.filter_cons_of_pos (by simp [hk])]
        have : (src.filter fun kv => kv.1 == k) = [] := by
          rw [List.filter_eq_nil_iff]
          intro x hx h
          exact hn.1 (by rw [hk]; rw [← eq_of_beq h]; exact List.mem_map_of_mem hx)
        rw [this]
        simp [hk]
      · rw [List.filter_cons_of_neg (by simp [hk]), ih hn.2]
        simp [show (k == kv.1) = false by simp; exact fun h => hk h.symm]

/-- Copying a parsed header: every proxied header gets its values appended, in order. -/
theorem copyHeaders_wf {src : Entries} (hw : src.WF) (dst : Hdr) (k : Str) :
    copyHeaders src dst k = dst k ++ (if shouldProxyHeader k then src.values k else []) := by
  rw [copyHeaders_eq]
  congr 1
  rw [← lookup_eq_filter src hw.nodup k (shouldProxyHeader k)]
  congr 1
  apply List.filter_congr
  intro kv hkv
  rw [hw.canonical kv hkv]
  by_cases h : kv.1 = k
  · simp [h]
  · rw [beq_false_of_ne h, Bool.and_false, Bool.and_false]

theorem Entries.lookup_of_mem {e : Entries} (hn : (e.map Prod.fst).Nodup) {k : Str}
    {vs : List Str} (h : (k, vs) ∈ e) : e.values k = vs := by
  unfold Entries.values
  induction e with
  | nil => cases h
  | cons kv e ih =>
    rw [List.map_cons, List.nodup_cons] at hn
    rw [List.lookup_cons]
    rcases List.mem_cons.1 h with h | h
    · subst h; simp
    · have hne : kv.1 ≠ k := fun hh => hn.1 (by rw [hh]; exact List.mem_map_of_mem h)
      simp only [show (k == kv.1) = false by simp; exact fun h => hne h.symm]
      exact ih hn.2 h

theorem Entries.values_nil {e : Entries} {k : Str} (h : ∀ kv ∈ e, kv.1 ≠ k) : e.values k = [] := by
  unfold Entries.values
  rw [List.lookup_eq_none_iff.2]
  · rfl
  · intro kv hkv
    have := h kv hkv
    simpa using fun hh => this (Eq.symm hh)

end J8a

import Verif.Go.RespRead
import Verif.Lemmas.Str
/-!
# What has been read does not change when more arrives
-/
namespace J8a.Go

theorem cutAt_append {c : Char} {s : Str} (h : c ∈ s) (t : Str) : cutAt c (s ++ t) = ((cutAt c s).1, (cutAt c s).2 ++ t) := by
  induction s with
  | nil => cases h
  | cons a s ih =>
    by_cases ha : a = c
    · subst ha
      simp [cutAt]
    · have hm : c ∈ s := by
        rcases List.mem_cons.1 h with rfl | h
        · exact absurd rfl ha
        · exact h
      have := ih hm
      simp only [cutAt, Prod.mk.injEq] at this
      simp only [cutAt, List.cons_append, Prod.mk.injEq]
      rw [List.takeWhile_cons_of_pos (by simpa using ha), List.takeWhile_cons_of_pos (by simpa using ha),
        List.dropWhile_cons_of_pos (by simpa using ha), List.dropWhile_cons_of_pos (by simpa using ha), this.1, this.2]
      exact ⟨rfl, rfl⟩

theorem readLine_append {s l r : Str} (h : readLine s = some (l, r)) (t : Str) : readLine (s ++ t) = some (l, r ++ t) := by
  unfold readLine at h ⊢
  split at h
  · rename_i hm
    simp only [Option.some.injEq, Prod.mk.injEq] at h
    rw [if_pos (List.mem_append_left _ hm), cutAt_append hm, ← h.1, ← h.2]
  · cases h

theorem headLines_append : ∀ (n : Nat) (s : Str) (ls : List Str) (r : Str), headLines n s = some (ls, r) → ∀ (k : Nat) (t : Str),
    n ≤ k → headLines k (s ++ t) = some (ls, r ++ t)
  | 0, _, _, _, h, _, _, _ => by cases h
  | n + 1, s, ls, r, h, k, t, hk => by
    obtain ⟨k, rfl⟩ : ∃ j, k = j + 1 := ⟨k - 1, by omega⟩
    rw [headLines] at h ⊢
    split at h
    · cases h
    · rename_i hl
      simp only [Option.some.injEq, Prod.mk.injEq] at h
      rw [readLine_append hl, ← h.1, ← h.2]
    · rename_i hl
      obtain ⟨p, hp, he⟩ := Option.map_eq_some_iff.1 h
      simp only [Prod.mk.injEq] at he
      rw [readLine_append hl]
      simp only
      rw [headLines_append n _ p.1 p.2 hp k t (by omega), ← he.1, ← he.2]
      rfl

theorem readRespHead_append {method s : Str} {h : RespHead} {r : Str} (H : readRespHead method s = some (h, r)) (t : Str) :
    readRespHead method (s ++ t) = some (h, r ++ t) := by
  unfold readRespHead at H ⊢
  simp only [Option.bind_eq_bind, Option.bind_eq_some_iff, Prod.exists] at H ⊢
  obtain ⟨first, r1, a1, v1, v2, st, a2, lines, rest, a3, kvs, a4, c, e1, a5, rl, e2, a6, len, a7, e3, a8, H⟩ := H
  simp only [Option.some.injEq, Prod.mk.injEq] at H
  obtain ⟨rfl, rfl⟩ := H
  exact ⟨first, r1 ++ t, readLine_append a1 t, v1, v2, st, a2, lines, rest ++ t,
    headLines_append _ _ _ _ a3 _ t (by simp), kvs, a4, c, e1, a5, rl, e2, a6, len, a7, e3, a8, rfl⟩

theorem readFinal_append {method : Str} : ∀ (n : Nat) (s : Str) (h : RespHead) (r : Str), readFinal method n s = some (h, r) →
    ∀ t, readFinal method n (s ++ t) = some (h, r ++ t) := by
  intro n
  induction n with
  | zero =>
    intro s h r H t
    rw [readFinal] at H ⊢
    simp only [Option.bind_eq_bind, Option.bind_eq_some_iff, Prod.exists] at H ⊢
    obtain ⟨h1, r1, a1, H⟩ := H
    refine ⟨h1, r1 ++ t, readRespHead_append a1 t, ?_⟩
    split at H
    · cases H
    · rename_i hi
      rw [if_neg hi]
      split at H
      · rename_i hs
        rw [if_pos hs]
        injection H with H; injection H with ha hb; subst ha hb; rfl
      · rename_i hs
        rw [if_neg hs]
        injection H with H; injection H with ha hb; subst ha hb; rfl
  | succ n ih =>
    intro s h r H t
    rw [readFinal] at H ⊢
    simp only [Option.bind_eq_bind, Option.bind_eq_some_iff, Prod.exists] at H ⊢
    obtain ⟨h1, r1, a1, H⟩ := H
    refine ⟨h1, r1 ++ t, readRespHead_append a1 t, ?_⟩
    split at H
    · rename_i hi
      rw [if_pos hi]
      exact ih r1 h r H t
    · rename_i hi
      rw [if_neg hi]
      split at H
      · rename_i hs
        rw [if_pos hs]
        injection H with H; injection H with ha hb; subst ha hb; rfl
      · rename_i hs
        rw [if_neg hs]
        injection H with H; injection H with ha hb; subst ha hb; rfl

theorem contains_append {s p : Str} (h : contains s p = true) (t : Str) : contains (s ++ t) p = true := by
  obtain ⟨a, b, rfl⟩ := contains_iff.1 h
  exact contains_iff.2 ⟨a, b ++ t, by simp⟩

theorem readTrailer_append {s r : Str} (h : readTrailer s = some r) (t : Str) : readTrailer (s ++ t) = some (r ++ t) := by
  unfold readTrailer at h ⊢
  split at h
  · rename_i h2
    injection h with h
    have hl : 2 ≤ s.length := by
      have := congrArg List.length h2
      simp at this
      omega
    rw [List.take_append_of_le_length hl, if_pos h2, List.drop_append_of_le_length hl, h]
  · rename_i h2
    split at h
    · cases h
    · rename_i hc
      simp only [Bool.not_eq_true', Bool.not_eq_false] at hc
      simp only [Option.bind_eq_bind, Option.bind_eq_some_iff, Prod.exists] at h
      obtain ⟨ls, r', a1, kvs, a2, h⟩ := h
      injection h with h
      subst h
      have hl : 2 ≤ s.length := by
        obtain ⟨a, b, rfl⟩ := contains_iff.1 hc
        simp
        omega
      rw [List.take_append_of_le_length hl, if_neg h2, contains_append hc]
      simp only [Bool.not_true, Bool.false_eq_true, if_false, Option.bind_eq_bind, Option.bind_eq_some_iff, Prod.exists]
      exact ⟨ls, r' ++ t, headLines_append _ _ _ _ a1 _ t (by simp), kvs, a2, rfl⟩

theorem readChunks_append : ∀ (n : Nat) (s b r : Str), readChunks n s = (b, some r) → ∀ (k : Nat) (t : Str), n ≤ k →
    readChunks k (s ++ t) = (b, some (r ++ t))
  | 0, _, _, _, h, _, _, _ => by cases h
  | n + 1, s, b, r, h, k, t, hk => by
    obtain ⟨k, rfl⟩ : ∃ j, k = j + 1 := ⟨k - 1, by omega⟩
    rw [readChunks] at h ⊢
    split at h
    · rename_i hm
      rw [if_pos (List.mem_append_left _ hm), cutAt_append hm]
      split at h
      · cases h
      · rename_i hz
        injection h with h1 h2
        simp only [hz, ← h1, readTrailer_append h2 t]
      · rename_i j hz
        simp only [hz]
        simp only at h
        generalize (cutAt '\n' s).2 = q at h ⊢
        split at h
        · cases h
        · rename_i hj
          split at h
          · rename_i h2
            have hl : 2 ≤ (q.drop (j + 1)).length := by
              have := congrArg List.length h2
              simp at this
              simp
              omega
            have hq : j + 3 ≤ q.length := by
              simp at hl
              omega
            have h1 := readChunks_append n (q.drop (j + 3)) (readChunks n (q.drop (j + 3))).1 r
              (by injection h with _ h; rw [← h]) k t (by omega)
            rw [if_neg (by simp; omega), List.drop_append_of_le_length (by omega), List.take_append_of_le_length hl, if_pos h2,
              List.drop_append_of_le_length hq, h1, List.take_append_of_le_length (by omega)]
            injection h with h _
            rw [← h]
          · cases h
    · cases h

theorem readRespBody_append {f : RespFraming} {s b r : Str} (hf : f ≠ .untilEnd) (h : readRespBody f s = (b, some r)) (t : Str) :
    readRespBody f (s ++ t) = (b, some (r ++ t)) := by
  cases f with
  | sized n =>
    simp only [readRespBody, readBody] at h ⊢
    split at h
    · rename_i hl
      injection h with h1 h2
      injection h2 with h2
      rw [if_pos (by simp; omega), List.take_append_of_le_length hl, List.drop_append_of_le_length hl, h1, h2]
    · cases h
  | chunked =>
    simp only [readRespBody, readBody] at h ⊢
    exact readChunks_append _ _ _ _ h _ t (by simp)
  | untilEnd => exact absurd rfl hf

end J8a.Go

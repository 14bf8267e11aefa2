import Verif.Spec.Jwt
/-!
# Lemmas on key sets, key loading and token verification
-/
namespace J8a
open Go

variable {K : Type}

theorem upsert_of_mem {ks : KeySet K} {kp : KidPair K} (h : kp.kid ∈ ks.map KidPair.kid) :
    ks.upsert kp = ks := by
  obtain ⟨a, ha, hk⟩ := List.mem_map.1 h
  have : ks.any (fun k => k.kid == kp.kid) = true := List.any_eq_true.2 ⟨a, ha, by simp [hk]⟩
  simp [KeySet.upsert, this]

theorem upsert_of_not_mem {ks : KeySet K} {kp : KidPair K} (h : kp.kid ∉ ks.map KidPair.kid) :
    ks.upsert kp = ks ++ [kp] := by
  have : ks.any (fun k => k.kid == kp.kid) = false := by
    rw [Bool.eq_false_iff]
    intro hc
    obtain ⟨a, ha, hk⟩ := List.any_eq_true.1 hc
    exact h (List.mem_map.2 ⟨a, ha, by simpa using hk⟩)
  simp [KeySet.upsert, this]

theorem upsert_cases (ks : KeySet K) (kp : KidPair K) :
    (kp.kid ∈ ks.map KidPair.kid ∧ ks.upsert kp = ks) ∨
    (kp.kid ∉ ks.map KidPair.kid ∧ ks.upsert kp = ks ++ [kp]) := by
  by_cases h : kp.kid ∈ ks.map KidPair.kid
  · exact .inl ⟨h, upsert_of_mem h⟩
  · exact .inr ⟨h, upsert_of_not_mem h⟩

theorem find_append_of_not_mem {ks : KeySet K} {kp : KidPair K} (h : kp.kid ∉ ks.map KidPair.kid) :
    KeySet.find (ks ++ [kp]) kp.kid = some kp.key := by
  have : List.find? (fun k => k.kid == kp.kid) ks = none := by
    rw [List.find?_eq_none]
    intro a ha hk
    exact h (List.mem_map.2 ⟨a, ha, by simpa using hk⟩)
  simp [KeySet.find, List.find?_append, this]

theorem find_isSome_iff {ks : KeySet K} {kid : Str} :
    (ks.find kid).isSome ↔ kid ∈ ks.map KidPair.kid := by
  simp [KeySet.find]

theorem find_prefix {ks ks' : KeySet K} {kid : Str} {key : K} (h : ks <+: ks')
    (hf : ks.find kid = some key) : KeySet.find ks' kid = some key := by
  obtain ⟨t, rfl⟩ := h
  simp only [KeySet.find, Option.map_eq_some_iff] at hf ⊢
  obtain ⟨a, ha, hk⟩ := hf
  exact ⟨a, by simp [List.find?_append, ha], hk⟩

theorem upsert_prefix (ks : KeySet K) (kp : KidPair K) : ks <+: ks.upsert kp := by
  rcases upsert_cases ks kp with ⟨_, h⟩ | ⟨_, h⟩ <;> rw [h]
  · exact List.prefix_refl _
  · exact List.prefix_append _ _

theorem upsert_nodup {ks : KeySet K} {kp : KidPair K} (h : (ks.map KidPair.kid).Nodup) :
    ((ks.upsert kp).map KidPair.kid).Nodup := by
  rcases upsert_cases ks kp with ⟨_, h'⟩ | ⟨hn, h'⟩ <;> rw [h']
  · exact h
  · rw [List.map_append, List.nodup_append]
    refine ⟨h, by simp, ?_⟩
    intro a ha b hb hab
    simp only [List.map_cons, List.map_nil, List.mem_singleton] at hb
    subst hab hb
    exact hn ha

theorem kid_mem_upsert (ks : KeySet K) (kp : KidPair K) :
    kp.kid ∈ (ks.upsert kp).map KidPair.kid := by
  rcases upsert_cases ks kp with ⟨h, h'⟩ | ⟨_, h'⟩ <;> rw [h']
  · exact h
  · simp

theorem mem_upsert {ks : KeySet K} {kp x : KidPair K} (h : x ∈ ks.upsert kp) : x ∈ ks ∨ x = kp := by
  rcases upsert_cases ks kp with ⟨_, h'⟩ | ⟨_, h'⟩ <;> rw [h'] at h
  · exact .inl h
  · simpa using h

/-- The families are the documented lists. -/
theorem family_rsa {a : Str} : family a = .rsa ↔ a ∈ rsaAlgs := by
  unfold family rsaAlgs
  split
  · rename_i h
    simp only [true_iff]
    exact h
  · rename_i h
    simp only [h, iff_false]
    split
    · simp
    split
    · simp
    split <;> simp

theorem family_ec {a : Str} : family a = .ec ↔ a ∈ ecAlgs := by
  unfold family
  split
  · rename_i h
    simp only [reduceCtorEq, false_iff]
    intro hc
    revert h hc
    simp only [ecAlgs, List.map_cons, List.map_nil, List.mem_cons, List.not_mem_nil, or_false]
    rintro (h | h | h | h | h | h) (h' | h' | h') <;> rw [h] at h' <;> revert h' <;> decide
  · split
    · rename_i h
      simp only [ecAlgs, true_iff]
      exact h
    · rename_i h
      have hn : a ∉ ecAlgs := h
      simp only [hn, iff_false]
      split
      · simp
      split <;> simp

theorem family_hmac {a : Str} : family a = .hmac ↔ a ∈ hmacAlgs := by
  unfold family
  split
  · rename_i h
    simp only [reduceCtorEq, false_iff]
    intro hc
    revert h hc
    simp only [hmacAlgs, List.map_cons, List.map_nil, List.mem_cons, List.not_mem_nil, or_false]
    rintro (h | h | h | h | h | h) (h' | h' | h') <;> rw [h] at h' <;> revert h' <;> decide
  · split
    · rename_i h
      simp only [reduceCtorEq, false_iff]
      intro hc
      revert h hc
      simp only [hmacAlgs, List.map_cons, List.map_nil, List.mem_cons, List.not_mem_nil, or_false]
      rintro (h | h | h) (h' | h' | h') <;> rw [h] at h' <;> revert h' <;> decide
    · split
      · rename_i h
        simp only [hmacAlgs, true_iff]
        exact h
      · rename_i h
        have hn : a ∉ hmacAlgs := h
        simp only [hn, iff_false]
        split <;> simp

theorem family_none {a : Str} : family a = .none ↔ a = "none".toList := by
  constructor
  · intro h
    unfold family at h
    split at h
    · cases h
    split at h
    · cases h
    split at h
    · cases h
    split at h
    · assumption
    · cases h
  · rintro rfl
    decide

theorem mem_validAlg {a : Str} :
    a ∈ validAlg ↔ a ∈ rsaAlgs ∨ a ∈ ecAlgs ∨ a ∈ hmacAlgs ∨ a = "none".toList := by
  simp only [validAlg, validAlgNoNone, rsaAlgs, ecAlgs, hmacAlgs, List.map_cons, List.map_nil,
    List.mem_cons, List.not_mem_nil, or_false, List.mem_append]
  grind

theorem checkBits_iff {a : Str} {n : Nat} (h : a ∈ ecAlgs) :
    checkECDSABitSize a n = true ↔ CurveSize a n := by
  simp only [ecAlgs, List.map_cons, List.map_nil, List.mem_cons, List.not_mem_nil, or_false] at h
  have n1 : "ES384".toList ≠ "ES256".toList := by decide
  have n2 : "ES512".toList ≠ "ES256".toList := by decide
  have n3 : "ES512".toList ≠ "ES384".toList := by decide
  have key : ∀ {a : Str} {n : Nat}, CurveSize a n →
      (a = "ES256".toList ∧ n = 256) ∨ (a = "ES384".toList ∧ n = 384) ∨
      (a = "ES512".toList ∧ n = 521) := by
    intro a n h
    cases h
    · exact .inl ⟨rfl, rfl⟩
    · exact .inr (.inl ⟨rfl, rfl⟩)
    · exact .inr (.inr ⟨rfl, rfl⟩)
  rcases h with h | h | h <;> subst h <;> unfold checkECDSABitSize
  · by_cases hn : n = 256
    · subst hn; simp only [ne_eq, not_true_eq_false, and_false, if_false]
      exact ⟨fun _ => .es256, fun _ => by simp [n1.symm, n2.symm]⟩
    · simp only [ne_eq, hn, not_false_eq_true, and_self, if_true, Bool.false_eq_true, false_iff]
      intro hc
      rcases key hc with h | h | h
      · exact hn h.2
      · exact n1 h.1.symm
      · exact n2 h.1.symm
  · by_cases hn : n = 384
    · subst hn
      exact ⟨fun _ => .es384, fun _ => by simp [n1, n3.symm]⟩
    · simp only [ne_eq, hn, not_false_eq_true, and_self, if_true, n1, false_and, if_false,
        Bool.false_eq_true, false_iff]
      intro hc
      rcases key hc with h | h | h
      · exact n1 h.1
      · exact hn h.2
      · exact n3 h.1.symm
  · by_cases hn : n = 521
    · subst hn
      exact ⟨fun _ => .es512, fun _ => by simp [n2, n3]⟩
    · simp only [ne_eq, hn, not_false_eq_true, and_self, if_true, n2, n3, false_and, if_false,
        Bool.false_eq_true, false_iff]
      intro hc
      rcases key hc with h | h | h
      · exact n2 h.1
      · exact n3 h.1
      · exact hn h.2

/-- The loop over the keys succeeds iff some key verifies the token. -/
theorem tryKeys_isSome (L : Jwx K) (alg token : Str) (ks : KeySet K) (last : Option Claims)
    (hl : last.isSome → ∃ kp ∈ ks, (L.parseVerify alg kp.key token).isSome) :
    (tryKeys L alg token last ks).isSome ↔
      ∃ kp ∈ ks, (L.parseVerify alg kp.key token).isSome := by
  induction ks generalizing last with
  | nil => simpa [tryKeys] using hl
  | cons kp ks ih =>
    unfold tryKeys
    cases h : L.parseVerify alg kp.key token with
    | some c =>
      simp only [Option.isSome_some, true_iff]
      exact ⟨kp, by simp, by simp [h]⟩
    | none =>
      rw [ih none (by simp)]
      simp [h]

end J8a

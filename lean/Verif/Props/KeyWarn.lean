import Verif.Props.KeyLog
/-!
# C168 — a refresh of the keys that fails leaves a warning
-/
namespace J8a
open Go

variable {K : Type}

/-- Lines that are written whatever LOGLEVEL is: logger.go:46-57 sets no level above warn. -/
def warns (l : ZEvent) : Bool := l.level = .warn ∨ l.level = .error ∨ l.level = .fatal

/-- What the log has to say about a key set that was not fetched. -/
def notFetched (T : KeyTexts K) (j : Jwt K) : ZEvent :=
  ⟨.warn, [], "jwt [".toList ++ (j.name ++ ("] unable to fetch jwk from jwks URL ".toList ++ (j.jwksUrl ++
    (", cause: ".toList ++ T.fetch j.jwksUrl))))⟩

/-- What the log has to say about a key with an algorithm that is not the configured one. -/
def otherAlg (j : Jwt K) (k : Jwk K) : ZEvent :=
  ⟨.warn, [("jwt".toList, .str j.name), ("jwtAlg".toList, .str j.alg), ("keyAlg".toList, .str k.alg)],
   "jwt [".toList ++ (j.name ++ ("] key algorithm [".toList ++ (k.alg ++
     ("] in jwks keyset does not match configured alg [".toList ++ (j.alg ++ "].".toList)))))⟩

theorem tag_append (n s : Str) : jwtTag n ++ s = "jwt [".toList ++ (n ++ ("] ".toList ++ s)) := by
  unfold jwtTag; simp only [List.append_assoc]

theorem mismatch_line (j : Jwt K) (k : Jwk K) :
    (⟨.warn, [("jwt".toList, .str j.name), ("jwtAlg".toList, .str j.alg), ("keyAlg".toList, .str k.alg)],
      algMismatch j.name k.alg j.alg⟩ : ZEvent) = otherAlg j k := by
  unfold otherAlg algMismatch
  congr 1
  simp only [List.append_assoc, tag_append]
  rfl

theorem fetch_line (T : KeyTexts K) (j : Jwt K) :
    (⟨.warn, [], jwtTag j.name ++ "unable to fetch jwk from jwks URL ".toList ++ j.jwksUrl ++ ", cause: ".toList ++
      T.fetch j.jwksUrl⟩ : ZEvent) = notFetched T j := by
  unfold notFetched
  congr 1
  simp only [List.append_assoc, tag_append]
  rfl

theorem loadLoop_warns (T : KeyTexts K) (alg name : Str) (hv : alg ∈ validAlg) : ∀ (ks : List (Jwk K)) (j j' : Jwt K)
    (err0 err : Option Str) (ls : List ZEvent), j.alg = alg → j.name = name →
    loadLoopLogged T j err0 ks = (.done j' err, ls) →
    ls.filter warns = ((ks.find? fun k => k.alg ≠ alg).toList.map
      (otherAlg ({ name := name, alg := alg } : Jwt K))) ∧
    ((ks.find? fun k => k.alg ≠ alg).isSome → err.isSome) := by
  intro ks
  induction ks with
  | nil =>
    intro j j' err0 err ls _ _ h
    simp only [loadLoopLogged, Prod.mk.injEq] at h
    rw [← h.2]
    exact ⟨rfl, fun h => by cases h⟩
  | cons k ks ih =>
    intro j j' err0 err ls ha hn h
    by_cases hk : k.alg = alg
    · have hf : ((k :: ks).find? fun k => decide (k.alg ≠ alg)) = ks.find? fun k => decide (k.alg ≠ alg) := by
        rw [List.find?_cons_of_neg]; simp [hk]
      rw [hf]
      have step : ∀ (j1 : Jwt K) (e : Option Str), j1.alg = alg → j1.name = name →
          ((loadLoopLogged T j1 e ks).1, parsedRemote j1.name k.alg :: (loadLoopLogged T j1 e ks).2) = (.done j' err, ls) →
          ls.filter warns = ((ks.find? fun k => k.alg ≠ alg).toList.map (otherAlg ({ name := name, alg := alg } : Jwt K))) ∧
          ((ks.find? fun k => k.alg ≠ alg).isSome → err.isSome) := by
        intro j1 e ha1 hn1 h
        simp only [Prod.mk.injEq] at h
        have := ih j1 j' e err _ ha1 hn1 (Prod.ext h.1 rfl)
        rw [← h.2]
        exact this
      simp only [loadLoopLogged] at h
      rw [if_neg (by rw [ha, hk]; simp), if_neg (by rw [hk]; simp [hv])] at h
      revert h
      cases family k.alg <;> dsimp only
      · cases k.raw <;> dsimp only <;> exact step _ _ ha hn
      · cases k.raw <;> dsimp only
        · intro h; simp at h
        · split <;> exact step _ _ ha hn
        · intro h; simp at h
      all_goals exact step _ _ ha hn
    · have hf : ((k :: ks).find? fun k => decide (k.alg ≠ alg)) = some k := by
        rw [List.find?_cons_of_pos]; simp [hk]
      rw [hf]
      simp only [loadLoopLogged] at h
      rw [if_pos (by rw [ha]; exact fun e => hk e.symm), mismatch_line] at h
      simp only [Prod.mk.injEq, Ended.done.injEq] at h
      rw [← h.2, ← h.1.2]
      refine ⟨?_, fun _ => rfl⟩
      subst ha; subst hn
      rfl

/-- A refresh that ends warns, once, if the key set is not fetched or has a key with another algorithm (the first one is
named), and in no other case; and if there is a warning, the refresh fails. -/
theorem C168_partial (T : KeyTexts K) (busy : Bool) (j j' : Jwt K) (hv : j.alg ∈ validAlg) (doc : Option (List (Jwk K)))
    (err : Option Str) (ls : List ZEvent) (h : loadJwksCall T busy j doc = (.done j' err, ls)) :
    ls.filter warns =
      (if busy then [] else match doc with
        | none => [notFetched T j]
        | some ks => (ks.find? fun k => k.alg ≠ j.alg).toList.map (otherAlg j)) ∧
    (ls.filter warns ≠ [] → err ≠ none) ∧ (busy = true → j' = j) := by
  cases busy with
  | true =>
    simp only [loadJwksCall, if_true, Prod.mk.injEq, Ended.done.injEq] at h
    rw [← h.2, ← h.1.1]
    exact ⟨rfl, fun h => absurd rfl h, fun _ => rfl⟩
  | false =>
    unfold loadJwksCall at h
    rw [if_neg (by simp)] at h
    cases doc with
    | none =>
      simp only [loadJwksLogged, Prod.mk.injEq, Ended.done.injEq] at h
      rw [fetch_line] at h
      rw [← h.2, ← h.1.2]
      exact ⟨rfl, ⟨fun _ => nofun, nofun⟩⟩
    | some ks =>
      cases ks with
      | nil =>
        simp only [loadJwksLogged, Prod.mk.injEq, Ended.done.injEq] at h
        rw [← h.2, ← h.1.2]
        exact ⟨rfl, fun h => absurd rfl h, fun h => by cases h⟩
      | cons k ks =>
        simp only [loadJwksLogged, Prod.mk.injEq] at h
        have := loadLoop_warns T j.alg j.name hv (k :: ks) j j' none err _ rfl rfl (Prod.ext h.1 rfl)
        have hw : ls.filter warns = ((k :: ks).find? fun k => k.alg ≠ j.alg).toList.map (otherAlg j) := by
          rw [← h.2]; exact this.1
        refine ⟨hw, fun hne => ?_, fun h => by cases h⟩
        intro he
        have hs : ((k :: ks).find? fun k => decide (k.alg ≠ j.alg)).isSome = true := by
          cases hf : (k :: ks).find? fun k => decide (k.alg ≠ j.alg) with
          | none => rw [hw, hf] at hne; exact absurd rfl hne
          | some _ => rfl
        have := this.2 hs
        rw [he] at this
        cases this

/-- The second key has another algorithm. -/
example :
    (loadJwksCall someTexts false ({ name := "a".toList, alg := "RS256".toList, jwksUrl := "u".toList } : Jwt Str)
      (some [⟨"1".toList, "RS256".toList, .rsa "x".toList⟩, ⟨"2".toList, "RS512".toList, .rsa "y".toList⟩])).2 =
    [⟨.debug, [], "jwt [a] fetched 2 jwk from jwks URL u".toList⟩,
     ⟨.debug, [], "jwt [a] successfully parsed RS256 key from remote jwk".toList⟩,
     ⟨.warn, [("jwt".toList, .str "a".toList), ("jwtAlg".toList, .str "RS256".toList), ("keyAlg".toList, .str "RS512".toList)],
      "jwt [a] key algorithm [RS512] in jwks keyset does not match configured alg [RS256].".toList⟩] := by decide +kernel

/-- A key set without keys is an error without a warning. -/
theorem C168_violated_empty (T : KeyTexts K) (j : Jwt K) :
    ∃ text ls, loadJwksCall T false j (some []) = (.done j (some text), ls) ∧ ls.filter warns = [] :=
  ⟨_, _, rfl, rfl⟩

/-- For every algorithm there is a key set with which a refresh fails without a warning: one key, with the right
algorithm, that is not of its kind or size. -/
theorem C168_violated [Inhabited K] (T : KeyTexts K) (j : Jwt K) (hv : j.alg ∈ validAlg) :
    ∃ k : Jwk K, k.alg = j.alg ∧ ∃ text ls, loadJwksCall T false j (some [k]) = (.done j (some text), ls) ∧
      ls.filter warns = [] := by
  by_cases hf : family j.alg = .ec
  · have hb : checkECDSABitSize j.alg 0 = false := by
      unfold family at hf
      split at hf
      · cases hf
      split at hf
      · next h =>
        simp only [List.map_cons, List.map_nil, List.mem_cons, List.not_mem_nil, or_false] at h
        rcases h with h | h | h <;> rw [h] <;> decide
      split at hf
      · cases hf
      split at hf
      · cases hf
      · cases hf
    refine ⟨⟨[], j.alg, .ec default 0⟩, rfl, ?_⟩
    unfold loadJwksCall
    rw [if_neg (by simp)]
    simp only [loadJwksLogged, loadLoopLogged]
    rw [if_neg (by simp), if_neg (by simp [hv]), hf]
    dsimp only
    rw [if_neg (by rw [hb]; simp)]
    exact ⟨_, _, rfl, rfl⟩
  · refine ⟨⟨[], j.alg, .neither⟩, rfl, ?_⟩
    unfold loadJwksCall
    rw [if_neg (by simp)]
    simp only [loadJwksLogged, loadLoopLogged]
    rw [if_neg (by simp), if_neg (by simp [hv])]
    revert hf
    cases family j.alg <;> intro hf
    · exact ⟨_, _, rfl, rfl⟩
    · exact absurd rfl hf
    all_goals exact ⟨_, _, rfl, rfl⟩

end J8a

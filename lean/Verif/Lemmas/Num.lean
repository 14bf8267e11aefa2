import Verif.Go.Num
/-!
# Decimal numbers
-/
namespace J8a.Go

theorem natToDec_isDigit {n : Nat} {c : Char} (h : c ∈ natToDec n) : c.isDigit = true :=
  Nat.isDigit_of_mem_toDigits (by decide) (by decide) h

theorem digitsVal_natToDec (n : Nat) : digitsVal (natToDec n) = n := by
  unfold digitsVal natToDec
  have := Nat.ofDigitChars_toDigits (b := 10) (n := n) (by decide) (by decide)
  rw [Nat.ofDigitChars_eq_foldl] at this
  exact this

theorem natToDec_ne_nil (n : Nat) : natToDec n ≠ [] := Nat.toDigits_ne_nil

/-- Parsing a rendered number gives it back, unless it is too large. -/
theorem atoi_natToDec (n : Nat) : atoi (natToDec n) = if (n : Int) ≤ maxInt64 then some (n : Int) else none := by
  have hd : ∀ c ∈ natToDec n, c.isDigit = true := fun c hc => natToDec_isDigit hc
  have hne := natToDec_ne_nil n
  have hv := digitsVal_natToDec n
  generalize natToDec n = s at *
  unfold atoi
  split
  rename_i neg ds heq
  have : neg = false ∧ ds = s := by
    split at heq
    · have := hd '-' (by simp); simp at this
    · have := hd '+' (by simp); simp at this
    · simp only [Prod.mk.injEq] at heq; exact ⟨heq.1.symm, heq.2.symm⟩
  obtain ⟨rfl, rfl⟩ := this
  rw [if_pos ⟨hne, by rw [List.all_eq_true]; exact hd⟩]
  simp only [hv, Bool.false_eq_true, if_false]
  have : minInt64 ≤ (n : Int) := by unfold minInt64; omega
  simp [this]

end J8a.Go

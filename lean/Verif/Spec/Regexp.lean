import Verif.Model.Regexp
/-!
# What regular expressions mean
-/
namespace J8a
open Go

/-- `n` steps of a relation. -/
def Steps (R : Nat → Nat → Prop) : Nat → Nat → Nat → Prop
  | 0, i, j => i = j
  | n + 1, i, j => ∃ k, R i k ∧ Steps R n k j

/-- At position `i` of `w` stands a letter, a digit or an underscore. -/
def WordAt (w : Str) (i : Nat) : Prop :=
  ∃ c, w[i]? = some c ∧ (('0' ≤ c ∧ c ≤ '9') ∨ ('A' ≤ c ∧ c ≤ 'Z') ∨ c = '_' ∨ ('a' ≤ c ∧ c ≤ 'z'))

/-- A word begins or ends at position `i`. -/
def EdgeAt (w : Str) (i : Nat) : Prop := ¬ ((∃ k, i = k + 1 ∧ WordAt w k) ↔ WordAt w i)

/-- `r` matches the part of `w` from position `i` to position `j`. -/
def Re.Matches (w : Str) : Re → Nat → Nat → Prop
  | .eps, i, j => i = j
  | .cls neg ranges, i, j => j = i + 1 ∧ ∃ c, w[i]? = some c ∧
      (neg = false ∧ (∃ p ∈ ranges, p.1 ≤ c ∧ c ≤ p.2) ∨ neg = true ∧ ∀ p ∈ ranges, ¬ (p.1 ≤ c ∧ c ≤ p.2))
  | .bol, i, j => i = j ∧ i = 0
  | .eol, i, j => i = j ∧ i = w.length
  | .wb neg, i, j => i = j ∧ (EdgeAt w i ↔ neg = false)
  | .cat a b, i, j => ∃ k, Re.Matches w a i k ∧ Re.Matches w b k j
  | .alt a b, i, j => Re.Matches w a i j ∨ Re.Matches w b i j
  | .star a, i, j => ∃ n, Steps (Re.Matches w a) n i j
  | .plus a, i, j => ∃ n, 0 < n ∧ Steps (Re.Matches w a) n i j
  | .quest a, i, j => i = j ∨ Re.Matches w a i j
  | .rep a min max, i, j => ∃ n, min ≤ n ∧ (∀ m, max = some m → n ≤ m) ∧ Steps (Re.Matches w a) n i j

end J8a

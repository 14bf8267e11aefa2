import Verif.Model.Stats
/-! # Vocabulary for the memory history -/
namespace J8a

/-- The last `n` elements of a list. -/
def lastN {α : Type} (n : Nat) (l : List α) : List α := l.drop (l.length - n)

/-- A history with data in every slot. -/
def HistoryComplete (h : List Sample) : Prop := ∀ s ∈ h, s.pid ≠ 0

end J8a

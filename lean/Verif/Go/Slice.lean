/-!
# Go slices

A slice header refers to a backing array from an offset on. The backing array is kept in the value:
two headers that share an array are not needed by the parts modelled with this type.
-/
namespace J8a.Go

/-- A slice: `arr[off : off+len]`, capacity `arr.length - off`. -/
structure Slice (α : Type) where
  arr : List α
  off : Nat
  len : Nat
  fits : off + len ≤ arr.length

namespace Slice
variable {α : Type}

/-- The elements the slice shows. -/
def view (s : Slice α) : List α := (s.arr.drop s.off).take s.len

/-- `make([]T, n)` with the zero value `z`. -/
def make (n : Nat) (z : α) : Slice α := ⟨List.replicate n z, 0, n, by simp⟩

/-- `s[i] = x`; `none` is the index panic. -/
def set (s : Slice α) (i : Nat) (x : α) : Option (Slice α) :=
  if i < s.len then
    some ⟨s.arr.set (s.off + i) x, s.off, s.len, by rw [List.length_set]; exact s.fits⟩
  else none

/-- `s[1:]`; `none` is the panic for an empty slice without capacity. -/
def tail (s : Slice α) : Option (Slice α) :=
  if h : 1 ≤ s.len then some ⟨s.arr, s.off + 1, s.len - 1, by have := s.fits; omega⟩ else none

/-- `append(s, x)`: in place when there is capacity, otherwise into a new array with `grow` spare
elements of the zero value `z`. -/
def append (z : α) (grow : Nat) (s : Slice α) (x : α) : Slice α :=
  if h : s.off + s.len < s.arr.length then
    ⟨s.arr.set (s.off + s.len) x, s.off, s.len + 1, by rw [List.length_set]; omega⟩
  else
    ⟨s.view ++ x :: List.replicate grow z, 0, s.len + 1, by
      have := s.fits
      simp only [view, List.length_append, List.length_take, List.length_drop, List.length_cons,
        List.length_replicate]; omega⟩

end Slice
end J8a.Go

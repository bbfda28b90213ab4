import Verif.SliceOps

/-!
# Vectors and matrices in memory

A slice with one dimension is a vector, one with two dimensions a matrix; their entries are at a fixed distance from each other.
-/

namespace LvArray.Spec

/-- The address of entry `i` of a vector. -/
def entry (s : Slice) (i : Nat) : Int := s.data + (i : Int) * (s.strides.getD 0 0 : Nat)

/-- The address of entry `( i, j )` of a matrix. -/
def entry2 (s : Slice) (i j : Nat) : Int := s.data + (i : Int) * (s.strides.getD 0 0 : Nat) + (j : Int) * (s.strides.getD 1 0 : Nat)

/-- A slice with one dimension of size `n`; if its type says that its stride is one, it is. -/
structure IsVector (n : Nat) (s : Slice) : Prop where
  dims : s.dims = [n]
  strides : s.strides.length = 1
  unit : s.usd = 0 → s.strides.getD 0 0 = 1

/-- A slice with two dimensions of sizes `n` and `m`; if its type says that one of its strides is one, it is. -/
structure IsMatrix (n m : Nat) (s : Slice) : Prop where
  dims : s.dims = [n, m]
  strides : s.strides.length = 2
  unit0 : s.usd = 0 → s.strides.getD 0 0 = 1
  unit1 : s.usd = 1 → s.strides.getD 1 0 = 1

/-- The entries of a vector have different addresses. -/
def Distinct (n : Nat) (s : Slice) : Prop := ∀ i j, i < n → j < n → entry s i = entry s j → i = j

/-- The entries of a matrix have different addresses. -/
def Distinct2 (n m : Nat) (s : Slice) : Prop :=
  ∀ i j k l, i < n → j < m → k < n → l < m → entry2 s i j = entry2 s k l → i = k ∧ j = l

/-- The addresses of the entries of a vector. -/
def Cells (n : Nat) (s : Slice) (a : Int) : Prop := ∃ i, i < n ∧ a = entry s i

/-- The addresses of the entries of a matrix. -/
def Cells2 (n m : Nat) (s : Slice) (a : Int) : Prop := ∃ i j, i < n ∧ j < m ∧ a = entry2 s i j

/-- Two sets of addresses have nothing in common. -/
def NoneShared (P Q : Int → Prop) : Prop := ∀ a, P a → ¬ Q a

/-- Going through the entries in order, none of `src` is overwritten by an assignment to `dst` before it is its turn. -/
def ReadFirst (n : Nat) (dst src : Slice) : Prop := ∀ k i, k < i → i < n → entry dst k ≠ entry src i

/-- Going through the entries row by row, none of `src` is overwritten by an assignment to `dst` before it is its turn. -/
def ReadFirst2 (n m : Nat) (dst src : Slice) : Prop :=
  ∀ k l i j, i < n → j < m → l < m → (k < i ∨ k = i ∧ l < j) → entry2 dst k l ≠ entry2 src i j

/-- The call returns, entry `i` of the vector `s` is then `f i`, and the rest of the memory is as before. -/
def SetsVector {K : Type} (n : Nat) (s : Slice) (old : Store K) (f : Nat → K) (r : R (Store K)) : Prop :=
  ∃ new, r = .ok new ∧ (∀ i, i < n → new (entry s i) = f i) ∧ ∀ a, ¬ Cells n s a → new a = old a

/-- The call returns, entry `( i, j )` of the matrix `s` is then `f i j`, and the rest of the memory is as before. -/
def SetsMatrix {K : Type} (n m : Nat) (s : Slice) (old : Store K) (f : Nat → Nat → K) (r : R (Store K)) : Prop :=
  ∃ new, r = .ok new ∧ (∀ i j, i < n → j < m → new (entry2 s i j) = f i j) ∧ ∀ a, ¬ Cells2 n m s a → new a = old a

end LvArray.Spec

import Mathlib.LinearAlgebra.Matrix.Determinant.Basic
import Mathlib.LinearAlgebra.Matrix.Notation

/-!
# What the operations on vectors and matrices ought to compute

Independent of the model: ordinary sums and the matrices of Mathlib.
-/

namespace LvArray.Spec

/-- Entry `i` of `result` is `f i` for every `i` below `n`; the entries beyond are those of `old`. -/
def VectorIs {K : Type} (n : Nat) (result old : Nat → K) (f : Nat → K) : Prop :=
  (∀ i, i < n → result i = f i) ∧ ∀ i, ¬ i < n → result i = old i

/-- Entry `(i, j)` of `result` is `f i j` for every `i` below `n` and `j` below `m`; the others are those of `old`. -/
def MatrixIs {K : Type} (n m : Nat) (result old : Nat → Nat → K) (f : Nat → Nat → K) : Prop :=
  (∀ i j, i < n → j < m → result i j = f i j) ∧ ∀ i j, ¬ (i < n ∧ j < m) → result i j = old i j

/-- The leading `n` by `n` entries as a matrix. -/
def square {K : Type} (n : Nat) (a : Nat → Nat → K) : Matrix (Fin n) (Fin n) K := Matrix.of fun i j => a i j

/-- The first `n` entries as a vector. -/
def vector {K : Type} (n : Nat) (v : Nat → K) : Fin n → K := fun i => v i

/-- The symmetric matrix of size two packed as `{ 00, 11, 01 }`. -/
def voigt2 {K : Type} (s : Nat → K) : Matrix (Fin 2) (Fin 2) K := !![s 0, s 2; s 2, s 1]

/-- The symmetric matrix of size three packed as `{ 00, 11, 22, 12, 02, 01 }`. -/
def voigt3 {K : Type} (s : Nat → K) : Matrix (Fin 3) (Fin 3) K := !![s 0, s 5, s 4; s 5, s 1, s 3; s 4, s 3, s 2]

end LvArray.Spec

import Verif.Spec.Tensor
import Verif.Spec.TensorSlices

/-!
# Square matrices and symmetric matrices in memory

As matrices of Mathlib.
-/

namespace LvArray.Spec

variable {K : Type}

/-- The matrix of size `n` in memory. -/
def matrixAt (n : Nat) (s : Slice) (mem : Store K) : Matrix (Fin n) (Fin n) K := square n fun i j => mem (entry2 s i j)

/-- The vector of size `n` in memory. -/
def vectorAt (n : Nat) (s : Slice) (mem : Store K) : Fin n → K := vector n fun i => mem (entry s i)

/-- The symmetric matrix of size two packed in memory. -/
def packed2 (s : Slice) (mem : Store K) : Matrix (Fin 2) (Fin 2) K := voigt2 fun i => mem (entry s i)

/-- The symmetric matrix of size three packed in memory. -/
def packed3 (s : Slice) (mem : Store K) : Matrix (Fin 3) (Fin 3) K := voigt3 fun i => mem (entry s i)

/-- The call returns; what is then in memory is as `Q` says, and memory is as before except at the addresses `P`. -/
def Leaves (P : Int → Prop) (old : Store K) (Q : Store K → Prop) (r : R (Store K)) : Prop :=
  ∃ new, r = .ok new ∧ Q new ∧ ∀ a, ¬ P a → new a = old a

/-- The call returns `x`; what is then in memory is as `Q` says, and memory is as before except at the addresses `P`. -/
def Returns (P : Int → Prop) (old : Store K) (x : K) (Q : Store K → Prop) (r : R (Store K × K)) : Prop :=
  ∃ new, r = .ok (new, x) ∧ Q new ∧ ∀ a, ¬ P a → new a = old a

/-- Two matrices are inverse to each other. -/
def Inverse [CommRing K] {n : Nat} (a b : Matrix (Fin n) (Fin n) K) : Prop := a * b = 1 ∧ b * a = 1

end LvArray.Spec

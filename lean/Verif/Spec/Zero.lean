import Verif.Spec.MatrixViews

/-!
# Specification: setting a matrix to zero, and values as bytes
-/

namespace LvArray

/-- A type of values that are made of bytes: how many there are, what a value becomes when its first `n` bytes are set to zero, and
the value all bytes of which are zero. -/
structure Bytes (V : Type) where
  size : Nat
  clear : Nat → V → V
  zero : V
  size_pos : 0 < size
  clear_none : ∀ v, clear 0 v = v
  clear_all : ∀ v, clear size v = zero

namespace Spec

variable {V : Type}

/-- The matrix with the same non zero columns, all with the value `z`. -/
def Matrix.allEqual (M : Matrix V) (z : V) : Matrix V := { M with rows := M.rows.map fun f j => (f j).map fun _ => z }

end Spec

end LvArray

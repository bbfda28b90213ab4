import Mathlib.Data.Real.Basic
import Mathlib.Algebra.BigOperators.Group.Finset.Basic
import Mathlib.Algebra.Order.BigOperators.Group.Finset
/-!
# Specification: floating point numbers, and how close a result is

Independent of the model: what IEEE 754 says about addition, subtraction and multiplication, in the form used for the analysis of
rounding errors.
-/

namespace LvArray.Spec

/-- A type of floating point numbers.  For `float` and `double` rounding to nearest the relative error `u` is `2^-24` and `2^-53`,
the absolute error `tiny` of results below the normal range is `2^-150` and `2^-1075`, and `huge` is the largest finite number.  The
other rounding modes have twice these errors.  What is not finite is an infinity or a NaN. -/
class FloatingPoint (F : Type) [Add F] [Sub F] [Mul F] where
  /-- the number that a finite value stands for -/
  val : F → ℝ
  Finite : F → Prop
  u : ℝ
  tiny : ℝ
  huge : ℝ
  u_nonneg : 0 ≤ u
  tiny_nonneg : 0 ≤ tiny
  /-- infinities and NaNs do not go away -/
  add_finite : ∀ a b : F, Finite (a + b) → Finite a ∧ Finite b
  sub_finite : ∀ a b : F, Finite (a - b) → Finite a ∧ Finite b
  mul_finite : ∀ a b : F, Finite (a * b) → Finite a ∧ Finite b
  /-- each operation is exact up to one rounding; sums and differences are exact below the normal range -/
  add_close : ∀ a b : F, Finite (a + b) → |val (a + b) - (val a + val b)| ≤ u * |val a + val b|
  sub_close : ∀ a b : F, Finite (a - b) → |val (a - b) - (val a - val b)| ≤ u * |val a - val b|
  mul_close : ∀ a b : F, Finite (a * b) → |val (a * b) - val a * val b| ≤ u * |val a * val b| + tiny
  /-- there is no overflow unless the result, rounded away from zero, is too large -/
  add_defined : ∀ a b : F, Finite a → Finite b → (1 + u) * |val a + val b| ≤ huge → Finite (a + b)
  sub_defined : ∀ a b : F, Finite a → Finite b → (1 + u) * |val a - val b| ≤ huge → Finite (a - b)
  mul_defined : ∀ a b : F, Finite a → Finite b → (1 + u) * |val a * val b| + tiny ≤ huge → Finite (a * b)

open FloatingPoint

variable {F : Type} [Add F] [Sub F] [Mul F] [FloatingPoint F]

/-- The result `x` of a computation of a sum of terms, whose exact value is `exact` and for which the absolute values of the terms
add up to `size`, in which no term goes through more than `k` operations: its error is at most `( 1 + u )^k - 1` times `size`, plus
`low` for results below the normal range, and there is no overflow unless `size` is close to the largest number. -/
def Computes (x : F) (exact size : ℝ) (k : Nat) (low : ℝ) : Prop :=
  (Finite x → |val x - exact| ≤ ((1 + u F) ^ k - 1) * size + low) ∧
  ((1 + u F) ^ k * size + low ≤ huge F → Finite x)

/-- The same for every entry of a vector below `n`; the others are those of `old`. -/
def VectorComputes (n : Nat) (result old : Nat → F) (exact size : Nat → ℝ) (k : Nat) (low : ℝ) : Prop :=
  (∀ i, i < n → Computes (result i) (exact i) (size i) k low) ∧ ∀ i, ¬ i < n → result i = old i

/-- The same for the entries of a matrix. -/
def MatrixComputes (n m : Nat) (result old : Nat → Nat → F) (exact size : Nat → Nat → ℝ) (k : Nat) (low : ℝ) : Prop :=
  (∀ i j, i < n → j < m → Computes (result i j) (exact i j) (size i j) k low) ∧ ∀ i j, ¬ (i < n ∧ j < m) → result i j = old i j

/-- The sum of the absolute values of the two terms of a determinant of size two. -/
def terms2 (a : Nat → Nat → ℝ) : ℝ := |a 0 0 * a 1 1| + |a 0 1 * a 1 0|

/-- The sum of the absolute values of the six terms of a determinant of size three. -/
def terms3 (a : Nat → Nat → ℝ) : ℝ :=
  |a 0 0 * a 1 1 * a 2 2| + |a 0 0 * a 1 2 * a 2 1| + |a 1 0 * a 0 2 * a 2 1| + |a 1 0 * a 0 1 * a 2 2| +
    |a 2 0 * a 0 1 * a 1 2| + |a 2 0 * a 0 2 * a 1 1|

end LvArray.Spec

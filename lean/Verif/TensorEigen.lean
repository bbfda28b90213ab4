import Verif.TensorFixed
import Mathlib.Analysis.SpecialFunctions.Trigonometric.Inverse
import Mathlib.Analysis.Real.Sqrt

/-!
# `tensorOps`: norms, eigenvalues and eigenvectors

Over the real numbers, with the exact square root and trigonometric functions in the place of those of /repo/src/math.hpp.  Local arrays
that are not initialised are arguments.
-/

namespace LvArray.tensorOps

noncomputable section

/-- `math::invSqrt`: /repo/src/math.hpp 503-522. -/
def invSqrt (x : ℝ) : ℝ := 1 / √x

/-- `l2Norm< ISIZE >`: /repo/src/genericTensorOps.hpp 725-733. -/
def l2Norm (n : Nat) (v : Vec ℝ) : ℝ := √(l2NormSquared n v)

/-- `normalize< ISIZE >`: /repo/src/genericTensorOps.hpp 742-753. -/
def normalize (n : Nat) (v : Vec ℝ) : Vec ℝ × ℝ :=
  let normInv := invSqrt (l2NormSquared n v)
  (scale n v normInv, 1 / normInv)

/-- `shiftAndScale< M >`: /repo/src/fixedSizeSquareMatrixOpsImpl.hpp 36-61: the new matrix, the shift and the scale. -/
def shiftAndScale (m : Nat) (matrix : Vec ℝ) : Vec ℝ × ℝ × ℝ :=
  let shift := symTrace m matrix / m
  let matrix := symAddIdentity m matrix (-shift)
  let maxEntryAfterShift := maxAbsoluteEntry (symSize m) matrix
  let matrix := if maxEntryAfterShift > 0 then scale (symSize m) matrix (1 / maxEntryAfterShift) else matrix
  let secondShift := symTrace m matrix / m
  let matrix := symAddIdentity m matrix (-secondShift)
  (matrix, shift, maxEntryAfterShift)

/-! ## 2 by 2 -/

/-- `SquareMatrixOps< 2 >::eigenvaluesOfShiftedMatrix`: /repo/src/fixedSizeSquareMatrixOpsImpl.hpp 541-556. -/
def eigenvaluesOfShiftedMatrix2 (eigenvalues matrix : Vec ℝ) : Vec ℝ :=
  let eigenvalues := eigenvalues.put 1 (√(matrix 2 * matrix 2 - matrix 0 * matrix 1))
  let eigenvalues := eigenvalues.put 0 (-eigenvalues 1)
  eigenvalues

/-- `SquareMatrixOps< 2 >::symEigenvalues`: /repo/src/fixedSizeSquareMatrixOpsImpl.hpp 392-414. -/
def symEigenvalues2 (fpCopy eigenvalues symMatrix : Vec ℝ) : Vec ℝ :=
  let fpCopy := copy 3 fpCopy symMatrix
  let (fpCopy, shift, maxEntryAfterShift) := shiftAndScale 2 fpCopy
  let eigenvalues := eigenvaluesOfShiftedMatrix2 eigenvalues fpCopy
  let eigenvalues := eigenvalues.put 0 (eigenvalues 0 * maxEntryAfterShift + shift)
  let eigenvalues := eigenvalues.put 1 (eigenvalues 1 * maxEntryAfterShift + shift)
  eigenvalues

/-- The branch of `SquareMatrixOps< 2 >::symEigenvectors` that computes vectors: /repo/src/fixedSizeSquareMatrixOpsImpl.hpp 464-484. -/
def kernel2 (eigenvectors : Mat ℝ) (fpCopy : Vec ℝ) : Mat ℝ :=
  let a2 := fpCopy 0 * fpCopy 0
  let c2 := fpCopy 1 * fpCopy 1
  let b2 := fpCopy 2 * fpCopy 2
  let eigenvectors :=
    if a2 > c2 then
      let inv := invSqrt (a2 + b2)
      (eigenvectors.put 0 1 (-fpCopy 2 * inv)).put 1 1 (fpCopy 0 * inv)
    else
      let inv := invSqrt (c2 + b2)
      (eigenvectors.put 0 1 (-fpCopy 1 * inv)).put 1 1 (fpCopy 2 * inv)
  let eigenvectors := eigenvectors.put 0 0 (-eigenvectors 1 1)
  let eigenvectors := eigenvectors.put 1 0 (eigenvectors 0 1)
  eigenvectors

/-- `SquareMatrixOps< 2 >::symEigenvectors`: /repo/src/fixedSizeSquareMatrixOpsImpl.hpp 429-490.  `epsilon` is
`NumericLimits< FloatingPoint >::epsilon`. -/
def symEigenvectors2 (epsilon : ℝ) (fpCopy eigenvalues : Vec ℝ) (eigenvectors : Mat ℝ) (symMatrix : Vec ℝ) : Vec ℝ × Mat ℝ :=
  let fpCopy := copy 3 fpCopy symMatrix
  let (fpCopy, shift, maxEntryAfterShift) := shiftAndScale 2 fpCopy
  let eigenvalues := eigenvaluesOfShiftedMatrix2 eigenvalues fpCopy
  let eigenvectors :=
    if eigenvalues 1 - eigenvalues 0 ≤ epsilon then (((eigenvectors.put 0 0 1).put 0 1 0).put 1 0 0).put 1 1 1
    else kernel2 eigenvectors (symAddIdentity 2 fpCopy (-eigenvalues 1))
  let eigenvalues := eigenvalues.put 0 (eigenvalues 0 * maxEntryAfterShift + shift)
  let eigenvalues := eigenvalues.put 1 (eigenvalues 1 * maxEntryAfterShift + shift)
  (eigenvalues, eigenvectors)

/-! ## 3 by 3 -/

/-- `SquareMatrixOps< 3 >::eigenvaluesOfShiftedMatrix`: /repo/src/fixedSizeSquareMatrixOpsImpl.hpp 1173-1217.  Simplification: the
constant `squareRootThree`, in the code 1.73205080756887729352744, is the square root of three. -/
def eigenvaluesOfShiftedMatrix3 (eigenvalues matrix : Vec ℝ) : Vec ℝ :=
  let oneSixthTraceASquared :=
    (matrix 2 * matrix 2 - matrix 0 * matrix 1 + matrix 3 * matrix 3 + matrix 4 * matrix 4 + matrix 5 * matrix 5) / 3
  let p := √oneSixthTraceASquared
  let det := if p > 0 then symDeterminant3 matrix / (p * p * p) else 0
  let halfDetB := if det > 2 then 1 else if det < -2 then -1 else det / 2
  let theta := Real.arccos halfDetB / 3
  let sinTheta := Real.sin theta
  let cosTheta := Real.cos theta
  let squareRootThree := √3
  let eigenvalues := eigenvalues.put 0 (-p * (cosTheta + squareRootThree * sinTheta))
  let eigenvalues := eigenvalues.put 1 (-p * (cosTheta - squareRootThree * sinTheta))
  let eigenvalues := eigenvalues.put 2 (2 * p * cosTheta)
  eigenvalues

/-- `SquareMatrixOps< 3 >::symEigenvalues`: /repo/src/fixedSizeSquareMatrixOpsImpl.hpp 1005-1026. -/
def symEigenvalues3 (fpCopy eigenvalues symMatrix : Vec ℝ) : Vec ℝ :=
  let fpCopy := copy 6 fpCopy symMatrix
  let (fpCopy, shift, maxEntryAfterShift) := shiftAndScale 3 fpCopy
  let eigenvalues := eigenvaluesOfShiftedMatrix3 eigenvalues fpCopy
  let eigenvalues := eigenvalues.put 0 (maxEntryAfterShift * eigenvalues 0 + shift)
  let eigenvalues := eigenvalues.put 1 (maxEntryAfterShift * eigenvalues 1 + shift)
  let eigenvalues := eigenvalues.put 2 (maxEntryAfterShift * eigenvalues 2 + shift)
  eigenvalues

/-- `matrix[ i ] = v` for a row that an operation on vectors of size three has changed. -/
def putRow (matrix : Mat ℝ) (i : Nat) (v : Vec ℝ) : Mat ℝ := fun k l => if k = i then v l else matrix k l

/-- `SquareMatrixOps< 3 >::getNullVector`: /repo/src/fixedSizeSquareMatrixOpsImpl.hpp 1228-1255: the vector and the row. -/
def getNullVector (candidate nullVector : Vec ℝ) (mat : Mat ℝ) : Vec ℝ × Nat :=
  let abs00 := |mat 0 0|
  let abs11 := |mat 1 1|
  let abs22 := |mat 2 2|
  let row := if abs00 > abs11 then (if abs00 > abs22 then 0 else 2) else (if abs11 > abs22 then 1 else 2)
  let nullVector := crossProduct nullVector (mat row) (mat ((row + 1) % 3))
  let n0 := l2NormSquared 3 nullVector
  let candidate := crossProduct candidate (mat row) (mat ((row + 2) % 3))
  let n1 := l2NormSquared 3 candidate
  let nullVector := if n0 > n1 then scale 3 nullVector (invSqrt n0) else scaledCopy 3 nullVector candidate (invSqrt n1)
  (nullVector, row)

/-- The matrix from which an eigenvalue is subtracted: /repo/src/fixedSizeSquareMatrixOpsImpl.hpp 1080-1082. -/
def shifted3 (fpCopy : Vec ℝ) (eigenvalue : ℝ) : Mat ℝ := fun i j =>
  match i, j with
  | 0, 0 => fpCopy 0 - eigenvalue
  | 0, 1 => fpCopy 5
  | 0, 2 => fpCopy 4
  | 1, 0 => fpCopy 5
  | 1, 1 => fpCopy 1 - eigenvalue
  | 1, 2 => fpCopy 3
  | 2, 0 => fpCopy 4
  | 2, 1 => fpCopy 3
  | 2, 2 => fpCopy 2 - eigenvalue
  | _, _ => 0

/-- The branch of `SquareMatrixOps< 3 >::symEigenvectors` that computes vectors: /repo/src/fixedSizeSquareMatrixOpsImpl.hpp 1070-1108. -/
def vectors3 (epsilon : ℝ) (candidate : Vec ℝ) (eigenvalues : Vec ℝ) (eigenvectors : Mat ℝ) (fpCopy : Vec ℝ) : Mat ℝ :=
  let eigenvalueDifference := eigenvalues 2 - eigenvalues 0
  let mostDistinct := if eigenvalues 2 - eigenvalues 1 > eigenvalues 1 - eigenvalues 0 then 2 else 0
  let secondMostDistinct := 2 - mostDistinct
  let tmp := shifted3 fpCopy (eigenvalues mostDistinct)
  let (v, row) := getNullVector candidate (eigenvectors mostDistinct) tmp
  let eigenvectors := putRow eigenvectors mostDistinct v
  let minEigenvalueSpacing := |eigenvalues secondMostDistinct - eigenvalues 1|
  let eigenvectors :=
    if minEigenvalueSpacing ≤ 2 * epsilon * eigenvalueDifference then
      let norm2 := l2NormSquared 3 (tmp row)
      putRow eigenvectors secondMostDistinct (scaledCopy 3 (eigenvectors secondMostDistinct) (tmp row) (invSqrt norm2))
    else
      let tmp := tmp.put 0 0 (fpCopy 0 - eigenvalues secondMostDistinct)
      let tmp := tmp.put 1 1 (fpCopy 1 - eigenvalues secondMostDistinct)
      let tmp := tmp.put 2 2 (fpCopy 2 - eigenvalues secondMostDistinct)
      putRow eigenvectors secondMostDistinct (getNullVector candidate (eigenvectors secondMostDistinct) tmp).1
  let eigenvectors := putRow eigenvectors 1 (crossProduct (eigenvectors 1) (eigenvectors 2) (eigenvectors 0))
  let eigenvectors := putRow eigenvectors 1 (normalize 3 (eigenvectors 1)).1
  eigenvectors

/-- `LVARRAY_TENSOROPS_ASSIGN_3x3` of the identity: /repo/src/fixedSizeSquareMatrixOpsImpl.hpp 1065-1068. -/
def assignIdentity3 (m : Mat ℝ) : Mat ℝ :=
  let m := ((m.put 0 0 1).put 0 1 0).put 0 2 0
  let m := ((m.put 1 0 0).put 1 1 1).put 1 2 0
  ((m.put 2 0 0).put 2 1 0).put 2 2 1

/-- `SquareMatrixOps< 3 >::symEigenvectors`: /repo/src/fixedSizeSquareMatrixOpsImpl.hpp 1041-1114. -/
def symEigenvectors3 (epsilon : ℝ) (candidate fpCopy eigenvalues : Vec ℝ) (eigenvectors : Mat ℝ) (symMatrix : Vec ℝ) : Vec ℝ × Mat ℝ :=
  let fpCopy := copy 6 fpCopy symMatrix
  let (fpCopy, shift, maxEntryAfterShift) := shiftAndScale 3 fpCopy
  let eigenvalues := eigenvaluesOfShiftedMatrix3 eigenvalues fpCopy
  let eigenvectors :=
    if eigenvalues 2 - eigenvalues 0 ≤ epsilon then assignIdentity3 eigenvectors
    else vectors3 epsilon candidate eigenvalues eigenvectors fpCopy
  let eigenvalues := eigenvalues.put 0 (maxEntryAfterShift * eigenvalues 0 + shift)
  let eigenvalues := eigenvalues.put 1 (maxEntryAfterShift * eigenvalues 1 + shift)
  let eigenvalues := eigenvalues.put 2 (maxEntryAfterShift * eigenvalues 2 + shift)
  (eigenvalues, eigenvectors)

end

end LvArray.tensorOps

import Verif.TensorEigen
import Verif.TensorFixedSlices

/-!
# `tensorOps`: eigenvalues and eigenvectors, with arguments in one memory

The functions of `Verif/TensorEigen.lean` once more with slices in one memory as arguments, as in `Verif/TensorFixedSlices.lean`.
Local C arrays are values: nothing else can refer to them, and what they hold at first is an argument.  Simplification: real numbers,
exact square roots and trigonometric functions.
-/

namespace LvArray.tensorOps.Slices

noncomputable section

/-- `copy< ISIZE >( loc, src )`: /repo/src/genericTensorOps.hpp 358-371. -/
def load (c : Cfg) (n : Nat) (loc : Vec ℝ) (src : Slice) (mem : Store ℝ) : R (Vec ℝ) := do
  checkSizes c n src
  loopR n 0 (fun i loc => do .ok (loc.put i (← rd c mem src i))) loc

/-- `crossProduct( dst, a, b )` with local `a` and `b`: /repo/src/genericTensorOps.hpp 790-803. -/
def crossProductOf (c : Cfg) (dst : Slice) (a b : Vec ℝ) (mem : Store ℝ) : R (Store ℝ) := do
  checkSizes c 3 dst
  let mem ← wr c mem dst 0 (a 1 * b 2 - a 2 * b 1)
  let mem ← wr c mem dst 1 (a 2 * b 0 - a 0 * b 2)
  let mem ← wr c mem dst 2 (a 0 * b 1 - a 1 * b 0)
  .ok mem

/-- `scaledCopy< ISIZE >( dst, src, scale )` with a local `src`: /repo/src/genericTensorOps.hpp 459-473. -/
def scaledCopyOf (c : Cfg) (n : Nat) (dst : Slice) (src : Vec ℝ) (s : ℝ) (mem : Store ℝ) : R (Store ℝ) := do
  checkSizes c n dst
  loopR n 0 (fun i mem => do wr c mem dst i (s * src i)) mem

/-- `l2NormSquared< ISIZE >`: /repo/src/genericTensorOps.hpp 698-713. -/
def l2NormSquared (c : Cfg) (n : Nat) (v : Slice) (mem : Store ℝ) : R ℝ := do
  checkSizes c n v
  loopR (n - 1) 1 (fun i norm => do .ok (norm + (← rd c mem v i) * (← rd c mem v i))) ((← rd c mem v 0) * (← rd c mem v 0))

/-- `normalize< ISIZE >`: /repo/src/genericTensorOps.hpp 742-753. -/
def normalize (c : Cfg) (n : Nat) (v : Slice) (mem : Store ℝ) : R (Store ℝ × ℝ) := do
  checkSizes c n v
  let normInv := invSqrt (← l2NormSquared c n v mem)
  let mem ← scale c n v normInv mem
  .ok (mem, 1 / normInv)

/-! ## 2 by 2 -/

/-- `SquareMatrixOps< 2 >::eigenvaluesOfShiftedMatrix`: /repo/src/fixedSizeSquareMatrixOpsImpl.hpp 541-556. -/
def eigenvaluesOfShiftedMatrix2 (c : Cfg) (eigenvalues : Slice) (matrix : Vec ℝ) (mem : Store ℝ) : R (Store ℝ) := do
  let mem ← wr c mem eigenvalues 1 (√(matrix 2 * matrix 2 - matrix 0 * matrix 1))
  let mem ← wr c mem eigenvalues 0 (-(← rd c mem eigenvalues 1))
  .ok mem

/-- `SquareMatrixOps< 2 >::symEigenvalues`: /repo/src/fixedSizeSquareMatrixOpsImpl.hpp 392-414. -/
def symEigenvalues2 (c : Cfg) (fpCopy : Vec ℝ) (eigenvalues symMatrix : Slice) (mem : Store ℝ) : R (Store ℝ) := do
  checkSizes c 2 eigenvalues
  checkSizes c 3 symMatrix
  let fpCopy ← load c 3 fpCopy symMatrix mem
  let (fpCopy, shift, maxEntryAfterShift) := shiftAndScale 2 fpCopy
  let mem ← eigenvaluesOfShiftedMatrix2 c eigenvalues fpCopy mem
  let mem ← wr c mem eigenvalues 0 ((← rd c mem eigenvalues 0) * maxEntryAfterShift + shift)
  let mem ← wr c mem eigenvalues 1 ((← rd c mem eigenvalues 1) * maxEntryAfterShift + shift)
  .ok mem

/-- The branch of `SquareMatrixOps< 2 >::symEigenvectors` that computes vectors: /repo/src/fixedSizeSquareMatrixOpsImpl.hpp 464-484. -/
def kernel2 (c : Cfg) (eigenvectors : Slice) (fpCopy : Vec ℝ) (mem : Store ℝ) : R (Store ℝ) := do
  let a2 := fpCopy 0 * fpCopy 0
  let c2 := fpCopy 1 * fpCopy 1
  let b2 := fpCopy 2 * fpCopy 2
  let mem ←
    if a2 > c2 then do
      let inv := invSqrt (a2 + b2)
      let mem ← wr2 c mem eigenvectors 0 1 (-fpCopy 2 * inv)
      wr2 c mem eigenvectors 1 1 (fpCopy 0 * inv)
    else do
      let inv := invSqrt (c2 + b2)
      let mem ← wr2 c mem eigenvectors 0 1 (-fpCopy 1 * inv)
      wr2 c mem eigenvectors 1 1 (fpCopy 2 * inv)
  let mem ← wr2 c mem eigenvectors 0 0 (-(← rd2 c mem eigenvectors 1 1))
  let mem ← wr2 c mem eigenvectors 1 0 (← rd2 c mem eigenvectors 0 1)
  .ok mem

/-- `LVARRAY_TENSOROPS_ASSIGN_2x2` of the identity: /repo/src/fixedSizeSquareMatrixOpsImpl.hpp 455-459. -/
def assignIdentity2 (c : Cfg) (m : Slice) (mem : Store ℝ) : R (Store ℝ) := do
  let mem ← wr2 c mem m 0 0 1
  let mem ← wr2 c mem m 0 1 0
  let mem ← wr2 c mem m 1 0 0
  let mem ← wr2 c mem m 1 1 1
  .ok mem

/-- `SquareMatrixOps< 2 >::symEigenvectors`: /repo/src/fixedSizeSquareMatrixOpsImpl.hpp 429-490. -/
def symEigenvectors2 (c : Cfg) (epsilon : ℝ) (fpCopy : Vec ℝ) (eigenvalues eigenvectors symMatrix : Slice) (mem : Store ℝ) :
    R (Store ℝ) := do
  checkSizes c 2 eigenvalues
  checkSizes2 c 2 2 eigenvectors
  checkSizes c 3 symMatrix
  let fpCopy ← load c 3 fpCopy symMatrix mem
  let (fpCopy, shift, maxEntryAfterShift) := shiftAndScale 2 fpCopy
  let mem ← eigenvaluesOfShiftedMatrix2 c eigenvalues fpCopy mem
  let e1 ← rd c mem eigenvalues 1
  let e0 ← rd c mem eigenvalues 0
  let mem ←
    if e1 - e0 ≤ epsilon then assignIdentity2 c eigenvectors mem
    else do
      let e ← rd c mem eigenvalues 1
      kernel2 c eigenvectors (tensorOps.symAddIdentity 2 fpCopy (-e)) mem
  let mem ← wr c mem eigenvalues 0 ((← rd c mem eigenvalues 0) * maxEntryAfterShift + shift)
  let mem ← wr c mem eigenvalues 1 ((← rd c mem eigenvalues 1) * maxEntryAfterShift + shift)
  .ok mem

/-! ## 3 by 3 -/

/-- `SquareMatrixOps< 3 >::eigenvaluesOfShiftedMatrix`: /repo/src/fixedSizeSquareMatrixOpsImpl.hpp 1173-1217; the constant
`squareRootThree` is the square root of three. -/
def eigenvaluesOfShiftedMatrix3 (c : Cfg) (eigenvalues : Slice) (matrix : Vec ℝ) (mem : Store ℝ) : R (Store ℝ) := do
  let oneSixthTraceASquared :=
    (matrix 2 * matrix 2 - matrix 0 * matrix 1 + matrix 3 * matrix 3 + matrix 4 * matrix 4 + matrix 5 * matrix 5) / 3
  let p := √oneSixthTraceASquared
  let det := if p > 0 then tensorOps.symDeterminant3 matrix / (p * p * p) else 0
  let halfDetB := if det > 2 then 1 else if det < -2 then -1 else det / 2
  let theta := Real.arccos halfDetB / 3
  let sinTheta := Real.sin theta
  let cosTheta := Real.cos theta
  let squareRootThree := √3
  let mem ← wr c mem eigenvalues 0 (-p * (cosTheta + squareRootThree * sinTheta))
  let mem ← wr c mem eigenvalues 1 (-p * (cosTheta - squareRootThree * sinTheta))
  let mem ← wr c mem eigenvalues 2 (2 * p * cosTheta)
  .ok mem

/-- The last lines of both functions: /repo/src/fixedSizeSquareMatrixOpsImpl.hpp 1022-1025, 1110-1113. -/
def rescale3 (c : Cfg) (eigenvalues : Slice) (maxEntryAfterShift shift : ℝ) (mem : Store ℝ) : R (Store ℝ) := do
  let mem ← wr c mem eigenvalues 0 (maxEntryAfterShift * (← rd c mem eigenvalues 0) + shift)
  let mem ← wr c mem eigenvalues 1 (maxEntryAfterShift * (← rd c mem eigenvalues 1) + shift)
  let mem ← wr c mem eigenvalues 2 (maxEntryAfterShift * (← rd c mem eigenvalues 2) + shift)
  .ok mem

/-- `SquareMatrixOps< 3 >::symEigenvalues`: /repo/src/fixedSizeSquareMatrixOpsImpl.hpp 1005-1026. -/
def symEigenvalues3 (c : Cfg) (fpCopy : Vec ℝ) (eigenvalues symMatrix : Slice) (mem : Store ℝ) : R (Store ℝ) := do
  checkSizes c 3 eigenvalues
  checkSizes c 6 symMatrix
  let fpCopy ← load c 6 fpCopy symMatrix mem
  let (fpCopy, shift, maxEntryAfterShift) := shiftAndScale 3 fpCopy
  let mem ← eigenvaluesOfShiftedMatrix3 c eigenvalues fpCopy mem
  rescale3 c eigenvalues maxEntryAfterShift shift mem

/-- `SquareMatrixOps< 3 >::getNullVector`: /repo/src/fixedSizeSquareMatrixOpsImpl.hpp 1228-1255. -/
def getNullVector (c : Cfg) (candidate : Vec ℝ) (nullVector : Slice) (mat : Mat ℝ) (mem : Store ℝ) : R (Store ℝ × Nat) := do
  let abs00 := |mat 0 0|
  let abs11 := |mat 1 1|
  let abs22 := |mat 2 2|
  let row := if abs00 > abs11 then (if abs00 > abs22 then 0 else 2) else (if abs11 > abs22 then 1 else 2)
  let mem ← crossProductOf c nullVector (mat row) (mat ((row + 1) % 3)) mem
  let n0 ← l2NormSquared c 3 nullVector mem
  let candidate := tensorOps.crossProduct candidate (mat row) (mat ((row + 2) % 3))
  let n1 := tensorOps.l2NormSquared 3 candidate
  let mem ← if n0 > n1 then scale c 3 nullVector (invSqrt n0) mem else scaledCopyOf c 3 nullVector candidate (invSqrt n1) mem
  .ok (mem, row)

/-- `LVARRAY_TENSOROPS_ASSIGN_3x3` of the identity: /repo/src/fixedSizeSquareMatrixOpsImpl.hpp 1065-1068. -/
def assignIdentity3 (c : Cfg) (m : Slice) (mem : Store ℝ) : R (Store ℝ) := do
  let mem ← wr2 c mem m 0 0 1
  let mem ← wr2 c mem m 0 1 0
  let mem ← wr2 c mem m 0 2 0
  let mem ← wr2 c mem m 1 0 0
  let mem ← wr2 c mem m 1 1 1
  let mem ← wr2 c mem m 1 2 0
  let mem ← wr2 c mem m 2 0 0
  let mem ← wr2 c mem m 2 1 0
  let mem ← wr2 c mem m 2 2 1
  .ok mem

/-- The branch of `SquareMatrixOps< 3 >::symEigenvectors` that computes vectors: /repo/src/fixedSizeSquareMatrixOpsImpl.hpp 1070-1108;
`eigenvectors[ i ]` is the `operator[]` of `ArraySlice`. -/
def vectors3 (c : Cfg) (epsilon eigenvalueDifference : ℝ) (candidate : Vec ℝ) (eigenvalues eigenvectors : Slice) (fpCopy : Vec ℝ)
    (mem : Store ℝ) : R (Store ℝ) := do
  let mostDistinct := if (← rd c mem eigenvalues 2) - (← rd c mem eigenvalues 1) > (← rd c mem eigenvalues 1) - (← rd c mem eigenvalues 0)
    then 2 else 0
  let secondMostDistinct := 2 - mostDistinct
  let tmp := shifted3 fpCopy (← rd c mem eigenvalues mostDistinct)
  let (mem, row) ← getNullVector c candidate (← eigenvectors.at_ c mostDistinct) tmp mem
  let minEigenvalueSpacing := |(← rd c mem eigenvalues secondMostDistinct) - (← rd c mem eigenvalues 1)|
  let mem ←
    if minEigenvalueSpacing ≤ 2 * epsilon * eigenvalueDifference then do
      let norm2 := tensorOps.l2NormSquared 3 (tmp row)
      scaledCopyOf c 3 (← eigenvectors.at_ c secondMostDistinct) (tmp row) (invSqrt norm2) mem
    else do
      let e ← rd c mem eigenvalues secondMostDistinct
      let tmp := tmp.put 0 0 (fpCopy 0 - e)
      let tmp := tmp.put 1 1 (fpCopy 1 - e)
      let tmp := tmp.put 2 2 (fpCopy 2 - e)
      let (mem, _) ← getNullVector c candidate (← eigenvectors.at_ c secondMostDistinct) tmp mem
      .ok mem
  let mem ← crossProduct c (← eigenvectors.at_ c 1) (← eigenvectors.at_ c 2) (← eigenvectors.at_ c 0) mem
  let (mem, _) ← normalize c 3 (← eigenvectors.at_ c 1) mem
  .ok mem

/-- `SquareMatrixOps< 3 >::symEigenvectors`: /repo/src/fixedSizeSquareMatrixOpsImpl.hpp 1041-1114. -/
def symEigenvectors3 (c : Cfg) (epsilon : ℝ) (candidate fpCopy : Vec ℝ) (eigenvalues eigenvectors symMatrix : Slice) (mem : Store ℝ) :
    R (Store ℝ) := do
  checkSizes c 3 eigenvalues
  checkSizes2 c 3 3 eigenvectors
  checkSizes c 6 symMatrix
  let fpCopy ← load c 6 fpCopy symMatrix mem
  let (fpCopy, shift, maxEntryAfterShift) := shiftAndScale 3 fpCopy
  let mem ← eigenvaluesOfShiftedMatrix3 c eigenvalues fpCopy mem
  let e2 ← rd c mem eigenvalues 2
  let e0 ← rd c mem eigenvalues 0
  let mem ←
    if e2 - e0 ≤ epsilon then assignIdentity3 c eigenvectors mem
    else vectors3 c epsilon (e2 - e0) candidate eigenvalues eigenvectors fpCopy mem
  rescale3 c eigenvalues maxEntryAfterShift shift mem

end

end LvArray.tensorOps.Slices

import Verif.TensorFixed
import Verif.TensorSlices

/-!
# `tensorOps` on square matrices of size two and three in one memory

The functions of `Verif/TensorFixed.lean` once more, now with arguments that are slices in one memory, as in `Verif/TensorSlices.lean`: one
line is one assignment of the code, every subscript is the `operator[]` of `ArraySlice`, and the sizes are compared as the build
configuration says.  The forwarding functions of /repo/src/fixedSizeSquareMatrixOps.hpp add nothing.  Simplification: exact arithmetic.
-/

namespace LvArray.tensorOps.Slices

variable {K : Type} [Add K] [Sub K] [Mul K] [Neg K] [Div K] [Zero K] [One K] [OfNat K 2]

/-! ## 2 by 2 -/

/-- `SquareMatrixOps< 2 >::determinant`: /repo/src/fixedSizeSquareMatrixOpsImpl.hpp 86-92. -/
def determinant2 (c : Cfg) (matrix : Slice) (mem : Store K) : R K := do
  checkSizes2 c 2 2 matrix
  .ok ((← rd2 c mem matrix 0 0) * (← rd2 c mem matrix 1 1) - (← rd2 c mem matrix 0 1) * (← rd2 c mem matrix 1 0))

/-- `SquareMatrixOps< 2 >::invert`: /repo/src/fixedSizeSquareMatrixOpsImpl.hpp 103-122. -/
def invert2 (c : Cfg) (dstMatrix srcMatrix : Slice) (mem : Store K) : R (Store K × K) := do
  checkSizes2 c 2 2 dstMatrix
  checkSizes2 c 2 2 srcMatrix
  let det ← determinant2 c srcMatrix mem
  let invDet := 1 / det
  let mem ← wr2 c mem dstMatrix 0 0 ((← rd2 c mem srcMatrix 1 1) * invDet)
  let mem ← wr2 c mem dstMatrix 1 1 ((← rd2 c mem srcMatrix 0 0) * invDet)
  let mem ← wr2 c mem dstMatrix 0 1 ((← rd2 c mem srcMatrix 0 1) * (-invDet))
  let mem ← wr2 c mem dstMatrix 1 0 ((← rd2 c mem srcMatrix 1 0) * (-invDet))
  .ok (mem, det)

/-- `SquareMatrixOps< 2 >::invert`, in place: /repo/src/fixedSizeSquareMatrixOpsImpl.hpp 131-147. -/
def invert2InPlace (c : Cfg) (matrix : Slice) (mem : Store K) : R (Store K × K) := do
  checkSizes2 c 2 2 matrix
  let det ← determinant2 c matrix mem
  let invDet := 1 / det
  let temp ← rd2 c mem matrix 0 0
  let mem ← wr2 c mem matrix 0 0 ((← rd2 c mem matrix 1 1) * invDet)
  let mem ← wr2 c mem matrix 1 1 (temp * invDet)
  let mem ← wr2 c mem matrix 0 1 ((← rd2 c mem matrix 0 1) * (-invDet))
  let mem ← wr2 c mem matrix 1 0 ((← rd2 c mem matrix 1 0) * (-invDet))
  .ok (mem, det)

/-- `SquareMatrixOps< 2 >::symDeterminant`: /repo/src/fixedSizeSquareMatrixOpsImpl.hpp 154-160. -/
def symDeterminant2 (c : Cfg) (symMatrix : Slice) (mem : Store K) : R K := do
  checkSizes c 3 symMatrix
  .ok ((← rd c mem symMatrix 0) * (← rd c mem symMatrix 1) - (← rd c mem symMatrix 2) * (← rd c mem symMatrix 2))

/-- `SquareMatrixOps< 2 >::symInvert`: /repo/src/fixedSizeSquareMatrixOpsImpl.hpp 171-189. -/
def symInvert2 (c : Cfg) (dstSymMatrix srcSymMatrix : Slice) (mem : Store K) : R (Store K × K) := do
  checkSizes c 3 dstSymMatrix
  checkSizes c 3 srcSymMatrix
  let det ← symDeterminant2 c srcSymMatrix mem
  let invDet := 1 / det
  let mem ← wr c mem dstSymMatrix 0 ((← rd c mem srcSymMatrix 1) * invDet)
  let mem ← wr c mem dstSymMatrix 1 ((← rd c mem srcSymMatrix 0) * invDet)
  let mem ← wr c mem dstSymMatrix 2 ((← rd c mem srcSymMatrix 2) * (-invDet))
  .ok (mem, det)

/-- `SquareMatrixOps< 2 >::symInvert`, in place: /repo/src/fixedSizeSquareMatrixOpsImpl.hpp 198-213. -/
def symInvert2InPlace (c : Cfg) (symMatrix : Slice) (mem : Store K) : R (Store K × K) := do
  checkSizes c 3 symMatrix
  let det ← symDeterminant2 c symMatrix mem
  let invDet := 1 / det
  let temp ← rd c mem symMatrix 0
  let mem ← wr c mem symMatrix 0 ((← rd c mem symMatrix 1) * invDet)
  let mem ← wr c mem symMatrix 1 (temp * invDet)
  let mem ← wr c mem symMatrix 2 ((← rd c mem symMatrix 2) * (-invDet))
  .ok (mem, det)

/-- `SquareMatrixOps< 2 >::Ri_eq_symAijBj`: /repo/src/fixedSizeSquareMatrixOpsImpl.hpp 226-238. -/
def Ri_eq_symAijBj2 (c : Cfg) (dstVector symMatrixA vectorB : Slice) (mem : Store K) : R (Store K) := do
  checkSizes c 2 dstVector
  checkSizes c 3 symMatrixA
  checkSizes c 2 vectorB
  let mem ← wr c mem dstVector 0 ((← rd c mem symMatrixA 0) * (← rd c mem vectorB 0) + (← rd c mem symMatrixA 2) * (← rd c mem vectorB 1))
  let mem ← wr c mem dstVector 1 ((← rd c mem symMatrixA 2) * (← rd c mem vectorB 0) + (← rd c mem symMatrixA 1) * (← rd c mem vectorB 1))
  .ok mem

/-- `SquareMatrixOps< 2 >::Ri_add_symAijBj`: /repo/src/fixedSizeSquareMatrixOpsImpl.hpp 250-262. -/
def Ri_add_symAijBj2 (c : Cfg) (dstVector symMatrixA vectorB : Slice) (mem : Store K) : R (Store K) := do
  checkSizes c 2 dstVector
  checkSizes c 3 symMatrixA
  checkSizes c 2 vectorB
  let mem ← wr c mem dstVector 0 ((← rd c mem dstVector 0) + (← rd c mem symMatrixA 0) * (← rd c mem vectorB 0) +
      (← rd c mem symMatrixA 2) * (← rd c mem vectorB 1))
  let mem ← wr c mem dstVector 1 ((← rd c mem dstVector 1) + (← rd c mem symMatrixA 2) * (← rd c mem vectorB 0) +
      (← rd c mem symMatrixA 1) * (← rd c mem vectorB 1))
  .ok mem

/-- `SquareMatrixOps< 2 >::Rij_eq_symAikBjk`: /repo/src/fixedSizeSquareMatrixOpsImpl.hpp 275-290. -/
def Rij_eq_symAikBjk2 (c : Cfg) (dstMatrix symMatrixA matrixB : Slice) (mem : Store K) : R (Store K) := do
  checkSizes2 c 2 2 dstMatrix
  checkSizes c 3 symMatrixA
  checkSizes2 c 2 2 matrixB
  let mem ← wr2 c mem dstMatrix 0 0 ((← rd c mem symMatrixA 0) * (← rd2 c mem matrixB 0 0) +
      (← rd c mem symMatrixA 2) * (← rd2 c mem matrixB 0 1))
  let mem ← wr2 c mem dstMatrix 0 1 ((← rd c mem symMatrixA 0) * (← rd2 c mem matrixB 1 0) +
      (← rd c mem symMatrixA 2) * (← rd2 c mem matrixB 1 1))
  let mem ← wr2 c mem dstMatrix 1 0 ((← rd c mem symMatrixA 2) * (← rd2 c mem matrixB 0 0) +
      (← rd c mem symMatrixA 1) * (← rd2 c mem matrixB 0 1))
  let mem ← wr2 c mem dstMatrix 1 1 ((← rd c mem symMatrixA 2) * (← rd2 c mem matrixB 1 0) +
      (← rd c mem symMatrixA 1) * (← rd2 c mem matrixB 1 1))
  .ok mem

/-- `SquareMatrixOps< 2 >::Rij_eq_AikSymBklAjl`: /repo/src/fixedSizeSquareMatrixOpsImpl.hpp 305-332. -/
def Rij_eq_AikSymBklAjl2 (c : Cfg) (dstSymMatrix matrixA symMatrixB : Slice) (mem : Store K) : R (Store K) := do
  checkSizes c 3 dstSymMatrix
  checkSizes2 c 2 2 matrixA
  checkSizes c 3 symMatrixB
  let mem ← wr c mem dstSymMatrix 0 ((← rd2 c mem matrixA 0 0) * (← rd c mem symMatrixB 0) * (← rd2 c mem matrixA 0 0) +
      (← rd2 c mem matrixA 0 0) * (← rd c mem symMatrixB 2) * (← rd2 c mem matrixA 0 1) +
      (← rd2 c mem matrixA 0 1) * (← rd c mem symMatrixB 2) * (← rd2 c mem matrixA 0 0) +
      (← rd2 c mem matrixA 0 1) * (← rd c mem symMatrixB 1) * (← rd2 c mem matrixA 0 1))
  let mem ← wr c mem dstSymMatrix 1 ((← rd2 c mem matrixA 1 0) * (← rd c mem symMatrixB 0) * (← rd2 c mem matrixA 1 0) +
      (← rd2 c mem matrixA 1 0) * (← rd c mem symMatrixB 2) * (← rd2 c mem matrixA 1 1) +
      (← rd2 c mem matrixA 1 1) * (← rd c mem symMatrixB 2) * (← rd2 c mem matrixA 1 0) +
      (← rd2 c mem matrixA 1 1) * (← rd c mem symMatrixB 1) * (← rd2 c mem matrixA 1 1))
  let mem ← wr c mem dstSymMatrix 2 ((← rd2 c mem matrixA 1 0) * (← rd c mem symMatrixB 0) * (← rd2 c mem matrixA 0 0) +
      (← rd2 c mem matrixA 1 0) * (← rd c mem symMatrixB 2) * (← rd2 c mem matrixA 0 1) +
      (← rd2 c mem matrixA 1 1) * (← rd c mem symMatrixB 2) * (← rd2 c mem matrixA 0 0) +
      (← rd2 c mem matrixA 1 1) * (← rd c mem symMatrixB 1) * (← rd2 c mem matrixA 0 1))
  .ok mem

/-- `SquareMatrixOps< 2 >::symRij_eq_AiAj`: /repo/src/fixedSizeSquareMatrixOpsImpl.hpp 344-355. -/
def symRij_eq_AiAj2 (c : Cfg) (dstMatrix vectorA : Slice) (mem : Store K) : R (Store K) := do
  checkSizes c 3 dstMatrix
  checkSizes c 2 vectorA
  let mem ← wr c mem dstMatrix 0 ((← rd c mem vectorA 0) * (← rd c mem vectorA 0))
  let mem ← wr c mem dstMatrix 1 ((← rd c mem vectorA 1) * (← rd c mem vectorA 1))
  let mem ← wr c mem dstMatrix 2 ((← rd c mem vectorA 0) * (← rd c mem vectorA 1))
  .ok mem

/-- `SquareMatrixOps< 2 >::symRij_eq_AiBj_plus_AjBi`: /repo/src/fixedSizeSquareMatrixOpsImpl.hpp 368-381. -/
def symRij_eq_AiBj_plus_AjBi2 (c : Cfg) (dstMatrix vectorA vectorB : Slice) (mem : Store K) : R (Store K) := do
  checkSizes c 3 dstMatrix
  checkSizes c 2 vectorA
  checkSizes c 2 vectorB
  let mem ← wr c mem dstMatrix 0 (2 * (← rd c mem vectorA 0) * (← rd c mem vectorB 0))
  let mem ← wr c mem dstMatrix 1 (2 * (← rd c mem vectorA 1) * (← rd c mem vectorB 1))
  let mem ← wr c mem dstMatrix 2 ((← rd c mem vectorA 0) * (← rd c mem vectorB 1) + (← rd c mem vectorA 1) * (← rd c mem vectorB 0))
  .ok mem

/-- `SquareMatrixOps< 2 >::denseToSymmetric`: /repo/src/fixedSizeSquareMatrixOpsImpl.hpp 499-509. -/
def denseToSymmetric2 (c : Cfg) (dstSymMatrix srcMatrix : Slice) (mem : Store K) : R (Store K) := do
  checkSizes c 3 dstSymMatrix
  checkSizes2 c 2 2 srcMatrix
  let mem ← wr c mem dstSymMatrix 0 ((← rd2 c mem srcMatrix 0 0))
  let mem ← wr c mem dstSymMatrix 1 ((← rd2 c mem srcMatrix 1 1))
  let mem ← wr c mem dstSymMatrix 2 ((← rd2 c mem srcMatrix 0 1))
  .ok mem

/-- `SquareMatrixOps< 2 >::symmetricToDense`: /repo/src/fixedSizeSquareMatrixOpsImpl.hpp 518-530. -/
def symmetricToDense2 (c : Cfg) (dstMatrix srcSymMatrix : Slice) (mem : Store K) : R (Store K) := do
  checkSizes2 c 2 2 dstMatrix
  checkSizes c 3 srcSymMatrix
  let mem ← wr2 c mem dstMatrix 0 0 ((← rd c mem srcSymMatrix 0))
  let mem ← wr2 c mem dstMatrix 1 1 ((← rd c mem srcSymMatrix 1))
  let mem ← wr2 c mem dstMatrix 0 1 ((← rd c mem srcSymMatrix 2))
  let mem ← wr2 c mem dstMatrix 1 0 ((← rd c mem srcSymMatrix 2))
  .ok mem

/-! ## 3 by 3 -/

/-- `SquareMatrixOps< 3 >::determinant`: /repo/src/fixedSizeSquareMatrixOpsImpl.hpp 571-580. -/
def determinant3 (c : Cfg) (matrix : Slice) (mem : Store K) : R K := do
  checkSizes2 c 3 3 matrix
  .ok ((← rd2 c mem matrix 0 0) * ((← rd2 c mem matrix 1 1) * (← rd2 c mem matrix 2 2) -
      (← rd2 c mem matrix 1 2) * (← rd2 c mem matrix 2 1)) +
      (← rd2 c mem matrix 1 0) * ((← rd2 c mem matrix 0 2) * (← rd2 c mem matrix 2 1) -
      (← rd2 c mem matrix 0 1) * (← rd2 c mem matrix 2 2)) +
      (← rd2 c mem matrix 2 0) * ((← rd2 c mem matrix 0 1) * (← rd2 c mem matrix 1 2) -
      (← rd2 c mem matrix 0 2) * (← rd2 c mem matrix 1 1)))

/-- `SquareMatrixOps< 3 >::invert`: /repo/src/fixedSizeSquareMatrixOpsImpl.hpp 591-621. -/
def invert3 (c : Cfg) (dstMatrix srcMatrix : Slice) (mem : Store K) : R (Store K × K) := do
  checkSizes2 c 3 3 dstMatrix
  checkSizes2 c 3 3 srcMatrix
  let mem ← wr2 c mem dstMatrix 0 0 ((← rd2 c mem srcMatrix 1 1) * (← rd2 c mem srcMatrix 2 2) -
      (← rd2 c mem srcMatrix 1 2) * (← rd2 c mem srcMatrix 2 1))
  let mem ← wr2 c mem dstMatrix 0 1 ((← rd2 c mem srcMatrix 0 2) * (← rd2 c mem srcMatrix 2 1) -
      (← rd2 c mem srcMatrix 0 1) * (← rd2 c mem srcMatrix 2 2))
  let mem ← wr2 c mem dstMatrix 0 2 ((← rd2 c mem srcMatrix 0 1) * (← rd2 c mem srcMatrix 1 2) -
      (← rd2 c mem srcMatrix 0 2) * (← rd2 c mem srcMatrix 1 1))
  let det := (← rd2 c mem srcMatrix 0 0) * (← rd2 c mem dstMatrix 0 0) + (← rd2 c mem srcMatrix 1 0) * (← rd2 c mem dstMatrix 0 1) +
      (← rd2 c mem srcMatrix 2 0) * (← rd2 c mem dstMatrix 0 2)
  let invDet := 1 / det
  let mem ← wr2 c mem dstMatrix 0 0 ((← rd2 c mem dstMatrix 0 0) * invDet)
  let mem ← wr2 c mem dstMatrix 0 1 ((← rd2 c mem dstMatrix 0 1) * invDet)
  let mem ← wr2 c mem dstMatrix 0 2 ((← rd2 c mem dstMatrix 0 2) * invDet)
  let mem ← wr2 c mem dstMatrix 1 0 (((← rd2 c mem srcMatrix 1 2) * (← rd2 c mem srcMatrix 2 0) -
      (← rd2 c mem srcMatrix 1 0) * (← rd2 c mem srcMatrix 2 2)) * invDet)
  let mem ← wr2 c mem dstMatrix 1 1 (((← rd2 c mem srcMatrix 0 0) * (← rd2 c mem srcMatrix 2 2) -
      (← rd2 c mem srcMatrix 0 2) * (← rd2 c mem srcMatrix 2 0)) * invDet)
  let mem ← wr2 c mem dstMatrix 1 2 (((← rd2 c mem srcMatrix 0 2) * (← rd2 c mem srcMatrix 1 0) -
      (← rd2 c mem srcMatrix 0 0) * (← rd2 c mem srcMatrix 1 2)) * invDet)
  let mem ← wr2 c mem dstMatrix 2 0 (((← rd2 c mem srcMatrix 1 0) * (← rd2 c mem srcMatrix 2 1) -
      (← rd2 c mem srcMatrix 1 1) * (← rd2 c mem srcMatrix 2 0)) * invDet)
  let mem ← wr2 c mem dstMatrix 2 1 (((← rd2 c mem srcMatrix 0 1) * (← rd2 c mem srcMatrix 2 0) -
      (← rd2 c mem srcMatrix 0 0) * (← rd2 c mem srcMatrix 2 1)) * invDet)
  let mem ← wr2 c mem dstMatrix 2 2 (((← rd2 c mem srcMatrix 0 0) * (← rd2 c mem srcMatrix 1 1) -
      (← rd2 c mem srcMatrix 0 1) * (← rd2 c mem srcMatrix 1 0)) * invDet)
  .ok (mem, det)

/-- `SquareMatrixOps< 3 >::invert`, in place: /repo/src/fixedSizeSquareMatrixOpsImpl.hpp 630-658; the branch `#if 0` is not modelled.
The sizes of the matrix are not compared with three. -/
def invert3InPlace (c : Cfg) (matrix : Slice) (mem : Store K) : R (Store K × K) := do
  let t00 := (← rd2 c mem matrix 1 1) * (← rd2 c mem matrix 2 2) - (← rd2 c mem matrix 1 2) * (← rd2 c mem matrix 2 1)
  let t01 := (← rd2 c mem matrix 0 2) * (← rd2 c mem matrix 2 1) - (← rd2 c mem matrix 0 1) * (← rd2 c mem matrix 2 2)
  let t02 := (← rd2 c mem matrix 0 1) * (← rd2 c mem matrix 1 2) - (← rd2 c mem matrix 0 2) * (← rd2 c mem matrix 1 1)
  let t10 := (← rd2 c mem matrix 1 2) * (← rd2 c mem matrix 2 0) - (← rd2 c mem matrix 1 0) * (← rd2 c mem matrix 2 2)
  let t11 := (← rd2 c mem matrix 0 0) * (← rd2 c mem matrix 2 2) - (← rd2 c mem matrix 0 2) * (← rd2 c mem matrix 2 0)
  let t12 := (← rd2 c mem matrix 0 2) * (← rd2 c mem matrix 1 0) - (← rd2 c mem matrix 0 0) * (← rd2 c mem matrix 1 2)
  let t20 := (← rd2 c mem matrix 1 0) * (← rd2 c mem matrix 2 1) - (← rd2 c mem matrix 1 1) * (← rd2 c mem matrix 2 0)
  let t21 := (← rd2 c mem matrix 0 1) * (← rd2 c mem matrix 2 0) - (← rd2 c mem matrix 0 0) * (← rd2 c mem matrix 2 1)
  let t22 := (← rd2 c mem matrix 0 0) * (← rd2 c mem matrix 1 1) - (← rd2 c mem matrix 0 1) * (← rd2 c mem matrix 1 0)
  let temp : Mat K := fun i j =>
    match i, j with
    | 0, 0 => t00
    | 0, 1 => t01
    | 0, 2 => t02
    | 1, 0 => t10
    | 1, 1 => t11
    | 1, 2 => t12
    | 2, 0 => t20
    | 2, 1 => t21
    | 2, 2 => t22
    | _, _ => 0
  let det := (← rd2 c mem matrix 0 0) * temp 0 0 + (← rd2 c mem matrix 1 0) * temp 0 1 + (← rd2 c mem matrix 2 0) * temp 0 2
  let invDet := 1 / det
  let mem ← loopR 3 0 (fun i mem => loopR 3 0 (fun j mem => wr2 c mem matrix i j (temp i j * invDet)) mem) mem
  .ok (mem, det)

/-- `SquareMatrixOps< 3 >::symDeterminant`: /repo/src/fixedSizeSquareMatrixOpsImpl.hpp 665-676. -/
def symDeterminant3 (c : Cfg) (symMatrix : Slice) (mem : Store K) : R K := do
  checkSizes c 6 symMatrix
  .ok ((← rd c mem symMatrix 0) * (← rd c mem symMatrix 1) * (← rd c mem symMatrix 2) +
      (← rd c mem symMatrix 5) * (← rd c mem symMatrix 4) * (← rd c mem symMatrix 3) * 2 -
      (← rd c mem symMatrix 0) * (← rd c mem symMatrix 3) * (← rd c mem symMatrix 3) -
      (← rd c mem symMatrix 1) * (← rd c mem symMatrix 4) * (← rd c mem symMatrix 4) -
      (← rd c mem symMatrix 2) * (← rd c mem symMatrix 5) * (← rd c mem symMatrix 5))

/-- `SquareMatrixOps< 3 >::symInvert`: /repo/src/fixedSizeSquareMatrixOpsImpl.hpp 687-714. -/
def symInvert3 (c : Cfg) (dstSymMatrix srcSymMatrix : Slice) (mem : Store K) : R (Store K × K) := do
  checkSizes c 6 dstSymMatrix
  checkSizes c 6 srcSymMatrix
  let mem ← wr c mem dstSymMatrix 0 ((← rd c mem srcSymMatrix 1) * (← rd c mem srcSymMatrix 2) -
      (← rd c mem srcSymMatrix 3) * (← rd c mem srcSymMatrix 3))
  let mem ← wr c mem dstSymMatrix 5 ((← rd c mem srcSymMatrix 4) * (← rd c mem srcSymMatrix 3) -
      (← rd c mem srcSymMatrix 5) * (← rd c mem srcSymMatrix 2))
  let mem ← wr c mem dstSymMatrix 4 ((← rd c mem srcSymMatrix 5) * (← rd c mem srcSymMatrix 3) -
      (← rd c mem srcSymMatrix 4) * (← rd c mem srcSymMatrix 1))
  let det := (← rd c mem srcSymMatrix 0) * (← rd c mem dstSymMatrix 0) + (← rd c mem srcSymMatrix 5) * (← rd c mem dstSymMatrix 5) +
      (← rd c mem srcSymMatrix 4) * (← rd c mem dstSymMatrix 4)
  let invDet := 1 / det
  let mem ← wr c mem dstSymMatrix 0 ((← rd c mem dstSymMatrix 0) * invDet)
  let mem ← wr c mem dstSymMatrix 5 ((← rd c mem dstSymMatrix 5) * invDet)
  let mem ← wr c mem dstSymMatrix 4 ((← rd c mem dstSymMatrix 4) * invDet)
  let mem ← wr c mem dstSymMatrix 1 (((← rd c mem srcSymMatrix 0) * (← rd c mem srcSymMatrix 2) -
      (← rd c mem srcSymMatrix 4) * (← rd c mem srcSymMatrix 4)) * invDet)
  let mem ← wr c mem dstSymMatrix 3 (((← rd c mem srcSymMatrix 5) * (← rd c mem srcSymMatrix 4) -
      (← rd c mem srcSymMatrix 0) * (← rd c mem srcSymMatrix 3)) * invDet)
  let mem ← wr c mem dstSymMatrix 2 (((← rd c mem srcSymMatrix 0) * (← rd c mem srcSymMatrix 1) -
      (← rd c mem srcSymMatrix 5) * (← rd c mem srcSymMatrix 5)) * invDet)
  .ok (mem, det)

/-- `SquareMatrixOps< 3 >::symInvert`, in place: /repo/src/fixedSizeSquareMatrixOpsImpl.hpp 722-732.  `temp` is the local array, on the
stack and not initialised. -/
def symInvert3InPlace (c : Cfg) (temp symMatrix : Slice) (mem : Store K) : R (Store K × K) := do
  let (mem, det) ← symInvert3 c temp symMatrix mem
  let mem ← copy c 6 symMatrix temp mem
  .ok (mem, det)

/-- `SquareMatrixOps< 3 >::Ri_eq_symAijBj`: /repo/src/fixedSizeSquareMatrixOpsImpl.hpp 745-764. -/
def Ri_eq_symAijBj3 (c : Cfg) (dstVector symMatrixA vectorB : Slice) (mem : Store K) : R (Store K) := do
  checkSizes c 3 dstVector
  checkSizes c 6 symMatrixA
  checkSizes c 3 vectorB
  let mem ← wr c mem dstVector 0 ((← rd c mem symMatrixA 0) * (← rd c mem vectorB 0) +
      (← rd c mem symMatrixA 5) * (← rd c mem vectorB 1) + (← rd c mem symMatrixA 4) * (← rd c mem vectorB 2))
  let mem ← wr c mem dstVector 1 ((← rd c mem symMatrixA 5) * (← rd c mem vectorB 0) +
      (← rd c mem symMatrixA 1) * (← rd c mem vectorB 1) + (← rd c mem symMatrixA 3) * (← rd c mem vectorB 2))
  let mem ← wr c mem dstVector 2 ((← rd c mem symMatrixA 4) * (← rd c mem vectorB 0) +
      (← rd c mem symMatrixA 3) * (← rd c mem vectorB 1) + (← rd c mem symMatrixA 2) * (← rd c mem vectorB 2))
  .ok mem

/-- `SquareMatrixOps< 3 >::Ri_add_symAijBj`: /repo/src/fixedSizeSquareMatrixOpsImpl.hpp 776-798. -/
def Ri_add_symAijBj3 (c : Cfg) (dstVector symMatrixA vectorB : Slice) (mem : Store K) : R (Store K) := do
  checkSizes c 3 dstVector
  checkSizes c 6 symMatrixA
  checkSizes c 3 vectorB
  let mem ← wr c mem dstVector 0 ((← rd c mem dstVector 0) + (← rd c mem symMatrixA 0) * (← rd c mem vectorB 0) +
      (← rd c mem symMatrixA 5) * (← rd c mem vectorB 1) + (← rd c mem symMatrixA 4) * (← rd c mem vectorB 2))
  let mem ← wr c mem dstVector 1 ((← rd c mem dstVector 1) + (← rd c mem symMatrixA 5) * (← rd c mem vectorB 0) +
      (← rd c mem symMatrixA 1) * (← rd c mem vectorB 1) + (← rd c mem symMatrixA 3) * (← rd c mem vectorB 2))
  let mem ← wr c mem dstVector 2 ((← rd c mem dstVector 2) + (← rd c mem symMatrixA 4) * (← rd c mem vectorB 0) +
      (← rd c mem symMatrixA 3) * (← rd c mem vectorB 1) + (← rd c mem symMatrixA 2) * (← rd c mem vectorB 2))
  .ok mem

/-- `SquareMatrixOps< 3 >::Rij_eq_symAikBjk`: /repo/src/fixedSizeSquareMatrixOpsImpl.hpp 811-850. -/
def Rij_eq_symAikBjk3 (c : Cfg) (dstMatrix symMatrixA matrixB : Slice) (mem : Store K) : R (Store K) := do
  checkSizes2 c 3 3 dstMatrix
  checkSizes c 6 symMatrixA
  checkSizes2 c 3 3 matrixB
  let mem ← wr2 c mem dstMatrix 0 0 ((← rd c mem symMatrixA 0) * (← rd2 c mem matrixB 0 0) +
      (← rd c mem symMatrixA 5) * (← rd2 c mem matrixB 0 1) + (← rd c mem symMatrixA 4) * (← rd2 c mem matrixB 0 2))
  let mem ← wr2 c mem dstMatrix 0 1 ((← rd c mem symMatrixA 0) * (← rd2 c mem matrixB 1 0) +
      (← rd c mem symMatrixA 5) * (← rd2 c mem matrixB 1 1) + (← rd c mem symMatrixA 4) * (← rd2 c mem matrixB 1 2))
  let mem ← wr2 c mem dstMatrix 0 2 ((← rd c mem symMatrixA 0) * (← rd2 c mem matrixB 2 0) +
      (← rd c mem symMatrixA 5) * (← rd2 c mem matrixB 2 1) + (← rd c mem symMatrixA 4) * (← rd2 c mem matrixB 2 2))
  let mem ← wr2 c mem dstMatrix 1 0 ((← rd c mem symMatrixA 5) * (← rd2 c mem matrixB 0 0) +
      (← rd c mem symMatrixA 1) * (← rd2 c mem matrixB 0 1) + (← rd c mem symMatrixA 3) * (← rd2 c mem matrixB 0 2))
  let mem ← wr2 c mem dstMatrix 1 1 ((← rd c mem symMatrixA 5) * (← rd2 c mem matrixB 1 0) +
      (← rd c mem symMatrixA 1) * (← rd2 c mem matrixB 1 1) + (← rd c mem symMatrixA 3) * (← rd2 c mem matrixB 1 2))
  let mem ← wr2 c mem dstMatrix 1 2 ((← rd c mem symMatrixA 5) * (← rd2 c mem matrixB 2 0) +
      (← rd c mem symMatrixA 1) * (← rd2 c mem matrixB 2 1) + (← rd c mem symMatrixA 3) * (← rd2 c mem matrixB 2 2))
  let mem ← wr2 c mem dstMatrix 2 0 ((← rd c mem symMatrixA 4) * (← rd2 c mem matrixB 0 0) +
      (← rd c mem symMatrixA 3) * (← rd2 c mem matrixB 0 1) + (← rd c mem symMatrixA 2) * (← rd2 c mem matrixB 0 2))
  let mem ← wr2 c mem dstMatrix 2 1 ((← rd c mem symMatrixA 4) * (← rd2 c mem matrixB 1 0) +
      (← rd c mem symMatrixA 3) * (← rd2 c mem matrixB 1 1) + (← rd c mem symMatrixA 2) * (← rd2 c mem matrixB 1 2))
  let mem ← wr2 c mem dstMatrix 2 2 ((← rd c mem symMatrixA 4) * (← rd2 c mem matrixB 2 0) +
      (← rd c mem symMatrixA 3) * (← rd2 c mem matrixB 2 1) + (← rd c mem symMatrixA 2) * (← rd2 c mem matrixB 2 2))
  .ok mem

/-- `SquareMatrixOps< 3 >::Rij_eq_AikSymBklAjl`: /repo/src/fixedSizeSquareMatrixOpsImpl.hpp 865-940. -/
def Rij_eq_AikSymBklAjl3 (c : Cfg) (dstSymMatrix matrixA symMatrixB : Slice) (mem : Store K) : R (Store K) := do
  checkSizes c 6 dstSymMatrix
  checkSizes2 c 3 3 matrixA
  checkSizes c 6 symMatrixB
  let mem ← wr c mem dstSymMatrix 0 ((← rd2 c mem matrixA 0 0) * (← rd c mem symMatrixB 0) * (← rd2 c mem matrixA 0 0) +
      (← rd2 c mem matrixA 0 0) * (← rd c mem symMatrixB 5) * (← rd2 c mem matrixA 0 1) +
      (← rd2 c mem matrixA 0 0) * (← rd c mem symMatrixB 4) * (← rd2 c mem matrixA 0 2) +
      (← rd2 c mem matrixA 0 1) * (← rd c mem symMatrixB 5) * (← rd2 c mem matrixA 0 0) +
      (← rd2 c mem matrixA 0 1) * (← rd c mem symMatrixB 1) * (← rd2 c mem matrixA 0 1) +
      (← rd2 c mem matrixA 0 1) * (← rd c mem symMatrixB 3) * (← rd2 c mem matrixA 0 2) +
      (← rd2 c mem matrixA 0 2) * (← rd c mem symMatrixB 4) * (← rd2 c mem matrixA 0 0) +
      (← rd2 c mem matrixA 0 2) * (← rd c mem symMatrixB 3) * (← rd2 c mem matrixA 0 1) +
      (← rd2 c mem matrixA 0 2) * (← rd c mem symMatrixB 2) * (← rd2 c mem matrixA 0 2))
  let mem ← wr c mem dstSymMatrix 1 ((← rd2 c mem matrixA 1 0) * (← rd c mem symMatrixB 0) * (← rd2 c mem matrixA 1 0) +
      (← rd2 c mem matrixA 1 0) * (← rd c mem symMatrixB 5) * (← rd2 c mem matrixA 1 1) +
      (← rd2 c mem matrixA 1 0) * (← rd c mem symMatrixB 4) * (← rd2 c mem matrixA 1 2) +
      (← rd2 c mem matrixA 1 1) * (← rd c mem symMatrixB 5) * (← rd2 c mem matrixA 1 0) +
      (← rd2 c mem matrixA 1 1) * (← rd c mem symMatrixB 1) * (← rd2 c mem matrixA 1 1) +
      (← rd2 c mem matrixA 1 1) * (← rd c mem symMatrixB 3) * (← rd2 c mem matrixA 1 2) +
      (← rd2 c mem matrixA 1 2) * (← rd c mem symMatrixB 4) * (← rd2 c mem matrixA 1 0) +
      (← rd2 c mem matrixA 1 2) * (← rd c mem symMatrixB 3) * (← rd2 c mem matrixA 1 1) +
      (← rd2 c mem matrixA 1 2) * (← rd c mem symMatrixB 2) * (← rd2 c mem matrixA 1 2))
  let mem ← wr c mem dstSymMatrix 2 ((← rd2 c mem matrixA 2 0) * (← rd c mem symMatrixB 0) * (← rd2 c mem matrixA 2 0) +
      (← rd2 c mem matrixA 2 0) * (← rd c mem symMatrixB 5) * (← rd2 c mem matrixA 2 1) +
      (← rd2 c mem matrixA 2 0) * (← rd c mem symMatrixB 4) * (← rd2 c mem matrixA 2 2) +
      (← rd2 c mem matrixA 2 1) * (← rd c mem symMatrixB 5) * (← rd2 c mem matrixA 2 0) +
      (← rd2 c mem matrixA 2 1) * (← rd c mem symMatrixB 1) * (← rd2 c mem matrixA 2 1) +
      (← rd2 c mem matrixA 2 1) * (← rd c mem symMatrixB 3) * (← rd2 c mem matrixA 2 2) +
      (← rd2 c mem matrixA 2 2) * (← rd c mem symMatrixB 4) * (← rd2 c mem matrixA 2 0) +
      (← rd2 c mem matrixA 2 2) * (← rd c mem symMatrixB 3) * (← rd2 c mem matrixA 2 1) +
      (← rd2 c mem matrixA 2 2) * (← rd c mem symMatrixB 2) * (← rd2 c mem matrixA 2 2))
  let mem ← wr c mem dstSymMatrix 3 ((← rd2 c mem matrixA 1 0) * (← rd c mem symMatrixB 0) * (← rd2 c mem matrixA 2 0) +
      (← rd2 c mem matrixA 1 0) * (← rd c mem symMatrixB 5) * (← rd2 c mem matrixA 2 1) +
      (← rd2 c mem matrixA 1 0) * (← rd c mem symMatrixB 4) * (← rd2 c mem matrixA 2 2) +
      (← rd2 c mem matrixA 1 1) * (← rd c mem symMatrixB 5) * (← rd2 c mem matrixA 2 0) +
      (← rd2 c mem matrixA 1 1) * (← rd c mem symMatrixB 1) * (← rd2 c mem matrixA 2 1) +
      (← rd2 c mem matrixA 1 1) * (← rd c mem symMatrixB 3) * (← rd2 c mem matrixA 2 2) +
      (← rd2 c mem matrixA 1 2) * (← rd c mem symMatrixB 4) * (← rd2 c mem matrixA 2 0) +
      (← rd2 c mem matrixA 1 2) * (← rd c mem symMatrixB 3) * (← rd2 c mem matrixA 2 1) +
      (← rd2 c mem matrixA 1 2) * (← rd c mem symMatrixB 2) * (← rd2 c mem matrixA 2 2))
  let mem ← wr c mem dstSymMatrix 4 ((← rd2 c mem matrixA 0 0) * (← rd c mem symMatrixB 0) * (← rd2 c mem matrixA 2 0) +
      (← rd2 c mem matrixA 0 0) * (← rd c mem symMatrixB 5) * (← rd2 c mem matrixA 2 1) +
      (← rd2 c mem matrixA 0 0) * (← rd c mem symMatrixB 4) * (← rd2 c mem matrixA 2 2) +
      (← rd2 c mem matrixA 0 1) * (← rd c mem symMatrixB 5) * (← rd2 c mem matrixA 2 0) +
      (← rd2 c mem matrixA 0 1) * (← rd c mem symMatrixB 1) * (← rd2 c mem matrixA 2 1) +
      (← rd2 c mem matrixA 0 1) * (← rd c mem symMatrixB 3) * (← rd2 c mem matrixA 2 2) +
      (← rd2 c mem matrixA 0 2) * (← rd c mem symMatrixB 4) * (← rd2 c mem matrixA 2 0) +
      (← rd2 c mem matrixA 0 2) * (← rd c mem symMatrixB 3) * (← rd2 c mem matrixA 2 1) +
      (← rd2 c mem matrixA 0 2) * (← rd c mem symMatrixB 2) * (← rd2 c mem matrixA 2 2))
  let mem ← wr c mem dstSymMatrix 5 ((← rd2 c mem matrixA 0 0) * (← rd c mem symMatrixB 0) * (← rd2 c mem matrixA 1 0) +
      (← rd2 c mem matrixA 0 0) * (← rd c mem symMatrixB 5) * (← rd2 c mem matrixA 1 1) +
      (← rd2 c mem matrixA 0 0) * (← rd c mem symMatrixB 4) * (← rd2 c mem matrixA 1 2) +
      (← rd2 c mem matrixA 0 1) * (← rd c mem symMatrixB 5) * (← rd2 c mem matrixA 1 0) +
      (← rd2 c mem matrixA 0 1) * (← rd c mem symMatrixB 1) * (← rd2 c mem matrixA 1 1) +
      (← rd2 c mem matrixA 0 1) * (← rd c mem symMatrixB 3) * (← rd2 c mem matrixA 1 2) +
      (← rd2 c mem matrixA 0 2) * (← rd c mem symMatrixB 4) * (← rd2 c mem matrixA 1 0) +
      (← rd2 c mem matrixA 0 2) * (← rd c mem symMatrixB 3) * (← rd2 c mem matrixA 1 1) +
      (← rd2 c mem matrixA 0 2) * (← rd c mem symMatrixB 2) * (← rd2 c mem matrixA 1 2))
  .ok mem

/-- `SquareMatrixOps< 3 >::symRij_eq_AiAj`: /repo/src/fixedSizeSquareMatrixOpsImpl.hpp 951-965. -/
def symRij_eq_AiAj3 (c : Cfg) (dstMatrix vectorA : Slice) (mem : Store K) : R (Store K) := do
  checkSizes c 6 dstMatrix
  checkSizes c 3 vectorA
  let mem ← wr c mem dstMatrix 0 ((← rd c mem vectorA 0) * (← rd c mem vectorA 0))
  let mem ← wr c mem dstMatrix 1 ((← rd c mem vectorA 1) * (← rd c mem vectorA 1))
  let mem ← wr c mem dstMatrix 2 ((← rd c mem vectorA 2) * (← rd c mem vectorA 2))
  let mem ← wr c mem dstMatrix 3 ((← rd c mem vectorA 1) * (← rd c mem vectorA 2))
  let mem ← wr c mem dstMatrix 4 ((← rd c mem vectorA 0) * (← rd c mem vectorA 2))
  let mem ← wr c mem dstMatrix 5 ((← rd c mem vectorA 0) * (← rd c mem vectorA 1))
  .ok mem

/-- `SquareMatrixOps< 3 >::symRij_eq_AiBj_plus_AjBi`: /repo/src/fixedSizeSquareMatrixOpsImpl.hpp 978-994. -/
def symRij_eq_AiBj_plus_AjBi3 (c : Cfg) (dstMatrix vectorA vectorB : Slice) (mem : Store K) : R (Store K) := do
  checkSizes c 6 dstMatrix
  checkSizes c 3 vectorA
  checkSizes c 3 vectorB
  let mem ← wr c mem dstMatrix 0 (2 * (← rd c mem vectorA 0) * (← rd c mem vectorB 0))
  let mem ← wr c mem dstMatrix 1 (2 * (← rd c mem vectorA 1) * (← rd c mem vectorB 1))
  let mem ← wr c mem dstMatrix 2 (2 * (← rd c mem vectorA 2) * (← rd c mem vectorB 2))
  let mem ← wr c mem dstMatrix 3 ((← rd c mem vectorA 1) * (← rd c mem vectorB 2) + (← rd c mem vectorA 2) * (← rd c mem vectorB 1))
  let mem ← wr c mem dstMatrix 4 ((← rd c mem vectorA 0) * (← rd c mem vectorB 2) + (← rd c mem vectorA 2) * (← rd c mem vectorB 0))
  let mem ← wr c mem dstMatrix 5 ((← rd c mem vectorA 0) * (← rd c mem vectorB 1) + (← rd c mem vectorA 1) * (← rd c mem vectorB 0))
  .ok mem

/-- `SquareMatrixOps< 3 >::denseToSymmetric`: /repo/src/fixedSizeSquareMatrixOpsImpl.hpp 1123-1136. -/
def denseToSymmetric3 (c : Cfg) (dstSymMatrix srcMatrix : Slice) (mem : Store K) : R (Store K) := do
  checkSizes c 6 dstSymMatrix
  checkSizes2 c 3 3 srcMatrix
  let mem ← wr c mem dstSymMatrix 0 ((← rd2 c mem srcMatrix 0 0))
  let mem ← wr c mem dstSymMatrix 1 ((← rd2 c mem srcMatrix 1 1))
  let mem ← wr c mem dstSymMatrix 2 ((← rd2 c mem srcMatrix 2 2))
  let mem ← wr c mem dstSymMatrix 3 ((← rd2 c mem srcMatrix 1 2))
  let mem ← wr c mem dstSymMatrix 4 ((← rd2 c mem srcMatrix 0 2))
  let mem ← wr c mem dstSymMatrix 5 ((← rd2 c mem srcMatrix 0 1))
  .ok mem

/-- `SquareMatrixOps< 3 >::symmetricToDense`: /repo/src/fixedSizeSquareMatrixOpsImpl.hpp 1145-1163. -/
def symmetricToDense3 (c : Cfg) (dstMatrix srcSymMatrix : Slice) (mem : Store K) : R (Store K) := do
  checkSizes2 c 3 3 dstMatrix
  checkSizes c 6 srcSymMatrix
  let mem ← wr2 c mem dstMatrix 0 0 ((← rd c mem srcSymMatrix 0))
  let mem ← wr2 c mem dstMatrix 1 1 ((← rd c mem srcSymMatrix 1))
  let mem ← wr2 c mem dstMatrix 2 2 ((← rd c mem srcSymMatrix 2))
  let mem ← wr2 c mem dstMatrix 0 1 ((← rd c mem srcSymMatrix 5))
  let mem ← wr2 c mem dstMatrix 0 2 ((← rd c mem srcSymMatrix 4))
  let mem ← wr2 c mem dstMatrix 1 2 ((← rd c mem srcSymMatrix 3))
  let mem ← wr2 c mem dstMatrix 1 0 ((← rd c mem srcSymMatrix 5))
  let mem ← wr2 c mem dstMatrix 2 0 ((← rd c mem srcSymMatrix 4))
  let mem ← wr2 c mem dstMatrix 2 1 ((← rd c mem srcSymMatrix 3))
  .ok mem

end LvArray.tensorOps.Slices

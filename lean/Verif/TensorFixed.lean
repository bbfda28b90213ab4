import Verif.TensorOps

/-!
# `tensorOps`: operations on square matrices of size two and three

`SquareMatrixOps< 2 >` and `SquareMatrixOps< 3 >`, to which the functions of /repo/src/fixedSizeSquareMatrixOps.hpp forward.  Each `let`
is one assignment of the code, in the order of the code.  A symmetric matrix is packed in a vector.  The same simplifications as in
`TensorOps`: exact arithmetic, no overlapping arguments.
-/

namespace LvArray.tensorOps

variable {K : Type} [Add K] [Sub K] [Mul K] [Neg K] [Div K] [Zero K] [One K] [OfNat K 2]

/-! ## 2 by 2 -/

/-- `SquareMatrixOps< 2 >::determinant`: /repo/src/fixedSizeSquareMatrixOpsImpl.hpp 86-92. -/
def determinant2 (matrix : Mat K) : K :=
  matrix 0 0 * matrix 1 1 - matrix 0 1 * matrix 1 0

/-- `SquareMatrixOps< 2 >::invert`: /repo/src/fixedSizeSquareMatrixOpsImpl.hpp 103-122. -/
def invert2 (dstMatrix : Mat K) (srcMatrix : Mat K) : Mat K × K :=
  let det := determinant2 srcMatrix
  let invDet := 1 / det
  let dstMatrix := dstMatrix.put 0 0 (srcMatrix 1 1 * invDet)
  let dstMatrix := dstMatrix.put 1 1 (srcMatrix 0 0 * invDet)
  let dstMatrix := dstMatrix.put 0 1 (srcMatrix 0 1 * (-invDet))
  let dstMatrix := dstMatrix.put 1 0 (srcMatrix 1 0 * (-invDet))
  (dstMatrix, det)

/-- `SquareMatrixOps< 2 >::invert`, in place: /repo/src/fixedSizeSquareMatrixOpsImpl.hpp 131-147. -/
def invert2InPlace (matrix : Mat K) : Mat K × K :=
  let det := determinant2 matrix
  let invDet := 1 / det
  let temp := matrix 0 0
  let matrix := matrix.put 0 0 (matrix 1 1 * invDet)
  let matrix := matrix.put 1 1 (temp * invDet)
  let matrix := matrix.put 0 1 (matrix 0 1 * (-invDet))
  let matrix := matrix.put 1 0 (matrix 1 0 * (-invDet))
  (matrix, det)

/-- `SquareMatrixOps< 2 >::symDeterminant`: /repo/src/fixedSizeSquareMatrixOpsImpl.hpp 154-160. -/
def symDeterminant2 (symMatrix : Vec K) : K :=
  symMatrix 0 * symMatrix 1 - symMatrix 2 * symMatrix 2

/-- `SquareMatrixOps< 2 >::symInvert`: /repo/src/fixedSizeSquareMatrixOpsImpl.hpp 171-189. -/
def symInvert2 (dstSymMatrix : Vec K) (srcSymMatrix : Vec K) : Vec K × K :=
  let det := symDeterminant2 srcSymMatrix
  let invDet := 1 / det
  let dstSymMatrix := dstSymMatrix.put 0 (srcSymMatrix 1 * invDet)
  let dstSymMatrix := dstSymMatrix.put 1 (srcSymMatrix 0 * invDet)
  let dstSymMatrix := dstSymMatrix.put 2 (srcSymMatrix 2 * (-invDet))
  (dstSymMatrix, det)

/-- `SquareMatrixOps< 2 >::symInvert`, in place: /repo/src/fixedSizeSquareMatrixOpsImpl.hpp 198-213. -/
def symInvert2InPlace (symMatrix : Vec K) : Vec K × K :=
  let det := symDeterminant2 symMatrix
  let invDet := 1 / det
  let temp := symMatrix 0
  let symMatrix := symMatrix.put 0 (symMatrix 1 * invDet)
  let symMatrix := symMatrix.put 1 (temp * invDet)
  let symMatrix := symMatrix.put 2 (symMatrix 2 * (-invDet))
  (symMatrix, det)

/-- `SquareMatrixOps< 2 >::Ri_eq_symAijBj`: /repo/src/fixedSizeSquareMatrixOpsImpl.hpp 226-238. -/
def Ri_eq_symAijBj2 (dstVector : Vec K) (symMatrixA : Vec K) (vectorB : Vec K) : Vec K :=
  let dstVector := dstVector.put 0 (symMatrixA 0 * vectorB 0 + symMatrixA 2 * vectorB 1)
  let dstVector := dstVector.put 1 (symMatrixA 2 * vectorB 0 + symMatrixA 1 * vectorB 1)
  dstVector

/-- `SquareMatrixOps< 2 >::Ri_add_symAijBj`: /repo/src/fixedSizeSquareMatrixOpsImpl.hpp 250-262. -/
def Ri_add_symAijBj2 (dstVector : Vec K) (symMatrixA : Vec K) (vectorB : Vec K) : Vec K :=
  let dstVector := dstVector.put 0 (dstVector 0 + symMatrixA 0 * vectorB 0 + symMatrixA 2 * vectorB 1)
  let dstVector := dstVector.put 1 (dstVector 1 + symMatrixA 2 * vectorB 0 + symMatrixA 1 * vectorB 1)
  dstVector

/-- `SquareMatrixOps< 2 >::Rij_eq_symAikBjk`: /repo/src/fixedSizeSquareMatrixOpsImpl.hpp 275-290. -/
def Rij_eq_symAikBjk2 (dstMatrix : Mat K) (symMatrixA : Vec K) (matrixB : Mat K) : Mat K :=
  let dstMatrix := dstMatrix.put 0 0 (symMatrixA 0 * matrixB 0 0 + symMatrixA 2 * matrixB 0 1)
  let dstMatrix := dstMatrix.put 0 1 (symMatrixA 0 * matrixB 1 0 + symMatrixA 2 * matrixB 1 1)
  let dstMatrix := dstMatrix.put 1 0 (symMatrixA 2 * matrixB 0 0 + symMatrixA 1 * matrixB 0 1)
  let dstMatrix := dstMatrix.put 1 1 (symMatrixA 2 * matrixB 1 0 + symMatrixA 1 * matrixB 1 1)
  dstMatrix

/-- `SquareMatrixOps< 2 >::Rij_eq_AikSymBklAjl`: /repo/src/fixedSizeSquareMatrixOpsImpl.hpp 305-332. -/
def Rij_eq_AikSymBklAjl2 (dstSymMatrix : Vec K) (matrixA : Mat K) (symMatrixB : Vec K) : Vec K :=
  let dstSymMatrix := dstSymMatrix.put 0 (matrixA 0 0 * symMatrixB 0 * matrixA 0 0 + matrixA 0 0 * symMatrixB 2 * matrixA 0 1 +
      matrixA 0 1 * symMatrixB 2 * matrixA 0 0 + matrixA 0 1 * symMatrixB 1 * matrixA 0 1)
  let dstSymMatrix := dstSymMatrix.put 1 (matrixA 1 0 * symMatrixB 0 * matrixA 1 0 + matrixA 1 0 * symMatrixB 2 * matrixA 1 1 +
      matrixA 1 1 * symMatrixB 2 * matrixA 1 0 + matrixA 1 1 * symMatrixB 1 * matrixA 1 1)
  let dstSymMatrix := dstSymMatrix.put 2 (matrixA 1 0 * symMatrixB 0 * matrixA 0 0 + matrixA 1 0 * symMatrixB 2 * matrixA 0 1 +
      matrixA 1 1 * symMatrixB 2 * matrixA 0 0 + matrixA 1 1 * symMatrixB 1 * matrixA 0 1)
  dstSymMatrix

/-- `SquareMatrixOps< 2 >::symRij_eq_AiAj`: /repo/src/fixedSizeSquareMatrixOpsImpl.hpp 344-355. -/
def symRij_eq_AiAj2 (dstMatrix : Vec K) (vectorA : Vec K) : Vec K :=
  let dstMatrix := dstMatrix.put 0 (vectorA 0 * vectorA 0)
  let dstMatrix := dstMatrix.put 1 (vectorA 1 * vectorA 1)
  let dstMatrix := dstMatrix.put 2 (vectorA 0 * vectorA 1)
  dstMatrix

/-- `SquareMatrixOps< 2 >::symRij_eq_AiBj_plus_AjBi`: /repo/src/fixedSizeSquareMatrixOpsImpl.hpp 368-381. -/
def symRij_eq_AiBj_plus_AjBi2 (dstMatrix : Vec K) (vectorA : Vec K) (vectorB : Vec K) : Vec K :=
  let dstMatrix := dstMatrix.put 0 (2 * vectorA 0 * vectorB 0)
  let dstMatrix := dstMatrix.put 1 (2 * vectorA 1 * vectorB 1)
  let dstMatrix := dstMatrix.put 2 (vectorA 0 * vectorB 1 + vectorA 1 * vectorB 0)
  dstMatrix

/-- `SquareMatrixOps< 2 >::denseToSymmetric`: /repo/src/fixedSizeSquareMatrixOpsImpl.hpp 499-509. -/
def denseToSymmetric2 (dstSymMatrix : Vec K) (srcMatrix : Mat K) : Vec K :=
  let dstSymMatrix := dstSymMatrix.put 0 (srcMatrix 0 0)
  let dstSymMatrix := dstSymMatrix.put 1 (srcMatrix 1 1)
  let dstSymMatrix := dstSymMatrix.put 2 (srcMatrix 0 1)
  dstSymMatrix

/-- `SquareMatrixOps< 2 >::symmetricToDense`: /repo/src/fixedSizeSquareMatrixOpsImpl.hpp 518-530. -/
def symmetricToDense2 (dstMatrix : Mat K) (srcSymMatrix : Vec K) : Mat K :=
  let dstMatrix := dstMatrix.put 0 0 (srcSymMatrix 0)
  let dstMatrix := dstMatrix.put 1 1 (srcSymMatrix 1)
  let dstMatrix := dstMatrix.put 0 1 (srcSymMatrix 2)
  let dstMatrix := dstMatrix.put 1 0 (srcSymMatrix 2)
  dstMatrix

/-! ## 3 by 3 -/

/-- `SquareMatrixOps< 3 >::determinant`: /repo/src/fixedSizeSquareMatrixOpsImpl.hpp 571-580. -/
def determinant3 (matrix : Mat K) : K :=
  matrix 0 0 * (matrix 1 1 * matrix 2 2 - matrix 1 2 * matrix 2 1) + matrix 1 0 * (matrix 0 2 * matrix 2 1 -
      matrix 0 1 * matrix 2 2) + matrix 2 0 * (matrix 0 1 * matrix 1 2 - matrix 0 2 * matrix 1 1)

/-- `SquareMatrixOps< 3 >::invert`: /repo/src/fixedSizeSquareMatrixOpsImpl.hpp 591-621. -/
def invert3 (dstMatrix : Mat K) (srcMatrix : Mat K) : Mat K × K :=
  let dstMatrix := dstMatrix.put 0 0 (srcMatrix 1 1 * srcMatrix 2 2 - srcMatrix 1 2 * srcMatrix 2 1)
  let dstMatrix := dstMatrix.put 0 1 (srcMatrix 0 2 * srcMatrix 2 1 - srcMatrix 0 1 * srcMatrix 2 2)
  let dstMatrix := dstMatrix.put 0 2 (srcMatrix 0 1 * srcMatrix 1 2 - srcMatrix 0 2 * srcMatrix 1 1)
  let det := srcMatrix 0 0 * dstMatrix 0 0 + srcMatrix 1 0 * dstMatrix 0 1 + srcMatrix 2 0 * dstMatrix 0 2
  let invDet := 1 / det
  let dstMatrix := dstMatrix.put 0 0 (dstMatrix 0 0 * invDet)
  let dstMatrix := dstMatrix.put 0 1 (dstMatrix 0 1 * invDet)
  let dstMatrix := dstMatrix.put 0 2 (dstMatrix 0 2 * invDet)
  let dstMatrix := dstMatrix.put 1 0 ((srcMatrix 1 2 * srcMatrix 2 0 - srcMatrix 1 0 * srcMatrix 2 2) * invDet)
  let dstMatrix := dstMatrix.put 1 1 ((srcMatrix 0 0 * srcMatrix 2 2 - srcMatrix 0 2 * srcMatrix 2 0) * invDet)
  let dstMatrix := dstMatrix.put 1 2 ((srcMatrix 0 2 * srcMatrix 1 0 - srcMatrix 0 0 * srcMatrix 1 2) * invDet)
  let dstMatrix := dstMatrix.put 2 0 ((srcMatrix 1 0 * srcMatrix 2 1 - srcMatrix 1 1 * srcMatrix 2 0) * invDet)
  let dstMatrix := dstMatrix.put 2 1 ((srcMatrix 0 1 * srcMatrix 2 0 - srcMatrix 0 0 * srcMatrix 2 1) * invDet)
  let dstMatrix := dstMatrix.put 2 2 ((srcMatrix 0 0 * srcMatrix 1 1 - srcMatrix 0 1 * srcMatrix 1 0) * invDet)
  (dstMatrix, det)

/-- `SquareMatrixOps< 3 >::invert`, in place: /repo/src/fixedSizeSquareMatrixOpsImpl.hpp 630-658; the branch `#if 0` is not modelled. -/
def invert3InPlace (matrix : Mat K) : Mat K × K :=
  let temp : Mat K := fun i j =>
    match i, j with
    | 0, 0 => matrix 1 1 * matrix 2 2 - matrix 1 2 * matrix 2 1
    | 0, 1 => matrix 0 2 * matrix 2 1 - matrix 0 1 * matrix 2 2
    | 0, 2 => matrix 0 1 * matrix 1 2 - matrix 0 2 * matrix 1 1
    | 1, 0 => matrix 1 2 * matrix 2 0 - matrix 1 0 * matrix 2 2
    | 1, 1 => matrix 0 0 * matrix 2 2 - matrix 0 2 * matrix 2 0
    | 1, 2 => matrix 0 2 * matrix 1 0 - matrix 0 0 * matrix 1 2
    | 2, 0 => matrix 1 0 * matrix 2 1 - matrix 1 1 * matrix 2 0
    | 2, 1 => matrix 0 1 * matrix 2 0 - matrix 0 0 * matrix 2 1
    | 2, 2 => matrix 0 0 * matrix 1 1 - matrix 0 1 * matrix 1 0
    | _, _ => 0
  let det := matrix 0 0 * temp 0 0 + matrix 1 0 * temp 0 1 + matrix 2 0 * temp 0 2
  let invDet := 1 / det
  (loop 3 0 (fun i matrix => loop 3 0 (fun j matrix => matrix.put i j (temp i j * invDet)) matrix) matrix, det)

/-- `SquareMatrixOps< 3 >::symDeterminant`: /repo/src/fixedSizeSquareMatrixOpsImpl.hpp 665-676. -/
def symDeterminant3 (symMatrix : Vec K) : K :=
  symMatrix 0 * symMatrix 1 * symMatrix 2 + symMatrix 5 * symMatrix 4 * symMatrix 3 * 2 -
      symMatrix 0 * symMatrix 3 * symMatrix 3 - symMatrix 1 * symMatrix 4 * symMatrix 4 - symMatrix 2 * symMatrix 5 * symMatrix 5

/-- `SquareMatrixOps< 3 >::symInvert`: /repo/src/fixedSizeSquareMatrixOpsImpl.hpp 687-714. -/
def symInvert3 (dstSymMatrix : Vec K) (srcSymMatrix : Vec K) : Vec K × K :=
  let dstSymMatrix := dstSymMatrix.put 0 (srcSymMatrix 1 * srcSymMatrix 2 - srcSymMatrix 3 * srcSymMatrix 3)
  let dstSymMatrix := dstSymMatrix.put 5 (srcSymMatrix 4 * srcSymMatrix 3 - srcSymMatrix 5 * srcSymMatrix 2)
  let dstSymMatrix := dstSymMatrix.put 4 (srcSymMatrix 5 * srcSymMatrix 3 - srcSymMatrix 4 * srcSymMatrix 1)
  let det := srcSymMatrix 0 * dstSymMatrix 0 + srcSymMatrix 5 * dstSymMatrix 5 + srcSymMatrix 4 * dstSymMatrix 4
  let invDet := 1 / det
  let dstSymMatrix := dstSymMatrix.put 0 (dstSymMatrix 0 * invDet)
  let dstSymMatrix := dstSymMatrix.put 5 (dstSymMatrix 5 * invDet)
  let dstSymMatrix := dstSymMatrix.put 4 (dstSymMatrix 4 * invDet)
  let dstSymMatrix := dstSymMatrix.put 1 ((srcSymMatrix 0 * srcSymMatrix 2 - srcSymMatrix 4 * srcSymMatrix 4) * invDet)
  let dstSymMatrix := dstSymMatrix.put 3 ((srcSymMatrix 5 * srcSymMatrix 4 - srcSymMatrix 0 * srcSymMatrix 3) * invDet)
  let dstSymMatrix := dstSymMatrix.put 2 ((srcSymMatrix 0 * srcSymMatrix 1 - srcSymMatrix 5 * srcSymMatrix 5) * invDet)
  (dstSymMatrix, det)

/-- `SquareMatrixOps< 3 >::symInvert`, in place: /repo/src/fixedSizeSquareMatrixOpsImpl.hpp 722-732.  `temp` is not initialised, so its
contents are an argument. -/
def symInvert3InPlace (temp symMatrix : Vec K) : Vec K × K :=
  let (temp, det) := symInvert3 temp symMatrix
  (copy 6 symMatrix temp, det)

/-- `SquareMatrixOps< 3 >::Ri_eq_symAijBj`: /repo/src/fixedSizeSquareMatrixOpsImpl.hpp 745-764. -/
def Ri_eq_symAijBj3 (dstVector : Vec K) (symMatrixA : Vec K) (vectorB : Vec K) : Vec K :=
  let dstVector := dstVector.put 0 (symMatrixA 0 * vectorB 0 + symMatrixA 5 * vectorB 1 + symMatrixA 4 * vectorB 2)
  let dstVector := dstVector.put 1 (symMatrixA 5 * vectorB 0 + symMatrixA 1 * vectorB 1 + symMatrixA 3 * vectorB 2)
  let dstVector := dstVector.put 2 (symMatrixA 4 * vectorB 0 + symMatrixA 3 * vectorB 1 + symMatrixA 2 * vectorB 2)
  dstVector

/-- `SquareMatrixOps< 3 >::Ri_add_symAijBj`: /repo/src/fixedSizeSquareMatrixOpsImpl.hpp 776-798. -/
def Ri_add_symAijBj3 (dstVector : Vec K) (symMatrixA : Vec K) (vectorB : Vec K) : Vec K :=
  let dstVector := dstVector.put 0 (dstVector 0 + symMatrixA 0 * vectorB 0 + symMatrixA 5 * vectorB 1 + symMatrixA 4 * vectorB 2)
  let dstVector := dstVector.put 1 (dstVector 1 + symMatrixA 5 * vectorB 0 + symMatrixA 1 * vectorB 1 + symMatrixA 3 * vectorB 2)
  let dstVector := dstVector.put 2 (dstVector 2 + symMatrixA 4 * vectorB 0 + symMatrixA 3 * vectorB 1 + symMatrixA 2 * vectorB 2)
  dstVector

/-- `SquareMatrixOps< 3 >::Rij_eq_symAikBjk`: /repo/src/fixedSizeSquareMatrixOpsImpl.hpp 811-850. -/
def Rij_eq_symAikBjk3 (dstMatrix : Mat K) (symMatrixA : Vec K) (matrixB : Mat K) : Mat K :=
  let dstMatrix := dstMatrix.put 0 0 (symMatrixA 0 * matrixB 0 0 + symMatrixA 5 * matrixB 0 1 + symMatrixA 4 * matrixB 0 2)
  let dstMatrix := dstMatrix.put 0 1 (symMatrixA 0 * matrixB 1 0 + symMatrixA 5 * matrixB 1 1 + symMatrixA 4 * matrixB 1 2)
  let dstMatrix := dstMatrix.put 0 2 (symMatrixA 0 * matrixB 2 0 + symMatrixA 5 * matrixB 2 1 + symMatrixA 4 * matrixB 2 2)
  let dstMatrix := dstMatrix.put 1 0 (symMatrixA 5 * matrixB 0 0 + symMatrixA 1 * matrixB 0 1 + symMatrixA 3 * matrixB 0 2)
  let dstMatrix := dstMatrix.put 1 1 (symMatrixA 5 * matrixB 1 0 + symMatrixA 1 * matrixB 1 1 + symMatrixA 3 * matrixB 1 2)
  let dstMatrix := dstMatrix.put 1 2 (symMatrixA 5 * matrixB 2 0 + symMatrixA 1 * matrixB 2 1 + symMatrixA 3 * matrixB 2 2)
  let dstMatrix := dstMatrix.put 2 0 (symMatrixA 4 * matrixB 0 0 + symMatrixA 3 * matrixB 0 1 + symMatrixA 2 * matrixB 0 2)
  let dstMatrix := dstMatrix.put 2 1 (symMatrixA 4 * matrixB 1 0 + symMatrixA 3 * matrixB 1 1 + symMatrixA 2 * matrixB 1 2)
  let dstMatrix := dstMatrix.put 2 2 (symMatrixA 4 * matrixB 2 0 + symMatrixA 3 * matrixB 2 1 + symMatrixA 2 * matrixB 2 2)
  dstMatrix

/-- `SquareMatrixOps< 3 >::Rij_eq_AikSymBklAjl`: /repo/src/fixedSizeSquareMatrixOpsImpl.hpp 865-940. -/
def Rij_eq_AikSymBklAjl3 (dstSymMatrix : Vec K) (matrixA : Mat K) (symMatrixB : Vec K) : Vec K :=
  let dstSymMatrix := dstSymMatrix.put 0 (matrixA 0 0 * symMatrixB 0 * matrixA 0 0 + matrixA 0 0 * symMatrixB 5 * matrixA 0 1 +
      matrixA 0 0 * symMatrixB 4 * matrixA 0 2 + matrixA 0 1 * symMatrixB 5 * matrixA 0 0 +
      matrixA 0 1 * symMatrixB 1 * matrixA 0 1 + matrixA 0 1 * symMatrixB 3 * matrixA 0 2 +
      matrixA 0 2 * symMatrixB 4 * matrixA 0 0 + matrixA 0 2 * symMatrixB 3 * matrixA 0 1 + matrixA 0 2 * symMatrixB 2 * matrixA 0 2)
  let dstSymMatrix := dstSymMatrix.put 1 (matrixA 1 0 * symMatrixB 0 * matrixA 1 0 + matrixA 1 0 * symMatrixB 5 * matrixA 1 1 +
      matrixA 1 0 * symMatrixB 4 * matrixA 1 2 + matrixA 1 1 * symMatrixB 5 * matrixA 1 0 +
      matrixA 1 1 * symMatrixB 1 * matrixA 1 1 + matrixA 1 1 * symMatrixB 3 * matrixA 1 2 +
      matrixA 1 2 * symMatrixB 4 * matrixA 1 0 + matrixA 1 2 * symMatrixB 3 * matrixA 1 1 + matrixA 1 2 * symMatrixB 2 * matrixA 1 2)
  let dstSymMatrix := dstSymMatrix.put 2 (matrixA 2 0 * symMatrixB 0 * matrixA 2 0 + matrixA 2 0 * symMatrixB 5 * matrixA 2 1 +
      matrixA 2 0 * symMatrixB 4 * matrixA 2 2 + matrixA 2 1 * symMatrixB 5 * matrixA 2 0 +
      matrixA 2 1 * symMatrixB 1 * matrixA 2 1 + matrixA 2 1 * symMatrixB 3 * matrixA 2 2 +
      matrixA 2 2 * symMatrixB 4 * matrixA 2 0 + matrixA 2 2 * symMatrixB 3 * matrixA 2 1 + matrixA 2 2 * symMatrixB 2 * matrixA 2 2)
  let dstSymMatrix := dstSymMatrix.put 3 (matrixA 1 0 * symMatrixB 0 * matrixA 2 0 + matrixA 1 0 * symMatrixB 5 * matrixA 2 1 +
      matrixA 1 0 * symMatrixB 4 * matrixA 2 2 + matrixA 1 1 * symMatrixB 5 * matrixA 2 0 +
      matrixA 1 1 * symMatrixB 1 * matrixA 2 1 + matrixA 1 1 * symMatrixB 3 * matrixA 2 2 +
      matrixA 1 2 * symMatrixB 4 * matrixA 2 0 + matrixA 1 2 * symMatrixB 3 * matrixA 2 1 + matrixA 1 2 * symMatrixB 2 * matrixA 2 2)
  let dstSymMatrix := dstSymMatrix.put 4 (matrixA 0 0 * symMatrixB 0 * matrixA 2 0 + matrixA 0 0 * symMatrixB 5 * matrixA 2 1 +
      matrixA 0 0 * symMatrixB 4 * matrixA 2 2 + matrixA 0 1 * symMatrixB 5 * matrixA 2 0 +
      matrixA 0 1 * symMatrixB 1 * matrixA 2 1 + matrixA 0 1 * symMatrixB 3 * matrixA 2 2 +
      matrixA 0 2 * symMatrixB 4 * matrixA 2 0 + matrixA 0 2 * symMatrixB 3 * matrixA 2 1 + matrixA 0 2 * symMatrixB 2 * matrixA 2 2)
  let dstSymMatrix := dstSymMatrix.put 5 (matrixA 0 0 * symMatrixB 0 * matrixA 1 0 + matrixA 0 0 * symMatrixB 5 * matrixA 1 1 +
      matrixA 0 0 * symMatrixB 4 * matrixA 1 2 + matrixA 0 1 * symMatrixB 5 * matrixA 1 0 +
      matrixA 0 1 * symMatrixB 1 * matrixA 1 1 + matrixA 0 1 * symMatrixB 3 * matrixA 1 2 +
      matrixA 0 2 * symMatrixB 4 * matrixA 1 0 + matrixA 0 2 * symMatrixB 3 * matrixA 1 1 + matrixA 0 2 * symMatrixB 2 * matrixA 1 2)
  dstSymMatrix

/-- `SquareMatrixOps< 3 >::symRij_eq_AiAj`: /repo/src/fixedSizeSquareMatrixOpsImpl.hpp 951-965. -/
def symRij_eq_AiAj3 (dstMatrix : Vec K) (vectorA : Vec K) : Vec K :=
  let dstMatrix := dstMatrix.put 0 (vectorA 0 * vectorA 0)
  let dstMatrix := dstMatrix.put 1 (vectorA 1 * vectorA 1)
  let dstMatrix := dstMatrix.put 2 (vectorA 2 * vectorA 2)
  let dstMatrix := dstMatrix.put 3 (vectorA 1 * vectorA 2)
  let dstMatrix := dstMatrix.put 4 (vectorA 0 * vectorA 2)
  let dstMatrix := dstMatrix.put 5 (vectorA 0 * vectorA 1)
  dstMatrix

/-- `SquareMatrixOps< 3 >::symRij_eq_AiBj_plus_AjBi`: /repo/src/fixedSizeSquareMatrixOpsImpl.hpp 978-994. -/
def symRij_eq_AiBj_plus_AjBi3 (dstMatrix : Vec K) (vectorA : Vec K) (vectorB : Vec K) : Vec K :=
  let dstMatrix := dstMatrix.put 0 (2 * vectorA 0 * vectorB 0)
  let dstMatrix := dstMatrix.put 1 (2 * vectorA 1 * vectorB 1)
  let dstMatrix := dstMatrix.put 2 (2 * vectorA 2 * vectorB 2)
  let dstMatrix := dstMatrix.put 3 (vectorA 1 * vectorB 2 + vectorA 2 * vectorB 1)
  let dstMatrix := dstMatrix.put 4 (vectorA 0 * vectorB 2 + vectorA 2 * vectorB 0)
  let dstMatrix := dstMatrix.put 5 (vectorA 0 * vectorB 1 + vectorA 1 * vectorB 0)
  dstMatrix

/-- `SquareMatrixOps< 3 >::denseToSymmetric`: /repo/src/fixedSizeSquareMatrixOpsImpl.hpp 1123-1136. -/
def denseToSymmetric3 (dstSymMatrix : Vec K) (srcMatrix : Mat K) : Vec K :=
  let dstSymMatrix := dstSymMatrix.put 0 (srcMatrix 0 0)
  let dstSymMatrix := dstSymMatrix.put 1 (srcMatrix 1 1)
  let dstSymMatrix := dstSymMatrix.put 2 (srcMatrix 2 2)
  let dstSymMatrix := dstSymMatrix.put 3 (srcMatrix 1 2)
  let dstSymMatrix := dstSymMatrix.put 4 (srcMatrix 0 2)
  let dstSymMatrix := dstSymMatrix.put 5 (srcMatrix 0 1)
  dstSymMatrix

/-- `SquareMatrixOps< 3 >::symmetricToDense`: /repo/src/fixedSizeSquareMatrixOpsImpl.hpp 1145-1163. -/
def symmetricToDense3 (dstMatrix : Mat K) (srcSymMatrix : Vec K) : Mat K :=
  let dstMatrix := dstMatrix.put 0 0 (srcSymMatrix 0)
  let dstMatrix := dstMatrix.put 1 1 (srcSymMatrix 1)
  let dstMatrix := dstMatrix.put 2 2 (srcSymMatrix 2)
  let dstMatrix := dstMatrix.put 0 1 (srcSymMatrix 5)
  let dstMatrix := dstMatrix.put 0 2 (srcSymMatrix 4)
  let dstMatrix := dstMatrix.put 1 2 (srcSymMatrix 3)
  let dstMatrix := dstMatrix.put 1 0 (srcSymMatrix 5)
  let dstMatrix := dstMatrix.put 2 0 (srcSymMatrix 4)
  let dstMatrix := dstMatrix.put 2 1 (srcSymMatrix 3)
  dstMatrix

end LvArray.tensorOps

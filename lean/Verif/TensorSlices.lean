import Verif.TensorOps
import Verif.SliceOps

/-!
# `tensorOps` on slices in one memory

The functions of `Verif/TensorOps.lean` once more, now with arguments that are slices (of arrays of any layout) in one memory, so that
arguments can overlap: every subscript is the `operator[]` of `ArraySlice`, reads see what the same call has written before, and sizes
are compared as the build configuration says.  A matrix is used with `matrix[ i ][ j ]`.  Addresses are those of the whole memory.
C arrays are slices with stride one; for these the sizes are compared by the compiler.

`LVARRAY_RESTRICT_REF`, and `LVARRAY_RESTRICT` on `ArraySlice::m_data` (/repo/src/ArraySlice.hpp 368), allow the compiler to assume
that what is written through one argument is not read through another.  Where that is so, the order of the steps below is the only
meaning the code has; where arguments overlap, it is the meaning without that assumption.
-/

namespace LvArray.tensorOps.Slices

variable {K : Type}

/-- `internal::checkSizes< ISIZE >( array )`: /repo/src/genericTensorOps.hpp 230-242. -/
def checkSizes (c : Cfg) (n : Nat) (s : Slice) : R Unit :=
  if c.boundsCheck then errorIf (s.dims.getD 0 0 != n) else .ok ()

/-- `internal::checkSizes< ISIZE, JSIZE >( array )`: /repo/src/genericTensorOps.hpp 252-264. -/
def checkSizes2 (c : Cfg) (n m : Nat) (s : Slice) : R Unit :=
  if c.boundsCheck then do
    errorIf (s.dims.getD 0 0 != n)
    errorIf (s.dims.getD 1 0 != m)
  else .ok ()

/-- The value of `vector[ i ]`: /repo/src/ArraySlice.hpp 289-296. -/
def rd (c : Cfg) (mem : Store K) (s : Slice) (i : Nat) : R K := do
  .ok (mem (← s.chain c [(i : Int)]).data)

/-- The value of `matrix[ i ][ j ]`: /repo/src/ArraySlice.hpp 273-296. -/
def rd2 (c : Cfg) (mem : Store K) (s : Slice) (i j : Nat) : R K := do
  .ok (mem (← s.chain c [(i : Int), (j : Int)]).data)

/-- `vector[ i ] = x`: /repo/src/ArraySlice.hpp 289-296. -/
def wr (c : Cfg) (mem : Store K) (s : Slice) (i : Nat) (x : K) : R (Store K) := do
  .ok (mem.set (← s.chain c [(i : Int)]).data x)

/-- `matrix[ i ][ j ] = x`: /repo/src/ArraySlice.hpp 273-296. -/
def wr2 (c : Cfg) (mem : Store K) (s : Slice) (i j : Nat) (x : K) : R (Store K) := do
  .ok (mem.set (← s.chain c [(i : Int), (j : Int)]).data x)

/-- `for( std::ptrdiff_t i = lo; i < lo + n; ++i )` -/
def loopR {σ : Type} : Nat → Nat → (Nat → σ → R σ) → σ → R σ
  | 0, _, _, s => .ok s
  | n + 1, lo, f, s => do loopR n (lo + 1) f (← f lo s)

/-! ## Vectors and matrices -/

/-- `fill< ISIZE >`: /repo/src/genericTensorOps.hpp 310-321. -/
def fill (c : Cfg) (n : Nat) (dst : Slice) (value : K) (mem : Store K) : R (Store K) := do
  checkSizes c n dst
  loopR n 0 (fun i mem => do wr c mem dst i (value)) mem

/-- `fill< ISIZE, JSIZE >`: /repo/src/genericTensorOps.hpp 332-347. -/
def fillMat (c : Cfg) (n m : Nat) (dst : Slice) (value : K) (mem : Store K) : R (Store K) := do
  checkSizes2 c n m dst
  loopR n 0 (fun i mem => loopR m 0 (fun j mem => do wr2 c mem dst i j (value)) mem) mem

/-- `copy< ISIZE >`: /repo/src/genericTensorOps.hpp 358-371. -/
def copy (c : Cfg) (n : Nat) (dst src : Slice) (mem : Store K) : R (Store K) := do
  checkSizes c n dst
  checkSizes c n src
  loopR n 0 (fun i mem => do wr c mem dst i (← rd c mem src i)) mem

/-- `copy< ISIZE, JSIZE >`: /repo/src/genericTensorOps.hpp 383-400. -/
def copyMat (c : Cfg) (n m : Nat) (dst src : Slice) (mem : Store K) : R (Store K) := do
  checkSizes2 c n m dst
  checkSizes2 c n m src
  loopR n 0 (fun i mem => loopR m 0 (fun j mem => do wr2 c mem dst i j (← rd2 c mem src i j)) mem) mem

section Arithmetic

variable [Add K] [Sub K] [Mul K]

/-- `scale< ISIZE >`: /repo/src/genericTensorOps.hpp 410-421. -/
def scale (c : Cfg) (n : Nat) (dst : Slice) (s : K) (mem : Store K) : R (Store K) := do
  checkSizes c n dst
  loopR n 0 (fun i mem => do wr c mem dst i ((← rd c mem dst i) * s)) mem

/-- `scale< ISIZE, JSIZE >`: /repo/src/genericTensorOps.hpp 432-447. -/
def scaleMat (c : Cfg) (n m : Nat) (dst : Slice) (s : K) (mem : Store K) : R (Store K) := do
  checkSizes2 c n m dst
  loopR n 0 (fun i mem => loopR m 0 (fun j mem => do wr2 c mem dst i j ((← rd2 c mem dst i j) * s)) mem) mem

/-- `scaledCopy< ISIZE >`: /repo/src/genericTensorOps.hpp 459-473. -/
def scaledCopy (c : Cfg) (n : Nat) (dst src : Slice) (s : K) (mem : Store K) : R (Store K) := do
  checkSizes c n dst
  checkSizes c n src
  loopR n 0 (fun i mem => do wr c mem dst i (s * (← rd c mem src i))) mem

/-- `scaledCopy< ISIZE, JSIZE >`: /repo/src/genericTensorOps.hpp 486-504. -/
def scaledCopyMat (c : Cfg) (n m : Nat) (dst src : Slice) (s : K) (mem : Store K) : R (Store K) := do
  checkSizes2 c n m dst
  checkSizes2 c n m src
  loopR n 0 (fun i mem => loopR m 0 (fun j mem => do wr2 c mem dst i j (s * (← rd2 c mem src i j))) mem) mem

/-- `addScalar< M >`: /repo/src/genericTensorOps.hpp 514-526. -/
def addScalar (c : Cfg) (n : Nat) (dst : Slice) (value : K) (mem : Store K) : R (Store K) := do
  checkSizes c n dst
  loopR n 0 (fun i mem => do wr c mem dst i ((← rd c mem dst i) + value)) mem

/-- `add< ISIZE >`: /repo/src/genericTensorOps.hpp 537-550. -/
def add (c : Cfg) (n : Nat) (dst src : Slice) (mem : Store K) : R (Store K) := do
  checkSizes c n dst
  checkSizes c n src
  loopR n 0 (fun i mem => do wr c mem dst i ((← rd c mem dst i) + (← rd c mem src i))) mem

/-- `add< ISIZE, JSIZE >`: /repo/src/genericTensorOps.hpp 562-579. -/
def addMat (c : Cfg) (n m : Nat) (dst src : Slice) (mem : Store K) : R (Store K) := do
  checkSizes2 c n m dst
  checkSizes2 c n m src
  loopR n 0 (fun i mem => loopR m 0 (fun j mem => do wr2 c mem dst i j ((← rd2 c mem dst i j) + (← rd2 c mem src i j))) mem) mem

/-- `subtract< ISIZE >`: /repo/src/genericTensorOps.hpp 590-603. -/
def subtract (c : Cfg) (n : Nat) (dst src : Slice) (mem : Store K) : R (Store K) := do
  checkSizes c n dst
  checkSizes c n src
  loopR n 0 (fun i mem => do wr c mem dst i ((← rd c mem dst i) - (← rd c mem src i))) mem

/-- `scaledAdd< ISIZE >`: /repo/src/genericTensorOps.hpp 615-629. -/
def scaledAdd (c : Cfg) (n : Nat) (dst src : Slice) (s : K) (mem : Store K) : R (Store K) := do
  checkSizes c n dst
  checkSizes c n src
  loopR n 0 (fun i mem => do wr c mem dst i ((← rd c mem dst i) + s * (← rd c mem src i))) mem

/-- `scaledAdd< ISIZE, JSIZE >`: /repo/src/genericTensorOps.hpp 643-661. -/
def scaledAddMat (c : Cfg) (n m : Nat) (dst src : Slice) (s : K) (mem : Store K) : R (Store K) := do
  checkSizes2 c n m dst
  checkSizes2 c n m src
  loopR n 0 (fun i mem => loopR m 0 (fun j mem => do
      wr2 c mem dst i j ((← rd2 c mem dst i j) + s * (← rd2 c mem src i j))) mem) mem

/-- `hadamardProduct< ISIZE >`: /repo/src/genericTensorOps.hpp 673-688. -/
def hadamardProduct (c : Cfg) (n : Nat) (dst a b : Slice) (mem : Store K) : R (Store K) := do
  checkSizes c n dst
  checkSizes c n a
  checkSizes c n b
  loopR n 0 (fun i mem => do wr c mem dst i ((← rd c mem a i) * (← rd c mem b i))) mem

/-- `AiBi< JSIZE >`: /repo/src/genericTensorOps.hpp 763-779. -/
def AiBi (c : Cfg) (n : Nat) (a b : Slice) (mem : Store K) : R K := do
  checkSizes c n a
  checkSizes c n b
  loopR (n - 1) 1 (fun i result => do .ok (result + (← rd c mem a i) * (← rd c mem b i))) ((← rd c mem a 0) * (← rd c mem b 0))

/-- `crossProduct`: /repo/src/genericTensorOps.hpp 790-803. -/
def crossProduct (c : Cfg) (dst a b : Slice) (mem : Store K) : R (Store K) := do
  checkSizes c 3 dst
  checkSizes c 3 a
  checkSizes c 3 b
  let mem ← wr c mem dst 0 ((← rd c mem a 1) * (← rd c mem b 2) - (← rd c mem a 2) * (← rd c mem b 1))
  let mem ← wr c mem dst 1 ((← rd c mem a 2) * (← rd c mem b 0) - (← rd c mem a 0) * (← rd c mem b 2))
  let mem ← wr c mem dst 2 ((← rd c mem a 0) * (← rd c mem b 1) - (← rd c mem a 1) * (← rd c mem b 0))
  .ok mem

/-! ## Matrices and vectors -/

/-- `Rij_eq_AiBj< ISIZE, JSIZE >`: /repo/src/genericTensorOps.hpp 825-844. -/
def Rij_eq_AiBj (c : Cfg) (n m : Nat) (dst a b : Slice) (mem : Store K) : R (Store K) := do
  checkSizes2 c n m dst
  checkSizes c n a
  checkSizes c m b
  loopR n 0 (fun i mem => loopR m 0 (fun j mem => do wr2 c mem dst i j ((← rd c mem a i) * (← rd c mem b j))) mem) mem

/-- `Rij_add_AiBj< JSIZE, ISIZE >`: /repo/src/genericTensorOps.hpp 858-877. -/
def Rij_add_AiBj (c : Cfg) (n m : Nat) (dst a b : Slice) (mem : Store K) : R (Store K) := do
  checkSizes2 c n m dst
  checkSizes c n a
  checkSizes c m b
  loopR n 0 (fun i mem => loopR m 0 (fun j mem => do
    wr2 c mem dst i j ((← rd2 c mem dst i j) + (← rd c mem a i) * (← rd c mem b j))) mem) mem

/-- `Ri_eq_AijBj< ISIZE, JSIZE >`: /repo/src/genericTensorOps.hpp 891-911. -/
def Ri_eq_AijBj (c : Cfg) (n m : Nat) (dst a b : Slice) (mem : Store K) : R (Store K) := do
  checkSizes c n dst
  checkSizes2 c n m a
  checkSizes c m b
  loopR n 0 (fun i mem => do
    let mem ← wr c mem dst i ((← rd2 c mem a i 0) * (← rd c mem b 0))
    loopR (m - 1) 1 (fun j mem => do wr c mem dst i ((← rd c mem dst i) + (← rd2 c mem a i j) * (← rd c mem b j))) mem) mem

/-- `Ri_add_AijBj< ISIZE, JSIZE >`: /repo/src/genericTensorOps.hpp 925-944. -/
def Ri_add_AijBj (c : Cfg) (n m : Nat) (dst a b : Slice) (mem : Store K) : R (Store K) := do
  checkSizes c n dst
  checkSizes2 c n m a
  checkSizes c m b
  loopR n 0 (fun i mem => loopR m 0 (fun j mem => do
      wr c mem dst i ((← rd c mem dst i) + (← rd2 c mem a i j) * (← rd c mem b j))) mem) mem

/-- `Ri_eq_AjiBj< ISIZE, JSIZE >`: /repo/src/genericTensorOps.hpp 959-979. -/
def Ri_eq_AjiBj (c : Cfg) (n m : Nat) (dst a b : Slice) (mem : Store K) : R (Store K) := do
  checkSizes c n dst
  checkSizes2 c m n a
  checkSizes c m b
  loopR n 0 (fun i mem => do
    let mem ← wr c mem dst i ((← rd2 c mem a 0 i) * (← rd c mem b 0))
    loopR (m - 1) 1 (fun j mem => do wr c mem dst i ((← rd c mem dst i) + (← rd2 c mem a j i) * (← rd c mem b j))) mem) mem

/-- `Ri_add_AjiBj< ISIZE, JSIZE >`: /repo/src/genericTensorOps.hpp 994-1013. -/
def Ri_add_AjiBj (c : Cfg) (n m : Nat) (dst a b : Slice) (mem : Store K) : R (Store K) := do
  checkSizes c n dst
  checkSizes2 c m n a
  checkSizes c m b
  loopR n 0 (fun i mem => loopR m 0 (fun j mem => do
      wr c mem dst i ((← rd c mem dst i) + (← rd2 c mem a j i) * (← rd c mem b j))) mem) mem

/-! ## Matrices -/

/-- `Rij_eq_AikBkj< ISIZE, JSIZE, KSIZE >`: /repo/src/genericTensorOps.hpp 1065-1095. -/
def Rij_eq_AikBkj (c : Cfg) (n m l : Nat) (dst a b : Slice) (mem : Store K) : R (Store K) := do
  checkSizes2 c n m dst
  checkSizes2 c n l a
  checkSizes2 c l m b
  loopR n 0 (fun i mem => loopR m 0 (fun j mem => do
    let mem ← wr2 c mem dst i j ((← rd2 c mem a i 0) * (← rd2 c mem b 0 j))
    loopR (l - 1) 1 (fun k mem => do
      wr2 c mem dst i j ((← rd2 c mem dst i j) + (← rd2 c mem a i k) * (← rd2 c mem b k j))) mem) mem) mem

/-- `Rij_add_AikBkj< ISIZE, JSIZE, KSIZE >`: /repo/src/genericTensorOps.hpp 1111-1140. -/
def Rij_add_AikBkj (c : Cfg) (n m l : Nat) (dst a b : Slice) (mem : Store K) : R (Store K) := do
  checkSizes2 c n m dst
  checkSizes2 c n l a
  checkSizes2 c l m b
  loopR n 0 (fun i mem => loopR m 0 (fun j mem =>
    loopR l 0 (fun k mem => do
      wr2 c mem dst i j ((← rd2 c mem dst i j) + (← rd2 c mem a i k) * (← rd2 c mem b k j))) mem) mem) mem

/-- `Rij_eq_AikBjk< ISIZE, JSIZE, KSIZE >`: /repo/src/genericTensorOps.hpp 1156-1186. -/
def Rij_eq_AikBjk (c : Cfg) (n m l : Nat) (dst a b : Slice) (mem : Store K) : R (Store K) := do
  checkSizes2 c n m dst
  checkSizes2 c n l a
  checkSizes2 c m l b
  loopR n 0 (fun i mem => loopR m 0 (fun j mem => do
    let mem ← wr2 c mem dst i j ((← rd2 c mem a i 0) * (← rd2 c mem b j 0))
    loopR (l - 1) 1 (fun k mem => do
      wr2 c mem dst i j ((← rd2 c mem dst i j) + (← rd2 c mem a i k) * (← rd2 c mem b j k))) mem) mem) mem

/-- `Rij_add_AikBjk< ISIZE, JSIZE, KSIZE >`: /repo/src/genericTensorOps.hpp 1202-1230. -/
def Rij_add_AikBjk (c : Cfg) (n m l : Nat) (dst a b : Slice) (mem : Store K) : R (Store K) := do
  checkSizes2 c n m dst
  checkSizes2 c n l a
  checkSizes2 c m l b
  loopR n 0 (fun i mem => loopR m 0 (fun j mem =>
    loopR l 0 (fun k mem => do
      wr2 c mem dst i j ((← rd2 c mem dst i j) + (← rd2 c mem a i k) * (← rd2 c mem b j k))) mem) mem) mem

/-- `Rij_add_AikAjk< ISIZE, JSIZE >`: /repo/src/genericTensorOps.hpp 1243-1266. -/
def Rij_add_AikAjk (c : Cfg) (n l : Nat) (dst a : Slice) (mem : Store K) : R (Store K) := do
  checkSizes2 c n n dst
  checkSizes2 c n l a
  loopR n 0 (fun i mem => loopR n 0 (fun j mem =>
    loopR l 0 (fun k mem => do
      wr2 c mem dst i j ((← rd2 c mem dst i j) + (← rd2 c mem a i k) * (← rd2 c mem a j k))) mem) mem) mem

/-- `Rij_eq_AkiBkj< ISIZE, JSIZE, KSIZE >`: /repo/src/genericTensorOps.hpp 1282-1311. -/
def Rij_eq_AkiBkj (c : Cfg) (n m l : Nat) (dst a b : Slice) (mem : Store K) : R (Store K) := do
  checkSizes2 c n m dst
  checkSizes2 c l n a
  checkSizes2 c l m b
  loopR n 0 (fun i mem => loopR m 0 (fun j mem => do
    let mem ← wr2 c mem dst i j ((← rd2 c mem a 0 i) * (← rd2 c mem b 0 j))
    loopR (l - 1) 1 (fun k mem => do
      wr2 c mem dst i j ((← rd2 c mem dst i j) + (← rd2 c mem a k i) * (← rd2 c mem b k j))) mem) mem) mem

/-- `Rij_eq_AkiAkj< ISIZE, JSIZE >`: /repo/src/genericTensorOps.hpp 1324-1348. -/
def Rij_eq_AkiAkj (c : Cfg) (n l : Nat) (dst a : Slice) (mem : Store K) : R (Store K) := do
  checkSizes2 c n n dst
  checkSizes2 c l n a
  loopR n 0 (fun i mem => loopR n 0 (fun j mem => do
    let mem ← wr2 c mem dst i j ((← rd2 c mem a 0 i) * (← rd2 c mem a 0 j))
    loopR (l - 1) 1 (fun k mem => do
      wr2 c mem dst i j ((← rd2 c mem dst i j) + (← rd2 c mem a k i) * (← rd2 c mem a k j))) mem) mem) mem

/-- `Rij_add_AkiBkj< ISIZE, JSIZE, KSIZE >`: /repo/src/genericTensorOps.hpp 1364-1392. -/
def Rij_add_AkiBkj (c : Cfg) (n m l : Nat) (dst a b : Slice) (mem : Store K) : R (Store K) := do
  checkSizes2 c n m dst
  checkSizes2 c l n a
  checkSizes2 c l m b
  loopR n 0 (fun i mem => loopR m 0 (fun j mem =>
    loopR l 0 (fun k mem => do
      wr2 c mem dst i j ((← rd2 c mem dst i j) + (← rd2 c mem a k i) * (← rd2 c mem b k j))) mem) mem) mem

/-- `addIdentity< ISIZE >`: /repo/src/genericTensorOps.hpp 1434-1445. -/
def addIdentity (c : Cfg) (n : Nat) (dst : Slice) (s : K) (mem : Store K) : R (Store K) := do
  checkSizes2 c n n dst
  loopR n 0 (fun i mem => do wr2 c mem dst i i ((← rd2 c mem dst i i) + s)) mem

/-- `symAddIdentity< ISIZE >`: /repo/src/genericTensorOps.hpp 1485-1496. -/
def symAddIdentity (c : Cfg) (n : Nat) (dst : Slice) (s : K) (mem : Store K) : R (Store K) := do
  checkSizes c (symSize n) dst
  loopR n 0 (fun i mem => do wr c mem dst i ((← rd c mem dst i) + s)) mem

end Arithmetic

/-- `transpose< ISIZE, JSIZE >( dstMatrix, srcMatrix )`: /repo/src/genericTensorOps.hpp 1032-1049. -/
def transpose (c : Cfg) (n m : Nat) (dst src : Slice) (mem : Store K) : R (Store K) := do
  checkSizes2 c n m dst
  checkSizes2 c m n src
  loopR m 0 (fun i mem => loopR n 0 (fun j mem => do wr2 c mem dst j i (← rd2 c mem src i j)) mem) mem

/-- `transpose< ISIZE >( matrix )`: /repo/src/genericTensorOps.hpp 1408-1424. -/
def transposeInPlace (c : Cfg) (n : Nat) (a : Slice) (mem : Store K) : R (Store K) := do
  checkSizes2 c n n a
  loopR n 0 (fun i mem => loopR (n - (i + 1)) (i + 1) (fun j mem => do
    let temp ← rd2 c mem a i j
    let mem ← wr2 c mem a i j (← rd2 c mem a j i)
    wr2 c mem a j i temp) mem) mem

end LvArray.tensorOps.Slices

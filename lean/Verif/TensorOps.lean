import Mathlib.Algebra.Field.Basic
import Mathlib.Algebra.Order.Group.Unbundled.Abs

/-!
# `tensorOps`: operations on vectors and matrices of any size

A vector is what `vector[ i ]` yields, a matrix what `matrix[ i ][ j ]` yields, for all indices; a function changes the entries it assigns
to and no others.  Arguments declared with `LVARRAY_RESTRICT_REF` do not overlap, so only the destination changes.  The type of the
values is arbitrary and its arithmetic need not obey any law, so the definitions apply to floating point numbers too (C68); C40 to C43
are about exact arithmetic, that of a commutative ring or a field.  All arguments have the same type of values.  The
sizes are template arguments, positive by `static_assert` and compared with the arguments at compile time, or at run time with
`LVARRAY_BOUNDS_CHECK` (/repo/src/genericTensorOps.hpp 107-264); that comparison is not modelled.
-/

namespace LvArray.tensorOps

/-- `vector[ i ]`. -/
abbrev Vec (K : Type) := Nat → K

/-- `matrix[ i ][ j ]`. -/
abbrev Mat (K : Type) := Nat → Nat → K

variable {K : Type}

/-- `vector[ i ] = x` -/
def Vec.put (v : Vec K) (i : Nat) (x : K) : Vec K := fun k => if k = i then x else v k

/-- `matrix[ i ][ j ] = x` -/
def Mat.put (m : Mat K) (i j : Nat) (x : K) : Mat K := fun k l => if k = i ∧ l = j then x else m k l

/-- `for( std::ptrdiff_t i = lo; i < lo + n; ++i )` -/
def loop {σ : Type} : Nat → Nat → (Nat → σ → σ) → σ → σ
  | 0, _, _, s => s
  | n + 1, lo, f, s => loop n (lo + 1) f (f lo s)

/-- `SYM_SIZE< M >`: /repo/src/genericTensorOps.hpp 268-270. -/
def symSize (m : Nat) : Nat := (m * (m + 1)) / 2

/-! ## Vectors -/

/-- `fill< ISIZE >`: /repo/src/genericTensorOps.hpp 310-321. -/
def fill (n : Nat) (v : Vec K) (value : K) : Vec K := loop n 0 (fun i v => v.put i value) v

/-- `fill< ISIZE, JSIZE >`: /repo/src/genericTensorOps.hpp 332-347. -/
def fillMat (n m : Nat) (a : Mat K) (value : K) : Mat K :=
  loop n 0 (fun i a => loop m 0 (fun j a => a.put i j value) a) a

/-- `copy< ISIZE >`: /repo/src/genericTensorOps.hpp 358-371. -/
def copy (n : Nat) (dst src : Vec K) : Vec K := loop n 0 (fun i dst => dst.put i (src i)) dst

/-- `copy< ISIZE, JSIZE >`: /repo/src/genericTensorOps.hpp 383-400. -/
def copyMat (n m : Nat) (dst src : Mat K) : Mat K :=
  loop n 0 (fun i dst => loop m 0 (fun j dst => dst.put i j (src i j)) dst) dst

section Arithmetic

variable [Add K] [Sub K] [Mul K]

/-- `scale< ISIZE >`: /repo/src/genericTensorOps.hpp 410-421. -/
def scale (n : Nat) (v : Vec K) (s : K) : Vec K := loop n 0 (fun i v => v.put i (v i * s)) v

/-- `scale< ISIZE, JSIZE >`: /repo/src/genericTensorOps.hpp 432-447. -/
def scaleMat (n m : Nat) (a : Mat K) (s : K) : Mat K :=
  loop n 0 (fun i a => loop m 0 (fun j a => a.put i j (a i j * s)) a) a

/-- `scaledCopy< ISIZE >`: /repo/src/genericTensorOps.hpp 459-473. -/
def scaledCopy (n : Nat) (dst src : Vec K) (s : K) : Vec K := loop n 0 (fun i dst => dst.put i (s * src i)) dst

/-- `scaledCopy< ISIZE, JSIZE >`: /repo/src/genericTensorOps.hpp 486-504. -/
def scaledCopyMat (n m : Nat) (dst src : Mat K) (s : K) : Mat K :=
  loop n 0 (fun i dst => loop m 0 (fun j dst => dst.put i j (s * src i j)) dst) dst

/-- `addScalar< M >`: /repo/src/genericTensorOps.hpp 514-526. -/
def addScalar (n : Nat) (dst : Vec K) (value : K) : Vec K := loop n 0 (fun i dst => dst.put i (dst i + value)) dst

/-- `add< ISIZE >`: /repo/src/genericTensorOps.hpp 537-550. -/
def add (n : Nat) (dst src : Vec K) : Vec K := loop n 0 (fun i dst => dst.put i (dst i + src i)) dst

/-- `add< ISIZE, JSIZE >`: /repo/src/genericTensorOps.hpp 562-579. -/
def addMat (n m : Nat) (dst src : Mat K) : Mat K :=
  loop n 0 (fun i dst => loop m 0 (fun j dst => dst.put i j (dst i j + src i j)) dst) dst

/-- `subtract< ISIZE >`: /repo/src/genericTensorOps.hpp 590-603. -/
def subtract (n : Nat) (dst src : Vec K) : Vec K := loop n 0 (fun i dst => dst.put i (dst i - src i)) dst

/-- `scaledAdd< ISIZE >`: /repo/src/genericTensorOps.hpp 615-629. -/
def scaledAdd (n : Nat) (dst src : Vec K) (s : K) : Vec K := loop n 0 (fun i dst => dst.put i (dst i + s * src i)) dst

/-- `scaledAdd< ISIZE, JSIZE >`: /repo/src/genericTensorOps.hpp 643-661. -/
def scaledAddMat (n m : Nat) (dst src : Mat K) (s : K) : Mat K :=
  loop n 0 (fun i dst => loop m 0 (fun j dst => dst.put i j (dst i j + s * src i j)) dst) dst

/-- `hadamardProduct< ISIZE >`: /repo/src/genericTensorOps.hpp 673-688. -/
def hadamardProduct (n : Nat) (dst a b : Vec K) : Vec K := loop n 0 (fun i dst => dst.put i (a i * b i)) dst

/-- `l2NormSquared< ISIZE >`: /repo/src/genericTensorOps.hpp 704-717. -/
def l2NormSquared (n : Nat) (v : Vec K) : K := loop (n - 1) 1 (fun i norm => norm + v i * v i) (v 0 * v 0)

/-- `AiBi< JSIZE >`: /repo/src/genericTensorOps.hpp 763-779. -/
def AiBi (n : Nat) (a b : Vec K) : K := loop (n - 1) 1 (fun i result => result + a i * b i) (a 0 * b 0)

/-- `crossProduct`: /repo/src/genericTensorOps.hpp 790-803. -/
def crossProduct (dst a b : Vec K) : Vec K :=
  ((dst.put 0 (a 1 * b 2 - a 2 * b 1)).put 1 (a 2 * b 0 - a 0 * b 2)).put 2 (a 0 * b 1 - a 1 * b 0)

/-! ## Matrices and vectors -/

/-- `Rij_eq_AiBj< ISIZE, JSIZE >`: /repo/src/genericTensorOps.hpp 825-844. -/
def Rij_eq_AiBj (n m : Nat) (dst : Mat K) (a b : Vec K) : Mat K :=
  loop n 0 (fun i dst => loop m 0 (fun j dst => dst.put i j (a i * b j)) dst) dst

/-- `Rij_add_AiBj< JSIZE, ISIZE >`: /repo/src/genericTensorOps.hpp 858-877. -/
def Rij_add_AiBj (n m : Nat) (dst : Mat K) (a b : Vec K) : Mat K :=
  loop n 0 (fun i dst => loop m 0 (fun j dst => dst.put i j (dst i j + a i * b j)) dst) dst

/-- `Ri_eq_AijBj< ISIZE, JSIZE >`: /repo/src/genericTensorOps.hpp 891-911. -/
def Ri_eq_AijBj (n m : Nat) (dst : Vec K) (a : Mat K) (b : Vec K) : Vec K :=
  loop n 0 (fun i dst => loop (m - 1) 1 (fun j dst => dst.put i (dst i + a i j * b j)) (dst.put i (a i 0 * b 0))) dst

/-- `Ri_add_AijBj< ISIZE, JSIZE >`: /repo/src/genericTensorOps.hpp 925-944. -/
def Ri_add_AijBj (n m : Nat) (dst : Vec K) (a : Mat K) (b : Vec K) : Vec K :=
  loop n 0 (fun i dst => loop m 0 (fun j dst => dst.put i (dst i + a i j * b j)) dst) dst

/-- `Ri_eq_AjiBj< ISIZE, JSIZE >`: /repo/src/genericTensorOps.hpp 959-979. -/
def Ri_eq_AjiBj (n m : Nat) (dst : Vec K) (a : Mat K) (b : Vec K) : Vec K :=
  loop n 0 (fun i dst => loop (m - 1) 1 (fun j dst => dst.put i (dst i + a j i * b j)) (dst.put i (a 0 i * b 0))) dst

/-- `Ri_add_AjiBj< ISIZE, JSIZE >`: /repo/src/genericTensorOps.hpp 994-1013. -/
def Ri_add_AjiBj (n m : Nat) (dst : Vec K) (a : Mat K) (b : Vec K) : Vec K :=
  loop n 0 (fun i dst => loop m 0 (fun j dst => dst.put i (dst i + a j i * b j)) dst) dst

/-! ## Matrices -/

/-- `Rij_eq_AikBkj< ISIZE, JSIZE, KSIZE >`: /repo/src/genericTensorOps.hpp 1065-1095. -/
def Rij_eq_AikBkj (n m l : Nat) (dst a b : Mat K) : Mat K :=
  loop n 0 (fun i dst => loop m 0 (fun j dst =>
    loop (l - 1) 1 (fun k dst => dst.put i j (dst i j + a i k * b k j)) (dst.put i j (a i 0 * b 0 j))) dst) dst

/-- `Rij_add_AikBkj< ISIZE, JSIZE, KSIZE >`: /repo/src/genericTensorOps.hpp 1111-1140. -/
def Rij_add_AikBkj (n m l : Nat) (dst a b : Mat K) : Mat K :=
  loop n 0 (fun i dst => loop m 0 (fun j dst =>
    loop l 0 (fun k dst => dst.put i j (dst i j + a i k * b k j)) dst) dst) dst

/-- `Rij_eq_AikBjk< ISIZE, JSIZE, KSIZE >`: /repo/src/genericTensorOps.hpp 1156-1186. -/
def Rij_eq_AikBjk (n m l : Nat) (dst a b : Mat K) : Mat K :=
  loop n 0 (fun i dst => loop m 0 (fun j dst =>
    loop (l - 1) 1 (fun k dst => dst.put i j (dst i j + a i k * b j k)) (dst.put i j (a i 0 * b j 0))) dst) dst

/-- `Rij_add_AikBjk< ISIZE, JSIZE, KSIZE >`: /repo/src/genericTensorOps.hpp 1202-1230. -/
def Rij_add_AikBjk (n m l : Nat) (dst a b : Mat K) : Mat K :=
  loop n 0 (fun i dst => loop m 0 (fun j dst =>
    loop l 0 (fun k dst => dst.put i j (dst i j + a i k * b j k)) dst) dst) dst

/-- `Rij_add_AikAjk< ISIZE, JSIZE >`: /repo/src/genericTensorOps.hpp 1243-1266. -/
def Rij_add_AikAjk (n l : Nat) (dst a : Mat K) : Mat K :=
  loop n 0 (fun i dst => loop n 0 (fun j dst =>
    loop l 0 (fun k dst => dst.put i j (dst i j + a i k * a j k)) dst) dst) dst

/-- `Rij_eq_AkiBkj< ISIZE, JSIZE, KSIZE >`: /repo/src/genericTensorOps.hpp 1282-1311. -/
def Rij_eq_AkiBkj (n m l : Nat) (dst a b : Mat K) : Mat K :=
  loop n 0 (fun i dst => loop m 0 (fun j dst =>
    loop (l - 1) 1 (fun k dst => dst.put i j (dst i j + a k i * b k j)) (dst.put i j (a 0 i * b 0 j))) dst) dst

/-- `Rij_eq_AkiAkj< ISIZE, JSIZE >`: /repo/src/genericTensorOps.hpp 1324-1348. -/
def Rij_eq_AkiAkj (n l : Nat) (dst a : Mat K) : Mat K :=
  loop n 0 (fun i dst => loop n 0 (fun j dst =>
    loop (l - 1) 1 (fun k dst => dst.put i j (dst i j + a k i * a k j)) (dst.put i j (a 0 i * a 0 j))) dst) dst

/-- `Rij_add_AkiBkj< ISIZE, JSIZE, KSIZE >`: /repo/src/genericTensorOps.hpp 1364-1392. -/
def Rij_add_AkiBkj (n m l : Nat) (dst a b : Mat K) : Mat K :=
  loop n 0 (fun i dst => loop m 0 (fun j dst =>
    loop l 0 (fun k dst => dst.put i j (dst i j + a k i * b k j)) dst) dst) dst

/-- `addIdentity< ISIZE >`: /repo/src/genericTensorOps.hpp 1434-1445. -/
def addIdentity (n : Nat) (a : Mat K) (s : K) : Mat K := loop n 0 (fun i a => a.put i i (a i i + s)) a

/-- `trace< ISIZE >`: /repo/src/genericTensorOps.hpp 1453-1467. -/
def trace (n : Nat) (a : Mat K) : K := loop (n - 1) 1 (fun i t => t + a i i) (a 0 0)

/-- `symAddIdentity< ISIZE >`: /repo/src/genericTensorOps.hpp 1485-1496. -/
def symAddIdentity (n : Nat) (s : Vec K) (x : K) : Vec K := loop n 0 (fun i s => s.put i (s i + x)) s

/-- `symTrace< ISIZE >`: /repo/src/genericTensorOps.hpp 1504-1518. -/
def symTrace (n : Nat) (s : Vec K) : K := loop (n - 1) 1 (fun i t => t + s i) (s 0)

end Arithmetic

/-- `transpose< ISIZE, JSIZE >( dstMatrix, srcMatrix )`: /repo/src/genericTensorOps.hpp 1032-1049. -/
def transpose (n m : Nat) (dst src : Mat K) : Mat K :=
  loop m 0 (fun i dst => loop n 0 (fun j dst => dst.put j i (src i j)) dst) dst

/-- `transpose< ISIZE >( matrix )`, in place: /repo/src/genericTensorOps.hpp 1408-1424. -/
def transposeInPlace (n : Nat) (a : Mat K) : Mat K :=
  loop n 0 (fun i a => loop (n - (i + 1)) (i + 1) (fun j a => (a.put i j (a j i)).put j i (a i j)) a) a

/-- `maxAbsoluteEntry< ISIZE >`: /repo/src/genericTensorOps.hpp 286-300. -/
def maxAbsoluteEntry [Lattice K] [AddGroup K] (n : Nat) (v : Vec K) : K := loop n 0 (fun i m => max m |v i|) |v 0|

end LvArray.tensorOps

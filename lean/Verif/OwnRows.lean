import Verif.AoA
import Verif.Array1D
import Verif.Spec.OwnRows

/-!
# Member functions of `ArrayOfArrays` called with elements of the object itself

The argument is a reference or an iterator range into the allocation of the values, taken before the call.  The owning class
first makes room (/repo/src/ArrayOfArrays.hpp 474-483), which moves the later arrays or reallocates everything, and reads the
argument afterwards.
-/

namespace LvArray.AoA

variable {T : Type}

/-- What a pointer to slot `p` of the allocation `a` had before the call reads when the values are `b`.  The allocation is
replaced exactly when its capacity grows (/repo/src/bufferManipulation.hpp 252-260). -/
def readOwn (c : Cfg) (a : AoA T) (b : Buf T) (p : Nat) : R T :=
  if a.values.cap < b.cap then .error (.ub .dangling) else Buf.readStale c a.values b p

/-- `for k < n: new ( ptr + q + k ) T( *iter++ )` where `iter` points to slot `p` of the object: /repo/src/arrayManipulation.hpp
452-458, 514-518. -/
def constructOwn (c : Cfg) (a : AoA T) (b : Buf T) (q p n : Nat) : R (Buf T) :=
  forUp n 0 (fun k b => do
    let v ← readOwn c a b (p + k)
    b.construct c (q + k) v) b

/-- `&a( j, k )`: /repo/src/ArrayOfArraysView.hpp 417-421. -/
def element (c : Cfg) (a : AoA T) (j k : Nat) : R Nat := do
  a.shape.checkBounds2 c j k
  let p ← a.ptr j
  .ok (p + k)

/-- `a[ j ].begin() + lo`: /repo/src/ArrayOfArraysView.hpp 404-409. -/
def iterator (c : Cfg) (a : AoA T) (j lo : Nat) : R Nat := do
  a.shape.checkBounds c j
  let p ← a.ptr j
  .ok (p + lo)

/-- `ArrayOfArraysView::emplaceBack`, /repo/src/ArrayOfArraysView.hpp 439-449, on `a1`; the argument is slot `p` of `a`. -/
def viewEmplaceBackOwn (c : Cfg) (a a1 : AoA T) (i p : Nat) : R (AoA T) := do
  a1.shape.checkBounds c i
  a1.shape.capacityCheck c i 1
  let q ← a1.ptr i
  let n ← a1.shape.sizeOfArray c i
  arrayManipulation.assertNonNull c a1.values q
  let v ← readOwn c a a1.values p
  let values ← a1.values.construct c (q + n) v
  let shape ← a1.shape.setSize c i (n + 1)
  .ok { shape := shape, values := values }

/-- `ArrayOfArraysView::appendToArray`, /repo/src/ArrayOfArraysView.hpp 482-492, on `a1`; the range is the `n` slots of `a` from
`p` on. -/
def viewAppendOwn (c : Cfg) (a a1 : AoA T) (i p n : Nat) : R (AoA T) := do
  a1.shape.checkBounds c i
  let q ← a1.ptr i
  let m ← a1.shape.sizeOfArray c i
  let values ← constructOwn c a a1.values (q + m) p n
  a1.shape.capacityCheck c i n
  let shape ← a1.shape.setSize c i (m + n)
  .ok { shape := shape, values := values }

/-- `ArrayOfArraysView::insertIntoArray`, /repo/src/ArrayOfArraysView.hpp 525-539 with /repo/src/arrayManipulation.hpp 501-519, on
`a1`; the range is the `n` slots of `a` from `p` on.  With `n = 1` these are also the statements of `emplace`,
/repo/src/ArrayOfArraysView.hpp 503-513 with /repo/src/arrayManipulation.hpp 474-487. -/
def viewInsertOwn (c : Cfg) (a a1 : AoA T) (i pos p n : Nat) : R (AoA T) := do
  a1.shape.checkInsertBounds2 c i pos
  a1.shape.capacityCheck c i n
  let q ← a1.ptr i
  let m ← a1.shape.sizeOfArray c i
  arrayManipulation.assertNonNull c a1.values q
  arrayManipulation.checkInsertBounds c m pos
  let b ← arrayManipulation.shiftUp c a1.values q m pos n
  let values ← constructOwn c a b (q + pos) p n
  let shape ← a1.shape.setSize c i (m + n)
  .ok { shape := shape, values := values }

/-- `appendToArray` of the owning class for the object `a1`, which differs from `a` at most by an empty array, with a range of
slots of `a`: /repo/src/ArrayOfArrays.hpp 361-367. -/
def appendOwn (c : Cfg) (a a1 : AoA T) (i p n : Nat) : R (AoA T) := do
  let a1 ← dynamicallyGrowArray c a1 i n
  viewAppendOwn c a a1 i p n

/-- The member functions with arguments in the object itself: /repo/src/ArrayOfArrays.hpp 286-296, 305-318, 347-352, 361-367,
378-383, 393-399. -/
def own (c : Cfg) (a : AoA T) : OwnCall → R (AoA T)
  | .emplaceBack i j k => do
    let p ← a.element c j k
    let a1 ← dynamicallyGrowArray c a i 1
    viewEmplaceBackOwn c a a1 i p
  | .appendToArray i j lo n => do
    let p ← a.iterator c j lo
    appendOwn c a a i p n
  | .emplace i pos j k => do
    let p ← a.element c j k
    let a1 ← dynamicallyGrowArray c a i 1
    viewInsertOwn c a a1 i pos p 1
  | .insertIntoArray i pos j lo n => do
    let p ← a.iterator c j lo
    let a1 ← dynamicallyGrowArray c a i n
    viewInsertOwn c a a1 i pos p n
  | .appendArray j lo n => do
    let p ← a.iterator c j lo
    let shape ← a.shape.appendRow c
    appendOwn c a { a with shape := shape } (shape.numArrays - 1) p n
  | .insertArray i j lo n => do
    let p ← a.iterator c j lo
    let shape ← a.shape.insertRow c i
    appendOwn c a { a with shape := shape } i p n

end LvArray.AoA

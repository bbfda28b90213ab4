import Verif.ArrayND
import Verif.AoA
import Verif.IntConv

/-!
# Index arithmetic in machine integers

The other modules of the model compute sizes, strides and offsets with unbounded integers.  Here the same functions are
written once more with the integer types of the code: `t` is the template parameter `INDEX_TYPE`, `/repo/src/Array.hpp` 68
and `/repo/src/ArrayOfArraysView.hpp` 178-180 only require it to be integral.  Every arithmetic operation is carried out in
the common type of its operands after the usual arithmetic conversions (so types narrower than `int` are computed in `int`);
overflow of a signed type is undefined behaviour, an unsigned type wraps; storing the result in an `INDEX_TYPE` converts it.
-/

namespace LvArray

namespace IntTy

/-- `int`. -/
def int : IntTy := { bits := 32, signed := true }

/-- `std::ptrdiff_t`. -/
def ptrdiff : IntTy := { bits := 64, signed := true }

/-- The value of an operation of type `t` whose mathematical result is `x`. -/
def fit (t : IntTy) (x : Int) : R Int :=
  if t.signed then (if t.min ≤ x ∧ x ≤ t.max then .ok x else .error (.ub .overflow)) else .ok (t.cast x)

/-- `x * y` for `x` of type `a` and `y` of type `b`. -/
def mul (a b : IntTy) (x y : Int) : R Int := (common a b).fit ((common a b).cast x * (common a b).cast y)

/-- `x + y`. -/
def add (a b : IntTy) (x y : Int) : R Int := (common a b).fit ((common a b).cast x + (common a b).cast y)

/-- `x - y`. -/
def sub (a b : IntTy) (x y : Int) : R Int := (common a b).fit ((common a b).cast x - (common a b).cast y)

/-- `x / y`. -/
def div (a b : IntTy) (x y : Int) : R Int :=
  if (common a b).cast y = 0 then .error (.ub .overflow)
  else (common a b).fit (((common a b).cast x).tdiv ((common a b).cast y))

/-- `INDEX_TYPE const r = x * y`, all three of type `t`. -/
def mulTo (t : IntTy) (x y : Int) : R Int := do let p ← mul t t x y; .ok (t.cast p)
/-- `INDEX_TYPE const r = x + y`. -/
def addTo (t : IntTy) (x y : Int) : R Int := do let p ← add t t x y; .ok (t.cast p)
/-- `INDEX_TYPE const r = x - y`. -/
def subTo (t : IntTy) (x y : Int) : R Int := do let p ← sub t t x y; .ok (t.cast p)
/-- `INDEX_TYPE const r = x / y`. -/
def divTo (t : IntTy) (x y : Int) : R Int := do let p ← div t t x y; .ok (t.cast p)

/-- Passing a size, a capacity or an offset to a function whose parameter is a `std::ptrdiff_t`
(/repo/src/bufferManipulation.hpp 210-290, /repo/src/arrayManipulation.hpp 225-380).  Simplified: what those functions do
with a negative one, which only an overflow can produce, is not followed further but counted as undefined. -/
def toOffset (x : Int) : R Nat :=
  if ptrdiff.cast x < 0 then .error (.ub .overflow) else .ok (ptrdiff.cast x).toNat

/-- Storing an `INDEX_TYPE` as a size, an offset or a number of arrays.  Simplified: a negative one, which only an overflow
can produce, is not followed further but counted as undefined. -/
def toIndex (x : Int) : R Nat := if x < 0 then .error (.ub .overflow) else .ok x.toNat

/-- `m_sizes[ i ] += y`, `INDEX_TYPE const n = x + y`. -/
def plus (t : IntTy) (x y : Nat) : R Nat := do
  let z ← t.addTo x y
  toIndex z

/-- `m_sizes[ i ] -= y`, `INDEX_TYPE const n = x - y`. -/
def minus (t : IntTy) (x y : Nat) : R Nat := do
  let z ← t.subTo x y
  toIndex z

end IntTy

open IntTy

namespace indexing

/-- `multiplyAll`: /repo/src/indexing.hpp 76-92. -/
def multiplyAllM (t : IntTy) : List Int → R Int
  | [] => .ok 1
  | [x] => .ok x
  | x :: y :: ys => do
    let r ← multiplyAllM t (y :: ys)
    t.mulTo x r

/-- `ConditionalMultiply`: /repo/src/indexing.hpp 36-68; returns the value and its type. -/
def condMulM (t : IntTy) (isOne : Bool) (i : IntTy × Int) (s : Int) : R (IntTy × Int) :=
  if isOne then .ok i
  else do
    let p ← mul i.1 t i.2 s
    .ok (common i.1 t, p)

/-- `getLinearIndex`: /repo/src/indexing.hpp 104-127, each index with its own integer type. -/
def getLinearIndexM (t : IntTy) (usd : Int) : List Int → List (IntTy × Int) → R Int
  | s :: _, [i] => do
    let p ← condMulM t (usd == 0) i s
    .ok (t.cast p.2)
  | s :: ss, i :: j :: js => do
    let p ← condMulM t (usd == 0) i s
    let r ← getLinearIndexM t (usd - 1) ss (j :: js)
    let q ← add p.1 t p.2 r
    .ok (t.cast q)
  | _, _ => .ok 0

/-- `invalidIndices`: /repo/src/indexing.hpp 184-197; `0` is an `int`. -/
def invalidIndicesM (t : IntTy) (dims : List Int) (idx : List (IntTy × Int)) : Bool :=
  (idx.foldl (fun (st : Nat × Bool) (index : IntTy × Int) =>
    (st.1 + 1, st.2 || lt index.1 int index.2 0 || !lt index.1 t index.2 (dims.getD st.1 0))) (0, false)).2

/-- The `foldedStrides[ i ]` loop, /repo/src/indexing.hpp 226-233. -/
def foldedStrideM (t : IntTy) (perm : List Nat) (dims : List Int) (i : Nat) : R Int :=
  ((List.range perm.length).drop (i + 1)).foldlM (fun acc j => t.mulTo acc (dims.getD (perm.getD j 0) 0)) 1

/-- `calculateStrides`: /repo/src/indexing.hpp 220-243. -/
def calculateStridesM (t : IntTy) (perm : List Nat) (dims : List Int) : R (List Int) :=
  (List.range perm.length).foldlM (fun s i => do
    let f ← foldedStrideM t perm dims i
    .ok (s.set (perm.getD i 0) f)) (List.replicate perm.length (0 : Int))

end indexing

open indexing

/-- The members of an `Array` (see `ArrayN`) with dimensions and strides of type `INDEX_TYPE`. -/
structure ArrM (T : Type) where
  buf : Buf T
  perm : List Nat
  dims : List Int
  strides : List Int
  resizeIndex : Nat

namespace ArrM

variable {T : Type}

/-- The members of an array given with unbounded numbers. -/
def of (a : ArrayN T) : ArrM T :=
  { buf := a.buf, perm := a.perm, dims := a.dims.map Int.ofNat, strides := a.strides.map Int.ofNat
    resizeIndex := a.resizeIndex }

/-- `size()`: /repo/src/ArrayView.hpp 395-409. -/
def size (t : IntTy) (a : ArrM T) : R Int := multiplyAllM t a.dims

/-- The position of `a( idx... )` in the allocation: /repo/src/ArrayView.hpp 451-460, 553-559. -/
def position (t : IntTy) (c : Cfg) (a : ArrM T) (idx : List (IntTy × Int)) : R Int := do
  if c.boundsCheck then errorIf (invalidIndicesM t a.dims idx)
  getLinearIndexM t (typeManipulation.getStrideOneDimension a.perm : Nat) a.strides idx

/-- Reading `a( idx... )`. -/
def get (t : IntTy) (c : Cfg) (a : ArrM T) (idx : List (IntTy × Int)) : R T := do
  let k ← a.position t c idx
  if k < 0 then .error (.ub .outOfBounds) else a.buf.read k.toNat

/-- Assigning `a( idx... ) = v`. -/
def set (t : IntTy) (c : Cfg) (a : ArrM T) (idx : List (IntTy × Int)) (v : T) : R (ArrM T) := do
  let k ← a.position t c idx
  if k < 0 then .error (.ub .outOfBounds)
  else
    let b ← a.buf.write c k.toNat v
    .ok { a with buf := b }

/-- `a[ i ]` on a one dimensional array: /repo/src/ArrayView.hpp 537-546, /repo/src/ArraySlice.hpp 55-57.  The parameter is an `INDEX_TYPE`, so the
index of the caller is converted before the bounds are checked. -/
def bracket (t : IntTy) (c : Cfg) (a : ArrM T) (i : IntTy × Int) : R T := do
  let k := t.cast i.2
  if c.boundsCheck then errorIf (lt t int k 0 || !lt t t k (a.dims.getD 0 0))
  if k < 0 then .error (.ub .outOfBounds) else a.buf.read k.toNat

/-- One new dimension: /repo/src/Array.hpp 303-304, 330-331, 407-408. -/
def newDimension (t : IntTy) (d : IntTy × Int) : R Int := do
  let k ← integerConversion d.1 t d.2
  errorIf (lt t int k 0)
  .ok k

/-- `bufferManipulation::resize( m_dataBuffer, oldSize, size() )` after the dimensions have been set:
/repo/src/Array.hpp 307-309, 335-337, 411-413. -/
def reshape (t : IntTy) (c : Cfg) (a : ArrM T) (oldSize : Int) (dims : List Int) (v : T) : R (ArrM T) := do
  let strides ← calculateStridesM t a.perm dims
  let newSize ← multiplyAllM t dims
  let old ← toOffset oldSize
  let new ← toOffset newSize
  let b ← bufferManipulation.resize c a.buf old new v
  .ok { a with buf := b, dims := dims, strides := strides }

/-- `resize( dims... )`: /repo/src/Array.hpp 294-338.  (Storing the dimensions one by one is not observable when a later one
aborts the program.) -/
def resize (t : IntTy) (c : Cfg) (a : ArrM T) (newDims : List (IntTy × Int)) (v : T) : R (ArrM T) := do
  errorIf (newDims.length != a.dims.length)
  let oldSize ← a.size t
  let dims ← newDims.mapM (newDimension t)
  a.reshape t c oldSize dims v

/-- `resizeDimension< INDICES... >( newDims... )`: /repo/src/Array.hpp 393-414. -/
def resizeDimension (t : IntTy) (c : Cfg) (a : ArrM T) (pairs : List (Nat × IntTy × Int)) (v : T) : R (ArrM T) := do
  let oldSize ← a.size t
  let dims ← pairs.foldlM (fun ds q => do
    let k ← newDimension t q.2
    .ok (ds.set q.1 k)) a.dims
  a.reshape t c oldSize dims v

/-- `clear()`: /repo/src/Array.hpp 442-449. -/
def clear (t : IntTy) (c : Cfg) (a : ArrM T) (v : T) : R (ArrM T) := do
  let size ← a.size t
  let old ← toOffset size
  let b ← bufferManipulation.resize c a.buf old 0 v
  let dims := a.dims.set a.resizeIndex 0
  let strides ← calculateStridesM t a.perm dims
  .ok { a with buf := b, dims := dims, strides := strides }

/-- The growing loop `for( INDEX_TYPE i = numIterations - 1; i >= 0; --i )`: /repo/src/Array.hpp 636-650.  `fuel` bounds the
number of iterations that are followed; a loop that needs more counts as one that does not end. -/
def growLoop (t : IntTy) (c : Cfg) (valuesToAdd valuesToShift : Int) (v : T) : Nat → Int → Buf T → R (Buf T)
  | 0, _, _ => .error (.ub .diverge)
  | fuel + 1, i, b =>
    if lt t int i 0 then .ok b
    else do
      let valuesLeftToInsert ← t.mulTo valuesToAdd i
      let start ← t.mulTo valuesToShift i
      let startOfShift ← toOffset start
      let shift ← toOffset valuesToShift
      let left ← toOffset valuesLeftToInsert
      let add ← toOffset valuesToAdd
      let b ← arrayManipulation.shiftUp c b startOfShift shift 0 left
      let b ← arrayManipulation.constructRange c b (startOfShift + shift + left) add (fun _ => v)
      let i' ← sub t int i 1
      growLoop t c valuesToAdd valuesToShift v fuel (t.cast i') b

/-- The growing branch: /repo/src/Array.hpp 622-650. -/
def grow (t : IntTy) (c : Cfg) (b : Buf T) (curDimLength newDim curDimStride curSize newSize : Int) (v : T) :
    R (Buf T) := do
  let old ← toOffset curSize
  let new ← toOffset newSize
  let b ← bufferManipulation.reserve c b old new
  let diff ← sub t t newDim curDimLength
  let add ← mul t (common t t) curDimStride diff
  let valuesToAdd := t.cast add
  let valuesToShift ← t.mulTo curDimStride curDimLength
  let more ← sub t t newSize curSize
  let n ← div (common t t) t more valuesToAdd
  let numIterations := t.cast n
  let last ← sub t int numIterations 1
  growLoop t c valuesToAdd valuesToShift v (numIterations.toNat + 2) (t.cast last) b

/-- The shrinking branch: /repo/src/Array.hpp 651-678.  The counters of its loops stay below their bounds, so they are
natural numbers. -/
def shrink (t : IntTy) (c : Cfg) (b : Buf T) (curDimLength newDim curDimStride curSize newSize : Int) : R (Buf T) := do
  let diff ← sub t t curDimLength newDim
  let remove ← mul t (common t t) curDimStride diff
  let valuesToRemove := t.cast remove
  let valuesToShift ← t.mulTo curDimStride newDim
  let less ← sub t t curSize newSize
  let n ← div (common t t) t less valuesToRemove
  let numIterations := t.cast n
  let b ← forUp (numIterations.toNat - 1) 1 (fun i b => do
    let amountToShift ← t.mulTo valuesToRemove i
    let start ← t.mulTo valuesToShift i
    let len ← add t t valuesToShift amountToShift
    let startOfShift ← toOffset start
    let length ← toOffset len
    let amount ← toOffset amountToShift
    arrayManipulation.shiftDown c b startOfShift length amount amount) b
  let total ← t.mulTo valuesToRemove numIterations
  let first ← toOffset newSize
  let count ← toOffset total
  arrayManipulation.destroy c b first count

/-- `resizeDefaultDimension( newDimLength, args... )`: /repo/src/Array.hpp 590-680. -/
def resizeDefaultDimension (t : IntTy) (c : Cfg) (a : ArrM T) (newDim : Int) (v : T) : R (ArrM T) := do
  errorIf (lt t int newDim 0)
  let dims := a.dims.set a.resizeIndex newDim
  let curSize ← a.size t
  let strides ← calculateStridesM t a.perm dims
  let newSize ← multiplyAllM t dims
  let a' : ArrM T := { a with dims := dims, strides := strides }
  if a.dims.length = 1 ∨ a.perm.getD 0 0 = a.resizeIndex then
    let old ← toOffset curSize
    let new ← toOffset newSize
    let b ← bufferManipulation.resize c a.buf old new v
    .ok { a' with buf := b }
  else
    let curDimLength := a.dims.getD a.resizeIndex 0
    let curDimStride := a.strides.getD a.resizeIndex 0
    if newSize = curSize then .ok a'
    else if lt t t curDimLength newDim then
      let b ← grow t c a.buf curDimLength newDim curDimStride curSize newSize v
      .ok { a' with buf := b }
    else
      let b ← shrink t c a.buf curDimLength newDim curDimStride curSize newSize
      .ok { a' with buf := b }

/-- `resize( newdim )` of an array of two or more dimensions, `resizeDefault( newdim, v )` of any array:
/repo/src/Array.hpp 423-435.  The parameter is an `INDEX_TYPE`, so the argument of the caller is converted silently. -/
def resizeOne (t : IntTy) (c : Cfg) (a : ArrM T) (newDim : IntTy × Int) (v : T) : R (ArrM T) :=
  a.resizeDefaultDimension t c (t.cast newDim.2) v

end ArrM

/-! ## `ArrayOfArrays` -/

/-- `capacityOfArray`: /repo/src/ArrayOfArraysView.hpp 380-385, with `INDEX_TYPE` equal to `t`. -/
def Shape.capacityOfArrayM (t : IntTy) (c : Cfg) (s : Shape) (i : Nat) : R Nat := do
  s.checkBounds c i
  let next ← s.offsets.read (i + 1)
  let off ← s.offsets.read i
  t.minus next off

namespace AoA

variable {T : Type}

/-- `uninitializedShiftUp` with a `std::ptrdiff_t` amount of either sign: /repo/src/arrayManipulation.hpp 251-268. -/
def shiftBy (c : Cfg) (b : Buf T) (p size : Nat) (amount : Int) : R (Buf T) :=
  if amount = 0 then .ok b
  else forDown size p (fun j b =>
    if (j : Int) + amount < 0 then .error (.ub .outOfBounds)
    else do
      let b ← b.moveConstruct c ((j : Int) + amount).toNat j
      b.destroyAt c j) b

/-- The loop that shifts the later arrays up: /repo/src/ArrayOfArraysView.hpp 896-901. -/
def shiftRowsBy (c : Cfg) (s : Shape) (i : Nat) (amount : Int) (b : Buf T) : R (Buf T) :=
  forDown (s.numArrays - 1 - i) (i + 1) (fun array b => do
    let n ← s.sizeOfArray c array
    let off ← s.offsets.read array
    shiftBy c b off n amount) b

/-- `m_offsets[ array ] += capacityIncrease` for the later arrays: /repo/src/ArrayOfArraysView.hpp 933-936. -/
def addToOffsets (t : IntTy) (c : Cfg) (s : Shape) (i : Nat) (increase : Int) : R Shape := do
  let offsets ← forUp (s.numArrays + 1 - (i + 1)) (i + 1) (fun array (o : Buf Nat) => do
    let x ← o.read array
    let y ← t.addTo x increase
    let y ← toIndex y
    o.write c.ix array y) s.offsets
  .ok { s with offsets := offsets }

/-- `setCapacityOfArray( i, newCapacity )`: /repo/src/ArrayOfArraysView.hpp 875-942, with `INDEX_TYPE` equal to `t`.  The
stored offsets and sizes are non-negative and given as natural numbers. -/
def setCapacityOfArrayM (t : IntTy) (c : Cfg) (a : AoA T) (i newCapacity : Nat) : R (AoA T) := do
  a.shape.checkBounds c i
  let cap ← a.shape.capacityOfArrayM t c i
  let increase ← t.subTo newCapacity cap
  if increase = 0 then .ok a
  else if lt int t 0 increase then do
    let maxOffset ← a.shape.offsets.read a.shape.numArrays
    let need ← add t t maxOffset increase
    let newCap ← toOffset need
    let values ← bufferManipulation.dynamicReserve c a.values maxOffset newCap
    let values ← shiftRowsBy c a.shape i (ptrdiff.cast increase) values
    let shape ← addToOffsets t c a.shape i increase
    .ok { shape := shape, values := values }
  else do
    let off ← a.shape.offsets.read i
    let d ← sub int t 0 increase
    let decrease ← toOffset (t.cast d)
    let prevSize ← a.shape.sizeOfArray c i
    let shape ← a.shape.setSize c i (Nat.min prevSize newCapacity)
    let values ← shape.shrinkRow c i decrease off (Nat.min prevSize newCapacity) prevSize a.values
    let shape ← addToOffsets t c shape i increase
    .ok { shape := shape, values := values }

end AoA

end LvArray

import Verif.Machine
import Verif.AoAStep

/-!
# `ArrayOfArrays` with machine integers

The operations of `Verif/AoA.lean` and `Verif/Rows.lean` once more, with the number of arrays, the offsets, the sizes and the
capacities computed in the index type `t` (see `Verif/Machine.lean`).  The arguments of the operations are values of `t` that
are not negative, given as natural numbers.  Positions of existing arrays and values (`i + 1` for an existing array `i`, the
counters of loops over existing arrays) are taken as exact.
-/

namespace LvArray

open IntTy

namespace IntTy

/-- `x + 1`, where `1` is an `int`, passed as a `std::ptrdiff_t`. -/
def succOffset (t : IntTy) (x : Nat) : R Nat := do
  let z ← add t int x 1
  toOffset z

end IntTy

namespace Shape

variable {X : Type}

/-- `ARRAYOFARRAYS_CAPACITY_CHECK( i, increase )`: /repo/src/ArrayOfArraysView.hpp 78-82, 137. -/
def capacityCheckM (t : IntTy) (c : Cfg) (s : Shape) (i increase : Nat) : R Unit :=
  if c.boundsCheck then do
    let n ← sizeOfArray c s i
    let sum ← add t t n increase
    let m ← capacityOfArrayM t c s i
    errorIf (lt t (common t t) m sum)
  else .ok ()

/-- `INDEX_TYPE const offsetsSize = ( m_numArrays == 0 ) ? 0 : m_numArrays + 1`: /repo/src/ArrayOfArraysView.hpp 714, 761. -/
def offsetsSizeM (t : IntTy) (s : Shape) : R Nat :=
  if s.numArrays = 0 then .ok 0
  else do
    let z ← t.addTo s.numArrays 1
    toOffset z

/-- One round of `compress`: /repo/src/ArrayOfArraysView.hpp 666-681. -/
def compressStepM (t : IntTy) (c : Cfg) (s : Shape) (i : Nat) (st : Buf Nat × Buf X) : R (Buf Nat × Buf X) := do
  let (offsets, b) := st
  let nextOffset ← offsets.read (i + 1)
  let offset ← offsets.read i
  let n ← sizeOfArray c s i
  let gap ← sub t t nextOffset offset
  let shift ← sub (common t t) t gap n
  let shiftAmount ← toIndex (t.cast shift)
  let sizeOfNextArray ← sizeOfArray c s (i + 1)
  let b ← arrayManipulation.uninitializedShiftDown c b nextOffset sizeOfNextArray shiftAmount
  let x ← offsets.read (i + 1)
  let y ← t.minus x shiftAmount
  let offsets ← offsets.write c.ix (i + 1) y
  .ok (offsets, b)

/-- `compress`: /repo/src/ArrayOfArraysView.hpp 662-686. -/
def compressM (t : IntTy) (c : Cfg) (s : Shape) (b : Buf X) : R (Shape × Buf X) :=
  if s.numArrays = 0 then .ok (s, b)
  else do
    let (offsets, b) ← forUp (s.numArrays - 1) 0 (compressStepM t c s) (s.offsets, b)
    let off ← offsets.read (s.numArrays - 1)
    let n ← sizeOfArray c s (s.numArrays - 1)
    let last ← t.plus off n
    let offsets ← offsets.write c.ix s.numArrays last
    .ok ({ s with offsets := offsets }, b)

/-- Append an array of capacity 0: /repo/src/ArrayOfArrays.hpp 273-276 and 288-291. -/
def appendRowM (t : IntTy) (c : Cfg) (s : Shape) : R Shape := do
  let maxOffset ← s.offsets.read s.numArrays
  let size ← t.succOffset s.numArrays
  let offsets ← bufferManipulation.emplaceBack c.ix s.offsets size maxOffset
  let sizes ← bufferManipulation.emplaceBack c.ix s.sizes s.numArrays 0
  let numArrays ← t.plus s.numArrays 1
  .ok { numArrays := numArrays, offsets := offsets, sizes := sizes }

/-- Insert an array of capacity 0: /repo/src/ArrayOfArrays.hpp 307-313. -/
def insertRowM (t : IntTy) (c : Cfg) (s : Shape) (i : Nat) : R Shape := do
  checkInsertBounds c s i
  let offset ← s.offsets.read i
  let size ← t.succOffset s.numArrays
  let pos ← t.succOffset i
  let offsets ← bufferManipulation.emplace c.ix s.offsets size pos offset
  let sizes ← bufferManipulation.emplace c.ix s.sizes s.numArrays i 0
  let numArrays ← t.plus s.numArrays 1
  .ok { numArrays := numArrays, offsets := offsets, sizes := sizes }

/-- Remove an array of capacity 0: /repo/src/ArrayOfArrays.hpp 329-331. -/
def eraseRowM (t : IntTy) (c : Cfg) (s : Shape) (i : Nat) : R Shape := do
  let size ← t.succOffset s.numArrays
  let pos ← t.succOffset i
  let offsets ← bufferManipulation.erase c.ix s.offsets size pos
  let sizes ← bufferManipulation.erase c.ix s.sizes s.numArrays i
  let numArrays ← t.minus s.numArrays 1
  .ok { numArrays := numArrays, offsets := offsets, sizes := sizes }

/-- `reserve`: /repo/src/ArrayOfArraysView.hpp 632-636. -/
def reserveM (t : IntTy) (c : Cfg) (s : Shape) (newCapacity : Nat) : R Shape := do
  let size ← t.succOffset s.numArrays
  let cap ← t.succOffset newCapacity
  let offsets ← bufferManipulation.reserve c.ix s.offsets size cap
  let n ← toOffset newCapacity
  let sizes ← bufferManipulation.reserve c.ix s.sizes s.numArrays n
  .ok { s with offsets := offsets, sizes := sizes }

/-- `reserveValues`: /repo/src/ArrayOfArraysView.hpp 645-653. -/
def reserveValuesM (c : Cfg) (s : Shape) (newValueCapacity : Nat) (b : Buf X) : R (Buf X) := do
  let maxOffset ← s.offsets.read s.numArrays
  let n ← toOffset newValueCapacity
  bufferManipulation.reserve c b maxOffset n

/-- The part of `resizeImpl` that removes arrays, /repo/src/ArrayOfArraysView.hpp 765-767. -/
def dropRowsM (t : IntTy) (c : Cfg) (s : Shape) (newSize : Nat) : R Shape := do
  let size ← s.offsetsSizeM t
  let new ← t.succOffset newSize
  let offsets ← bufferManipulation.resize c.ix s.offsets size new 0
  let sizes ← bufferManipulation.resize c.ix s.sizes s.numArrays newSize 0
  .ok { s with offsets := offsets, sizes := sizes }

/-- The loop of `resizeImpl` that gives the new arrays their capacity, /repo/src/ArrayOfArraysView.hpp 779-782:
`for( i = 1; i < newSize + 1 - m_numArrays; ++i ) m_offsets[ m_numArrays + i ] = originalOffset + i * defaultArrayCapacity`. -/
def spreadOffsetsM (t : IntTy) (c : Cfg) (s : Shape) (newSize original defaultCapacity : Nat) : R Shape := do
  let next ← add t int newSize 1
  let stop ← sub (common t int) t next s.numArrays
  let offsets ← forUp (stop - 1).toNat 1 (fun i o => do
    let p ← mul t t i defaultCapacity
    let q ← add t (common t t) original p
    let x ← toIndex (t.cast q)
    Buf.write c.ix o (s.numArrays + i) x) s.offsets
  .ok { s with offsets := offsets }

/-- The part of `resizeImpl` that adds arrays, /repo/src/ArrayOfArraysView.hpp 771-783. -/
def addRowsM (t : IntTy) (c : Cfg) (s : Shape) (newSize defaultCapacity : Nat) : R Shape := do
  let original ← s.lastOffset
  let size ← s.offsetsSizeM t
  let new ← t.succOffset newSize
  let offsets ← bufferManipulation.resize c.ix s.offsets size new original
  let sizes ← bufferManipulation.resize c.ix s.sizes s.numArrays newSize 0
  let s : Shape := { s with offsets := offsets, sizes := sizes }
  if 0 < defaultCapacity then spreadOffsetsM t c s newSize original defaultCapacity else .ok s

/-- The part of `resizeImpl` that makes room for the new arrays, /repo/src/ArrayOfArraysView.hpp 784-790. -/
def addRowsReserveM (c : Cfg) (s : Shape) (newSize defaultCapacity : Nat) (b : Buf X) : R (Buf X) :=
  if 0 < defaultCapacity then do
    let totalSize ← s.offsets.read newSize
    let maxOffset ← s.offsets.read s.numArrays
    let total ← toOffset totalSize
    bufferManipulation.reserve c b maxOffset total
  else .ok b

/-- `RAJA::inclusive_scan` over the capacities, each sum an `INDEX_TYPE`: /repo/src/ArrayOfArraysView.hpp 722-724.  The scan
is modelled as the sequential one. -/
def scanOffsetsM (t : IntTy) (c : Cfg) (capacities : List Nat) (offsets : Buf Nat) : R (Buf Nat) := do
  let offsets ← offsets.write c.ix 0 0
  let (offsets, _) ← forUp capacities.length 0 (fun i (st : Buf Nat × Nat) => do
    let sum ← t.plus st.2 (capacities.getD i 0)
    let o ← Buf.write c.ix st.1 (i + 1) sum
    .ok (o, sum)) (offsets, 0)
  .ok offsets

/-- `resizeFromCapacities`: /repo/src/ArrayOfArraysView.hpp 697-728. -/
def fromCapacitiesM (t : IntTy) (c : Cfg) (s : Shape) (capacities : List Nat) : R Shape := do
  let sizes ← bufferManipulation.reserve c.ix s.sizes s.numArrays capacities.length
  let sizes ← arrayManipulation.destroy c.ix sizes 0 s.numArrays
  let sizes ← forUp capacities.length 0 (fun i o => Buf.write c.ix o i 0) sizes
  let size ← s.offsetsSizeM t
  let new ← t.succOffset capacities.length
  let offsets ← bufferManipulation.reserve c.ix s.offsets size new
  let offsets ← arrayManipulation.destroy c.ix offsets 0 (s.numArrays + 1)
  let offsets ← scanOffsetsM t c capacities offsets
  .ok { numArrays := capacities.length, offsets := offsets, sizes := sizes }

/-- The last part of `resizeFromCapacities`, /repo/src/ArrayOfArraysView.hpp 730-734. -/
def fromCapacitiesReserveM (c : Cfg) (s : Shape) (b : Buf X) : R (Buf X) := do
  let maxOffset ← s.offsets.read s.numArrays
  let total ← toOffset maxOffset
  bufferManipulation.reserve c b 0 total

end Shape

namespace AoA

variable {T : Type}

/-- `emplaceBack` of the view: /repo/src/ArrayOfArraysView.hpp 439-449. -/
def viewEmplaceBackM (t : IntTy) (c : Cfg) (a : AoA T) (i : Nat) (v : T) : R (AoA T) := do
  a.shape.checkBounds c i
  a.shape.capacityCheckM t c i 1
  let p ← a.ptr i
  let n ← a.shape.sizeOfArray c i
  let values ← arrayManipulation.emplaceBack c a.values p n v
  let size ← t.plus n 1
  let shape ← a.shape.setSize c i size
  .ok { shape := shape, values := values }

/-- `appendToArray` of the view: /repo/src/ArrayOfArraysView.hpp 482-492. -/
def viewAppendToArrayM [Inhabited T] (t : IntTy) (c : Cfg) (a : AoA T) (i : Nat) (vs : List T) : R (AoA T) := do
  a.shape.checkBounds c i
  let p ← a.ptr i
  let n ← a.shape.sizeOfArray c i
  let values ← arrayManipulation.append c a.values p n vs
  let k ← toIndex (t.cast vs.length)
  a.shape.capacityCheckM t c i k
  let size ← t.plus n k
  let shape ← a.shape.setSize c i size
  .ok { shape := shape, values := values }

/-- `emplace` of the view: /repo/src/ArrayOfArraysView.hpp 503-513. -/
def viewEmplaceM (t : IntTy) (c : Cfg) (a : AoA T) (i j : Nat) (v : T) : R (AoA T) := do
  a.shape.checkInsertBounds2 c i j
  a.shape.capacityCheckM t c i 1
  let p ← a.ptr i
  let n ← a.shape.sizeOfArray c i
  let values ← arrayManipulation.emplace c a.values p n j v
  let size ← t.plus n 1
  let shape ← a.shape.setSize c i size
  .ok { shape := shape, values := values }

/-- `insertIntoArray` of the view: /repo/src/ArrayOfArraysView.hpp 525-539. -/
def viewInsertIntoArrayM [Inhabited T] (t : IntTy) (c : Cfg) (a : AoA T) (i j : Nat) (vs : List T) : R (AoA T) := do
  a.shape.checkInsertBounds2 c i j
  let k ← toIndex (t.cast vs.length)
  a.shape.capacityCheckM t c i k
  let p ← a.ptr i
  let n ← a.shape.sizeOfArray c i
  let values ← arrayManipulation.insert c a.values p n j (vs.take k)
  let size ← t.plus n k
  let shape ← a.shape.setSize c i size
  .ok { shape := shape, values := values }

/-- `eraseFromArray`: /repo/src/ArrayOfArraysView.hpp 547-555. -/
def eraseFromArrayM (t : IntTy) (c : Cfg) (a : AoA T) (i j n : Nat) : R (AoA T) := do
  a.shape.checkBounds2 c i j
  let p ← a.ptr i
  let size ← a.shape.sizeOfArray c i
  let values ← arrayManipulation.erase c a.values p size j n
  let size ← t.minus size n
  let shape ← a.shape.setSize c i size
  .ok { shape := shape, values := values }

/-- `resizeImpl`: /repo/src/ArrayOfArraysView.hpp 757-796. -/
def resizeM (t : IntTy) (c : Cfg) (a : AoA T) (newSize defaultCapacity : Nat) : R (AoA T) :=
  if newSize < a.shape.numArrays then do
    let values ← a.shape.destroyValues c newSize a.shape.numArrays a.values
    let shape ← a.shape.dropRowsM t c newSize
    .ok { shape := { shape with numArrays := newSize }, values := values }
  else do
    let shape ← a.shape.addRowsM t c newSize defaultCapacity
    let values ← shape.addRowsReserveM c newSize defaultCapacity a.values
    .ok { shape := { shape with numArrays := newSize }, values := values }

/-- `ArrayOfArrays( numArrays, defaultArrayCapacity )`: /repo/src/ArrayOfArrays.hpp 55-60. -/
def mkM (t : IntTy) (c : Cfg) (numArrays defaultCapacity : Nat) : R (AoA T) :=
  resizeM t c { shape := { numArrays := 0, offsets := .empty, sizes := .empty }, values := .empty } numArrays defaultCapacity

/-- `reserve`: /repo/src/ArrayOfArraysView.hpp 632-636. -/
def reserveM (t : IntTy) (c : Cfg) (a : AoA T) (n : Nat) : R (AoA T) := do
  let shape ← a.shape.reserveM t c n
  .ok { a with shape := shape }

/-- `reserveValues`: /repo/src/ArrayOfArraysView.hpp 645-653. -/
def reserveValuesM (c : Cfg) (a : AoA T) (n : Nat) : R (AoA T) := do
  let values ← a.shape.reserveValuesM c n a.values
  .ok { a with values := values }

/-- `compress`: /repo/src/ArrayOfArraysView.hpp 662-686. -/
def compressM (t : IntTy) (c : Cfg) (a : AoA T) : R (AoA T) := do
  let (shape, values) ← a.shape.compressM t c a.values
  .ok { shape := shape, values := values }

/-- `setCapacityOfArray( i, n )` if `grow`, nothing otherwise. -/
def growIfM (t : IntTy) (c : Cfg) (grow : Bool) (a : AoA T) (i : Nat) (n : R Nat) : R (AoA T) :=
  if grow then do
    let n ← n
    setCapacityOfArrayM t c a i n
  else .ok a

/-- `dynamicallyGrowArray`: /repo/src/ArrayOfArrays.hpp 474-483.  `2` is an `int`. -/
def dynamicallyGrowArrayM (t : IntTy) (c : Cfg) (a : AoA T) (i increase : Nat) : R (AoA T) := do
  let n ← a.shape.sizeOfArray c i
  let newArraySize ← t.plus n increase
  let cap ← a.shape.capacityOfArrayM t c i
  growIfM t c (decide (cap < newArraySize)) a i (do
    let p ← mul int t 2 newArraySize
    toIndex (t.cast p))

/-- `resizeArray`: /repo/src/ArrayOfArrays.hpp 410-425. -/
def resizeArrayM (t : IntTy) (c : Cfg) (a : AoA T) (i newSize : Nat) (v : T) : R (AoA T) := do
  a.shape.checkBounds c i
  let cap ← a.shape.capacityOfArrayM t c i
  let a ← growIfM t c (decide (cap < newSize)) a i (.ok newSize)
  let prevSize ← a.shape.sizeOfArray c i
  a.shape.checkBounds c i
  let p ← a.ptr i
  let values ← arrayManipulation.resize c a.values p prevSize newSize v
  let shape ← a.shape.setSize c i newSize
  .ok { shape := shape, values := values }

/-- `emplaceBack`: /repo/src/ArrayOfArrays.hpp 347-352. -/
def emplaceBackM (t : IntTy) (c : Cfg) (a : AoA T) (i : Nat) (v : T) : R (AoA T) := do
  let a ← dynamicallyGrowArrayM t c a i 1
  viewEmplaceBackM t c a i v

/-- `appendToArray`: /repo/src/ArrayOfArrays.hpp 361-367. -/
def appendToArrayM [Inhabited T] (t : IntTy) (c : Cfg) (a : AoA T) (i : Nat) (vs : List T) : R (AoA T) := do
  let k ← toIndex (t.cast vs.length)
  let a ← dynamicallyGrowArrayM t c a i k
  viewAppendToArrayM t c a i vs

/-- `emplace`: /repo/src/ArrayOfArrays.hpp 378-383. -/
def emplaceM (t : IntTy) (c : Cfg) (a : AoA T) (i j : Nat) (v : T) : R (AoA T) := do
  let a ← dynamicallyGrowArrayM t c a i 1
  viewEmplaceM t c a i j v

/-- `insertIntoArray`: /repo/src/ArrayOfArrays.hpp 393-399. -/
def insertIntoArrayM [Inhabited T] (t : IntTy) (c : Cfg) (a : AoA T) (i j : Nat) (vs : List T) : R (AoA T) := do
  let k ← toIndex (t.cast vs.length)
  let a ← dynamicallyGrowArrayM t c a i k
  viewInsertIntoArrayM t c a i j vs

/-- `appendArray( n )`: /repo/src/ArrayOfArrays.hpp 269-279. -/
def appendArraySizeM [Inhabited T] (t : IntTy) (c : Cfg) (a : AoA T) (n : Nat) : R (AoA T) := do
  let shape ← a.shape.appendRowM t c
  let last ← t.minus shape.numArrays 1
  resizeArrayM t c { a with shape := shape } last n default

/-- `appendArray( first, last )`: /repo/src/ArrayOfArrays.hpp 286-296. -/
def appendArrayM [Inhabited T] (t : IntTy) (c : Cfg) (a : AoA T) (vs : List T) : R (AoA T) := do
  let shape ← a.shape.appendRowM t c
  let last ← t.minus shape.numArrays 1
  appendToArrayM t c { a with shape := shape } last vs

/-- `insertArray`: /repo/src/ArrayOfArrays.hpp 305-318. -/
def insertArrayM [Inhabited T] (t : IntTy) (c : Cfg) (a : AoA T) (i : Nat) (vs : List T) : R (AoA T) := do
  let shape ← a.shape.insertRowM t c i
  appendToArrayM t c { a with shape := shape } i vs

/-- `eraseArray`: /repo/src/ArrayOfArrays.hpp 324-332. -/
def eraseArrayM (t : IntTy) (c : Cfg) (a : AoA T) (i : Nat) : R (AoA T) := do
  a.shape.checkBounds c i
  let a ← setCapacityOfArrayM t c a i 0
  let shape ← a.shape.eraseRowM t c i
  .ok { a with shape := shape }

/-- `resizeFromCapacities`: /repo/src/ArrayOfArraysView.hpp 697-735. -/
def resizeFromCapacitiesM (t : IntTy) (c : Cfg) (a : AoA T) (capacities : List Nat) : R (AoA T) := do
  let values ← a.shape.destroyValues c 0 a.shape.numArrays a.values
  let shape ← a.shape.fromCapacitiesM t c capacities
  let values ← shape.fromCapacitiesReserveM c values
  .ok { shape := shape, values := values }

/-- One operation with `INDEX_TYPE` equal to `t` (`AoA.step`). -/
def stepM [Inhabited T] (t : IntTy) (c : Cfg) (a : AoA T) : AoAOp T → R (AoA T)
  | .resize n d => a.resizeM t c n d
  | .reserve n => a.reserveM t c n
  | .reserveValues n => a.reserveValuesM c n
  | .compress => a.compressM t c
  | .appendArraySize n => a.appendArraySizeM t c n
  | .appendArray vs => a.appendArrayM t c vs
  | .insertArray i vs => a.insertArrayM t c i vs
  | .eraseArray i => a.eraseArrayM t c i
  | .emplaceBack i v => a.emplaceBackM t c i v
  | .appendToArray i vs => a.appendToArrayM t c i vs
  | .emplace i j v => a.emplaceM t c i j v
  | .insertIntoArray i j vs => a.insertIntoArrayM t c i j vs
  | .eraseFromArray i j n => a.eraseFromArrayM t c i j n
  | .resizeArray i n v => a.resizeArrayM t c i n v
  | .clearArray i => a.resizeArrayM t c i 0 default
  | .setCapacityOfArray i n => a.setCapacityOfArrayM t c i n
  | .set i j v => a.set c i j v
  | .resizeFromCapacities cs => a.resizeFromCapacitiesM t c cs

/-- A history of operations. -/
def runM [Inhabited T] (t : IntTy) (c : Cfg) : AoA T → List (AoAOp T) → R (AoA T)
  | a, [] => .ok a
  | a, op :: ops => a.stepM t c op >>= fun a => runM t c a ops

end AoA

end LvArray

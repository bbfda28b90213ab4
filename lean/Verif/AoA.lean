import Verif.Rows

/-!
# `ArrayOfArraysView` and `ArrayOfArrays`

/repo/src/ArrayOfArraysView.hpp and /repo/src/ArrayOfArrays.hpp, for a buffer class that allocates on the heap
(`MallocBuffer`; a default-constructed one, not a copy sharing the allocation).
-/

namespace LvArray

/-- The members of `ArrayOfArraysView`: /repo/src/ArrayOfArraysView.hpp 957-975. -/
structure AoA (T : Type) where
  shape : Shape
  values : Buf T

namespace AoA

variable {T : Type}

/-- `m_values.data() + m_offsets[ i ]` as a position in the buffer. -/
def ptr (a : AoA T) (i : Nat) : R Nat := a.shape.offsets.read i

/-! ## Operations of the view -/

/-- `operator()`: /repo/src/ArrayOfArraysView.hpp 417-421. -/
def get (c : Cfg) (a : AoA T) (i j : Nat) : R T := do
  a.shape.checkBounds2 c i j
  let p ← a.ptr i
  a.values.read (p + j)

/-- `a( i, j ) = v`: /repo/src/ArrayOfArraysView.hpp 417-421. -/
def set (c : Cfg) (a : AoA T) (i j : Nat) (v : T) : R (AoA T) := do
  a.shape.checkBounds2 c i j
  let p ← a.ptr i
  let values ← a.values.write c (p + j) v
  .ok { a with values := values }

/-- `emplaceBack`: /repo/src/ArrayOfArraysView.hpp 439-449. -/
def viewEmplaceBack (c : Cfg) (a : AoA T) (i : Nat) (v : T) : R (AoA T) := do
  a.shape.checkBounds c i
  a.shape.capacityCheck c i 1
  let p ← a.ptr i
  let n ← a.shape.sizeOfArray c i
  let values ← arrayManipulation.emplaceBack c a.values p n v
  let shape ← a.shape.setSize c i (n + 1)
  .ok { shape := shape, values := values }

/-- `appendToArray`: /repo/src/ArrayOfArraysView.hpp 482-492.  The capacity is checked after the values are written. -/
def viewAppendToArray [Inhabited T] (c : Cfg) (a : AoA T) (i : Nat) (vs : List T) : R (AoA T) := do
  a.shape.checkBounds c i
  let p ← a.ptr i
  let n ← a.shape.sizeOfArray c i
  let values ← arrayManipulation.append c a.values p n vs
  a.shape.capacityCheck c i vs.length
  let shape ← a.shape.setSize c i (n + vs.length)
  .ok { shape := shape, values := values }

/-- `emplace`: /repo/src/ArrayOfArraysView.hpp 503-513. -/
def viewEmplace (c : Cfg) (a : AoA T) (i j : Nat) (v : T) : R (AoA T) := do
  a.shape.checkInsertBounds2 c i j
  a.shape.capacityCheck c i 1
  let p ← a.ptr i
  let n ← a.shape.sizeOfArray c i
  let values ← arrayManipulation.emplace c a.values p n j v
  let shape ← a.shape.setSize c i (n + 1)
  .ok { shape := shape, values := values }

/-- `insertIntoArray`: /repo/src/ArrayOfArraysView.hpp 525-539. -/
def viewInsertIntoArray [Inhabited T] (c : Cfg) (a : AoA T) (i j : Nat) (vs : List T) : R (AoA T) := do
  a.shape.checkInsertBounds2 c i j
  a.shape.capacityCheck c i vs.length
  let p ← a.ptr i
  let n ← a.shape.sizeOfArray c i
  let values ← arrayManipulation.insert c a.values p n j vs
  let shape ← a.shape.setSize c i (n + vs.length)
  .ok { shape := shape, values := values }

/-- `eraseFromArray`: /repo/src/ArrayOfArraysView.hpp 547-555. -/
def eraseFromArray (c : Cfg) (a : AoA T) (i j n : Nat) : R (AoA T) := do
  a.shape.checkBounds2 c i j
  let p ← a.ptr i
  let size ← a.shape.sizeOfArray c i
  let values ← arrayManipulation.erase c a.values p size j n
  let shape ← a.shape.setSize c i (size - n)
  .ok { shape := shape, values := values }

/-! ## Operations of the owning class -/

/-- `resizeImpl`: /repo/src/ArrayOfArraysView.hpp 757-796. -/
def resize (c : Cfg) (a : AoA T) (newSize defaultCapacity : Nat) : R (AoA T) :=
  if newSize < a.shape.numArrays then do
    let values ← a.shape.destroyValues c newSize a.shape.numArrays a.values
    let shape ← a.shape.dropRows c newSize
    .ok { shape := { shape with numArrays := newSize }, values := values }
  else do
    let shape ← a.shape.addRows c newSize defaultCapacity
    let values ← shape.addRowsReserve c newSize defaultCapacity a.values
    .ok { shape := { shape with numArrays := newSize }, values := values }

/-- `ArrayOfArrays( numArrays, defaultArrayCapacity )`: /repo/src/ArrayOfArrays.hpp 55-60. -/
def mk' (c : Cfg) (numArrays defaultCapacity : Nat) : R (AoA T) :=
  resize c { shape := { numArrays := 0, offsets := .empty, sizes := .empty }, values := .empty } numArrays defaultCapacity

/-- `reserve`: /repo/src/ArrayOfArraysView.hpp 632-636. -/
def reserve (c : Cfg) (a : AoA T) (n : Nat) : R (AoA T) := do
  let shape ← a.shape.reserve c n
  .ok { a with shape := shape }

/-- `reserveValues`: /repo/src/ArrayOfArraysView.hpp 645-653. -/
def reserveValues (c : Cfg) (a : AoA T) (n : Nat) : R (AoA T) := do
  let values ← a.shape.reserveValues c n a.values
  .ok { a with values := values }

/-- `compress`: /repo/src/ArrayOfArraysView.hpp 662-686. -/
def compress (c : Cfg) (a : AoA T) : R (AoA T) := do
  let (shape, values) ← a.shape.compress c a.values
  .ok { shape := shape, values := values }

/-- `setCapacityOfArray`: /repo/src/ArrayOfArraysView.hpp 875-942. -/
def setCapacityOfArray (c : Cfg) (a : AoA T) (i newCapacity : Nat) : R (AoA T) := do
  a.shape.checkBounds c i
  let cap ← a.shape.capacityOfArray c i
  if newCapacity = cap then .ok a
  else if cap < newCapacity then do
    let values ← a.shape.growRow c i (newCapacity - cap) a.values
    let shape ← a.shape.updateOffsets c i (· + (newCapacity - cap))
    .ok { shape := shape, values := values }
  else do
    let off ← a.shape.offsets.read i
    let prevSize ← a.shape.sizeOfArray c i
    let shape ← a.shape.setSize c i (min prevSize newCapacity)
    let values ← shape.shrinkRow c i (cap - newCapacity) off (min prevSize newCapacity) prevSize a.values
    let shape ← shape.updateOffsets c i (· - (cap - newCapacity))
    .ok { shape := shape, values := values }

/-- `setCapacityOfArray( i, n )` if `grow`, nothing otherwise. -/
def growIf (c : Cfg) (grow : Bool) (a : AoA T) (i n : Nat) : R (AoA T) :=
  if grow then setCapacityOfArray c a i n else .ok a

/-- `dynamicallyGrowArray`: /repo/src/ArrayOfArrays.hpp 474-483. -/
def dynamicallyGrowArray (c : Cfg) (a : AoA T) (i increase : Nat) : R (AoA T) := do
  let n ← a.shape.sizeOfArray c i
  let cap ← a.shape.capacityOfArray c i
  growIf c (decide (cap < n + increase)) a i (2 * (n + increase))

/-- `resizeArray`: /repo/src/ArrayOfArrays.hpp 410-425; `v` is the value built from the arguments
when that leaves them as they were; see `AoA.resizeArrayMaking` for arguments that are used up. -/
def resizeArray (c : Cfg) (a : AoA T) (i newSize : Nat) (v : T) : R (AoA T) := do
  a.shape.checkBounds c i
  let cap ← a.shape.capacityOfArray c i
  let a ← growIf c (decide (cap < newSize)) a i newSize
  let prevSize ← a.shape.sizeOfArray c i
  a.shape.checkBounds c i
  let p ← a.ptr i
  let values ← arrayManipulation.resize c a.values p prevSize newSize v
  let shape ← a.shape.setSize c i newSize
  .ok { shape := shape, values := values }

/-- `clearArray`: /repo/src/ArrayOfArrays.hpp 431-432. -/
def clearArray [Inhabited T] (c : Cfg) (a : AoA T) (i : Nat) : R (AoA T) := resizeArray c a i 0 default

/-- `emplaceBack`: /repo/src/ArrayOfArrays.hpp 347-352. -/
def emplaceBack (c : Cfg) (a : AoA T) (i : Nat) (v : T) : R (AoA T) := do
  let a ← dynamicallyGrowArray c a i 1
  viewEmplaceBack c a i v

/-- `appendToArray`: /repo/src/ArrayOfArrays.hpp 361-367. -/
def appendToArray [Inhabited T] (c : Cfg) (a : AoA T) (i : Nat) (vs : List T) : R (AoA T) := do
  let a ← dynamicallyGrowArray c a i vs.length
  viewAppendToArray c a i vs

/-- `emplace`: /repo/src/ArrayOfArrays.hpp 378-383. -/
def emplace (c : Cfg) (a : AoA T) (i j : Nat) (v : T) : R (AoA T) := do
  let a ← dynamicallyGrowArray c a i 1
  viewEmplace c a i j v

/-- `insertIntoArray`: /repo/src/ArrayOfArrays.hpp 393-399. -/
def insertIntoArray [Inhabited T] (c : Cfg) (a : AoA T) (i j : Nat) (vs : List T) : R (AoA T) := do
  let a ← dynamicallyGrowArray c a i vs.length
  viewInsertIntoArray c a i j vs

/-- `appendArray( n )`: /repo/src/ArrayOfArrays.hpp 269-279. -/
def appendArraySize [Inhabited T] (c : Cfg) (a : AoA T) (n : Nat) : R (AoA T) := do
  let shape ← a.shape.appendRow c
  resizeArray c { a with shape := shape } (shape.numArrays - 1) n default

/-- `appendArray( first, last )`: /repo/src/ArrayOfArrays.hpp 286-296. -/
def appendArray [Inhabited T] (c : Cfg) (a : AoA T) (vs : List T) : R (AoA T) := do
  let shape ← a.shape.appendRow c
  appendToArray c { a with shape := shape } (shape.numArrays - 1) vs

/-- `insertArray`: /repo/src/ArrayOfArrays.hpp 305-318. -/
def insertArray [Inhabited T] (c : Cfg) (a : AoA T) (i : Nat) (vs : List T) : R (AoA T) := do
  let shape ← a.shape.insertRow c i
  appendToArray c { a with shape := shape } i vs

/-- `eraseArray`: /repo/src/ArrayOfArrays.hpp 324-332. -/
def eraseArray (c : Cfg) (a : AoA T) (i : Nat) : R (AoA T) := do
  a.shape.checkBounds c i
  let a ← setCapacityOfArray c a i 0
  let shape ← a.shape.eraseRow c i
  .ok { a with shape := shape }

/-- `resizeFromCapacities`: /repo/src/ArrayOfArraysView.hpp 697-735. -/
def resizeFromCapacities (c : Cfg) (a : AoA T) (capacities : List Nat) : R (AoA T) := do
  let values ← a.shape.destroyValues c 0 a.shape.numArrays a.values
  let shape ← a.shape.fromCapacities c capacities
  let values ← shape.fromCapacitiesReserve c values
  .ok { shape := shape, values := values }

/-- `free`: /repo/src/ArrayOfArraysView.hpp 804-815. -/
def free (c : Cfg) (a : AoA T) : R (AoA T) := do
  let values ← a.shape.destroyValues c 0 a.shape.numArrays a.values
  .ok { shape := { numArrays := 0, offsets := a.shape.offsets.release c.ix, sizes := a.shape.sizes.release c.ix }
        values := values.release c }

/-- Copy assignment from another object: `operator=( ArrayOfArrays const & )`, /repo/src/ArrayOfArrays.hpp 168-177, and
`setEqualTo`, /repo/src/ArrayOfArraysView.hpp 828-865. -/
def copyAssign (c : Cfg) (a src : AoA T) : R (AoA T) := do
  let srcMaxOffset ← src.shape.offsets.read src.shape.numArrays
  let values ← a.shape.destroyValues c 0 a.shape.numArrays a.values
  let (maxOffset, shape) ← a.shape.copyShape c src.shape
  let values ← bufferManipulation.reserve c values maxOffset srcMaxOffset
  let values ← shape.copyRows c src.values values
  .ok { shape := shape, values := values }

/-- Copy assignment of an object to itself: the same with both arguments the same object.  `copyInto` of a buffer into itself
assigns every integer to itself; the values are destroyed first, unless they are trivially destructible. -/
def selfAssign (c : Cfg) (a : AoA T) : R (AoA T) := do
  let values ← if c.trivial then .ok a.values else a.shape.destroyValues c 0 a.shape.numArrays a.values
  let srcMaxOffset ← a.shape.offsets.read a.shape.numArrays
  let values ← bufferManipulation.reserve c values srcMaxOffset srcMaxOffset
  let values ← a.shape.copyRows c values values
  .ok { a with values := values }

/-- The copy constructor: /repo/src/ArrayOfArrays.hpp 66-69. -/
def copyConstruct (c : Cfg) (src : AoA T) : R (AoA T) :=
  copyAssign c { shape := { numArrays := 0, offsets := .empty, sizes := .empty }, values := .empty } src

/-- Move construction: /repo/src/ArrayOfArraysView.hpp 215-221; the result and the source afterwards
(`MallocBuffer( MallocBuffer && )` leaves a null buffer, /repo/src/MallocBuffer.hpp 72-79). -/
def moveConstruct (src : AoA T) : AoA T × AoA T :=
  (src, { shape := { numArrays := 0, offsets := .empty, sizes := .empty }, values := .empty })

/-- Move assignment from another object: /repo/src/ArrayOfArrays.hpp 184-190, /repo/src/ArrayOfArraysView.hpp 253-262.  The
result and the source afterwards. -/
def moveAssign (c : Cfg) (a src : AoA T) : R (AoA T × AoA T) := do
  let freed ← free c a
  -- the ghost counters of what is gone go with the freed object
  let _ := freed
  .ok (moveConstruct src)

end AoA

end LvArray

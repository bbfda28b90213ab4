import Verif.BufferLemmas

/-!
# The storage shared by `ArrayOfArrays`, `ArrayOfSets`, `SparsityPattern` and `CRSMatrix`

`ArrayOfArraysView` (/repo/src/ArrayOfArraysView.hpp) keeps three buffers: `m_offsets` (one more entry than there are
arrays), `m_sizes` and `m_values`; `CRSMatrixView` adds a buffer of entries laid out like `m_values`.  Functions that take a
parameter pack `BUFFERS & ... buffers` and do the same to every buffer are modelled by one function on one buffer, to be
applied to each of them.  Indices are natural numbers, so the `isPositive` assertions cannot fire and are left out.
-/

namespace LvArray

/-- `m_numArrays`, `m_offsets` and `m_sizes`: /repo/src/ArrayOfArraysView.hpp 957-975. -/
structure Shape where
  numArrays : Nat
  offsets : Buf Nat
  sizes : Buf Nat

/-- Offsets and sizes are integers, hence trivial. -/
def Cfg.ix (c : Cfg) : Cfg := { c with trivial := true }

namespace Shape

/-- `ARRAYOFARRAYS_CHECK_BOUNDS( i )`: /repo/src/ArrayOfArraysView.hpp 35-37, 106. -/
def checkBounds (c : Cfg) (s : Shape) (i : Nat) : R Unit := errorIf (c.boundsCheck && decide (s.numArrays ≤ i))

/-- `ARRAYOFARRAYS_CHECK_INSERT_BOUNDS( i )`: /repo/src/ArrayOfArraysView.hpp 56-58, 121. -/
def checkInsertBounds (c : Cfg) (s : Shape) (i : Nat) : R Unit := errorIf (c.boundsCheck && decide (s.numArrays < i))

/-- `sizeOfArray`: /repo/src/ArrayOfArraysView.hpp 328-332. -/
def sizeOfArray (c : Cfg) (s : Shape) (i : Nat) : R Nat := do
  checkBounds c s i
  s.sizes.read i

/-- `capacityOfArray`: /repo/src/ArrayOfArraysView.hpp 380-385. -/
def capacityOfArray (c : Cfg) (s : Shape) (i : Nat) : R Nat := do
  checkBounds c s i
  let next ← s.offsets.read (i + 1)
  let off ← s.offsets.read i
  .ok (next - off)

/-- `ARRAYOFARRAYS_CHECK_BOUNDS2( i, j )`: /repo/src/ArrayOfArraysView.hpp 45-49, 114. -/
def checkBounds2 (c : Cfg) (s : Shape) (i j : Nat) : R Unit :=
  if c.boundsCheck then
    if s.numArrays ≤ i then .error .abort
    else do
      let n ← s.sizes.read i
      errorIf (decide (n ≤ j))
  else .ok ()

/-- `ARRAYOFARRAYS_CHECK_INSERT_BOUNDS2( i, j )`: /repo/src/ArrayOfArraysView.hpp 66-70, 129. -/
def checkInsertBounds2 (c : Cfg) (s : Shape) (i j : Nat) : R Unit :=
  if c.boundsCheck then
    if s.numArrays ≤ i then .error .abort
    else do
      let n ← s.sizes.read i
      errorIf (decide (n < j))
  else .ok ()

/-- `ARRAYOFARRAYS_CAPACITY_CHECK( i, increase )`: /repo/src/ArrayOfArraysView.hpp 78-82, 137. -/
def capacityCheck (c : Cfg) (s : Shape) (i increase : Nat) : R Unit :=
  if c.boundsCheck then do
    let n ← sizeOfArray c s i
    let m ← capacityOfArray c s i
    errorIf (decide (m < n + increase))
  else .ok ()

/-- `m_sizes[ i ] = n`. -/
def setSize (c : Cfg) (s : Shape) (i n : Nat) : R Shape := do
  let sizes ← s.sizes.write c.ix i n
  .ok { s with sizes := sizes }

/-- `( m_numArrays == 0 ) ? 0 : m_numArrays + 1`, the size of `m_offsets` as the code sees it:
/repo/src/ArrayOfArraysView.hpp 714, 761, 836. -/
def offsetsSize (s : Shape) : Nat := if s.numArrays = 0 then 0 else s.numArrays + 1

variable {X : Type}

/-- `destroyValues`: /repo/src/ArrayOfArraysView.hpp 985-1010, for one buffer.  The moves to the host are left out.  For
trivially destructible types the code skips the loop; the model runs it, which only makes it forget the values
(`Buf.destroyAt`), so that later uses of them would count as errors. -/
def destroyValues (c : Cfg) (s : Shape) (first last : Nat) (b : Buf X) : R (Buf X) := do
  checkInsertBounds c s first
  checkInsertBounds c s last
  forUp (last - first) first (fun i b => do
    let off ← s.offsets.read i
    let n ← sizeOfArray c s i
    arrayManipulation.destroy c b off n) b

/-- The loop of `setCapacityOfArray` that shifts the later arrays up, /repo/src/ArrayOfArraysView.hpp 895-900. -/
def shiftRowsUp (c : Cfg) (s : Shape) (i amount : Nat) (b : Buf X) : R (Buf X) :=
  forDown (s.numArrays - 1 - i) (i + 1) (fun array b => do
    let n ← sizeOfArray c s array
    let off ← s.offsets.read array
    arrayManipulation.uninitializedShiftUp c b off n amount) b

/-- What `setCapacityOfArray` does to a buffer when the capacity grows, /repo/src/ArrayOfArraysView.hpp 886-904. -/
def growRow (c : Cfg) (s : Shape) (i amount : Nat) (b : Buf X) : R (Buf X) := do
  let maxOffset ← s.offsets.read s.numArrays
  let b ← bufferManipulation.dynamicReserve c b maxOffset (maxOffset + amount)
  shiftRowsUp c s i amount b

/-- The loop of `setCapacityOfArray` that shifts the later arrays down, /repo/src/ArrayOfArraysView.hpp 922-927. -/
def shiftRowsDown (c : Cfg) (s : Shape) (i amount : Nat) (b : Buf X) : R (Buf X) :=
  forUp (s.numArrays - (i + 1)) (i + 1) (fun array b => do
    let n ← sizeOfArray c s array
    let off ← s.offsets.read array
    arrayManipulation.uninitializedShiftDown c b off n amount) b

/-- What `setCapacityOfArray` does to a buffer when the capacity shrinks, /repo/src/ArrayOfArraysView.hpp 914-930. -/
def shrinkRow (c : Cfg) (s : Shape) (i amount off newSize prevSize : Nat) (b : Buf X) : R (Buf X) := do
  let b ← arrayManipulation.destroy c b (off + newSize) (prevSize - newSize)
  shiftRowsDown c s i amount b

/-- `for( array = i + 1; array < m_numArrays + 1; ++array ) m_offsets[ array ] = f( m_offsets[ array ] )`:
/repo/src/ArrayOfArraysView.hpp 933-936. -/
def updateOffsets (c : Cfg) (s : Shape) (i : Nat) (f : Nat → Nat) : R Shape := do
  let offsets ← forUp (s.numArrays + 1 - (i + 1)) (i + 1) (fun array o => do
    let x ← Buf.read o array
    o.write c.ix array (f x)) s.offsets
  .ok { s with offsets := offsets }

/-- One round of `compress`, /repo/src/ArrayOfArraysView.hpp 666-681, for one buffer. -/
def compressStep (c : Cfg) (s : Shape) (i : Nat) (st : Buf Nat × Buf X) : R (Buf Nat × Buf X) := do
  let (offsets, b) := st
  let nextOffset ← offsets.read (i + 1)
  let offset ← offsets.read i
  let n ← sizeOfArray c s i
  let shiftAmount := nextOffset - offset - n
  let sizeOfNextArray ← sizeOfArray c s (i + 1)
  let b ← arrayManipulation.uninitializedShiftDown c b nextOffset sizeOfNextArray shiftAmount
  let x ← offsets.read (i + 1)
  let offsets ← offsets.write c.ix (i + 1) (x - shiftAmount)
  .ok (offsets, b)

/-- `compress`: /repo/src/ArrayOfArraysView.hpp 662-686, for one buffer.  With several buffers the code treats row after
row of all of them; here buffer after buffer, which is the same since they are separate allocations. -/
def compress (c : Cfg) (s : Shape) (b : Buf X) : R (Shape × Buf X) :=
  if s.numArrays = 0 then .ok (s, b)
  else do
    let (offsets, b) ← forUp (s.numArrays - 1) 0 (compressStep c s) (s.offsets, b)
    let off ← offsets.read (s.numArrays - 1)
    let n ← sizeOfArray c s (s.numArrays - 1)
    let offsets ← offsets.write c.ix s.numArrays (off + n)
    .ok ({ s with offsets := offsets }, b)

/-- Append an array of capacity 0: /repo/src/ArrayOfArrays.hpp 273-276 and 288-291. -/
def appendRow (c : Cfg) (s : Shape) : R Shape := do
  let maxOffset ← s.offsets.read s.numArrays
  let offsets ← bufferManipulation.emplaceBack c.ix s.offsets (s.numArrays + 1) maxOffset
  let sizes ← bufferManipulation.emplaceBack c.ix s.sizes s.numArrays 0
  .ok { numArrays := s.numArrays + 1, offsets := offsets, sizes := sizes }

/-- Insert an array of capacity 0: /repo/src/ArrayOfArrays.hpp 307-313. -/
def insertRow (c : Cfg) (s : Shape) (i : Nat) : R Shape := do
  checkInsertBounds c s i
  let offset ← s.offsets.read i
  let offsets ← bufferManipulation.emplace c.ix s.offsets (s.numArrays + 1) (i + 1) offset
  let sizes ← bufferManipulation.emplace c.ix s.sizes s.numArrays i 0
  .ok { numArrays := s.numArrays + 1, offsets := offsets, sizes := sizes }

/-- Remove an array of capacity 0: /repo/src/ArrayOfArrays.hpp 329-331. -/
def eraseRow (c : Cfg) (s : Shape) (i : Nat) : R Shape := do
  let offsets ← bufferManipulation.erase c.ix s.offsets (s.numArrays + 1) (i + 1)
  let sizes ← bufferManipulation.erase c.ix s.sizes s.numArrays i
  .ok { numArrays := s.numArrays - 1, offsets := offsets, sizes := sizes }

/-- `reserve`: /repo/src/ArrayOfArraysView.hpp 632-636. -/
def reserve (c : Cfg) (s : Shape) (newCapacity : Nat) : R Shape := do
  let offsets ← bufferManipulation.reserve c.ix s.offsets (s.numArrays + 1) (newCapacity + 1)
  let sizes ← bufferManipulation.reserve c.ix s.sizes s.numArrays newCapacity
  .ok { s with offsets := offsets, sizes := sizes }

/-- `reserveValues`: /repo/src/ArrayOfArraysView.hpp 645-653, for one buffer. -/
def reserveValues (c : Cfg) (s : Shape) (newValueCapacity : Nat) (b : Buf X) : R (Buf X) := do
  let maxOffset ← s.offsets.read s.numArrays
  bufferManipulation.reserve c b maxOffset newValueCapacity

/-- The part of `resizeImpl` that removes arrays, /repo/src/ArrayOfArraysView.hpp 765-767, on offsets and sizes. -/
def dropRows (c : Cfg) (s : Shape) (newSize : Nat) : R Shape := do
  let offsets ← bufferManipulation.resize c.ix s.offsets s.offsetsSize (newSize + 1) 0
  let sizes ← bufferManipulation.resize c.ix s.sizes s.numArrays newSize 0
  .ok { s with offsets := offsets, sizes := sizes }

/-- `( m_numArrays == 0 ) ? 0 : m_offsets[ m_numArrays ]`: /repo/src/ArrayOfArraysView.hpp 773. -/
def lastOffset (s : Shape) : R Nat := if s.numArrays = 0 then .ok 0 else s.offsets.read s.numArrays

/-- The loop of `resizeImpl` that gives the new arrays their capacity, /repo/src/ArrayOfArraysView.hpp 779-782. -/
def spreadOffsets (c : Cfg) (s : Shape) (newSize original defaultCapacity : Nat) : R Shape := do
  let offsets ← forUp (newSize + 1 - s.numArrays - 1) 1 (fun i o =>
    Buf.write c.ix o (s.numArrays + i) (original + i * defaultCapacity)) s.offsets
  .ok { s with offsets := offsets }

/-- The part of `resizeImpl` that adds arrays, /repo/src/ArrayOfArraysView.hpp 771-783, on offsets and sizes.
`m_numArrays` keeps its old value. -/
def addRows (c : Cfg) (s : Shape) (newSize defaultCapacity : Nat) : R Shape := do
  let original ← s.lastOffset
  let offsets ← bufferManipulation.resize c.ix s.offsets s.offsetsSize (newSize + 1) original
  let sizes ← bufferManipulation.resize c.ix s.sizes s.numArrays newSize 0
  let s : Shape := { s with offsets := offsets, sizes := sizes }
  if 0 < defaultCapacity then spreadOffsets c s newSize original defaultCapacity else .ok s

/-- The part of `resizeImpl` that makes room for the new arrays in a buffer, /repo/src/ArrayOfArraysView.hpp 784-790. -/
def addRowsReserve (c : Cfg) (s : Shape) (newSize defaultCapacity : Nat) (b : Buf X) : R (Buf X) :=
  if 0 < defaultCapacity then do
    let totalSize ← s.offsets.read newSize
    let maxOffset ← s.offsets.read s.numArrays
    bufferManipulation.reserve c b maxOffset totalSize
  else .ok b

/-- `RAJA::inclusive_scan`: /repo/src/ArrayOfArraysView.hpp 722-724. -/
def scanOffsets (c : Cfg) (capacities : List Nat) (offsets : Buf Nat) : R (Buf Nat) := do
  let offsets ← offsets.write c.ix 0 0
  forUp capacities.length 0 (fun i o => Buf.write c.ix o (i + 1) (capacities.take (i + 1)).sum) offsets

/-- `resizeFromCapacities`: /repo/src/ArrayOfArraysView.hpp 697-728, on offsets and sizes (`std::fill_n` on the sizes
included).  Capacities are natural numbers, so the check for negative ones cannot fire.  The model forgets the old sizes
and offsets before writing the new ones (`destroy`, without effect on integers); the code leaves those beyond the new ones
in memory. -/
def fromCapacities (c : Cfg) (s : Shape) (capacities : List Nat) : R Shape := do
  let sizes ← bufferManipulation.reserve c.ix s.sizes s.numArrays capacities.length
  let sizes ← arrayManipulation.destroy c.ix sizes 0 s.numArrays
  let sizes ← forUp capacities.length 0 (fun i o => Buf.write c.ix o i 0) sizes
  let offsets ← bufferManipulation.reserve c.ix s.offsets s.offsetsSize (capacities.length + 1)
  let offsets ← arrayManipulation.destroy c.ix offsets 0 (s.numArrays + 1)
  let offsets ← scanOffsets c capacities offsets
  .ok { numArrays := capacities.length, offsets := offsets, sizes := sizes }

/-- The last part of `resizeFromCapacities`, /repo/src/ArrayOfArraysView.hpp 730-734, for one buffer. -/
def fromCapacitiesReserve (c : Cfg) (s : Shape) (b : Buf X) : R (Buf X) := do
  let maxOffset ← s.offsets.read s.numArrays
  bufferManipulation.reserve c b 0 maxOffset

/-- The copies of offsets and sizes in `setEqualTo`, /repo/src/ArrayOfArraysView.hpp 838-839, together with
`maxOffset = m_offsets[ m_numArrays ]` (841), which is read after the copy with the old number of arrays.  When the source
has fewer arrays that entry lies behind the copied ones and still holds its old value, because destroying integers has
no effect. -/
def copyShape (c : Cfg) (s src : Shape) : R (Nat × Shape) := do
  let offsets ← bufferManipulation.copyInto c.ix s.offsets s.offsetsSize src.offsets (src.numArrays + 1) 0
  let sizes ← bufferManipulation.copyInto c.ix s.sizes s.numArrays src.sizes src.numArrays 0
  let maxOffset ← (if s.numArrays ≤ src.numArrays then offsets else s.offsets).read s.numArrays
  .ok (maxOffset, { numArrays := src.numArrays, offsets := offsets, sizes := sizes })

/-- `uninitializedCopy( &src[ off ], &src[ off ] + n, &dst[ off ] )`: /repo/src/arrayManipulation.hpp 173-189. -/
def copyRange (c : Cfg) (src : Buf X) (off n : Nat) (dst : Buf X) : R (Buf X) :=
  forUp n off (fun k dst => do
    let v ← src.read k
    dst.construct c k v) dst

/-- The loop of `setEqualTo` that copies the values, /repo/src/ArrayOfArraysView.hpp 855-862, for one buffer. -/
def copyRows (c : Cfg) (s : Shape) (src dst : Buf X) : R (Buf X) :=
  forUp s.numArrays 0 (fun i dst => do
    let off ← s.offsets.read i
    let n ← sizeOfArray c s i
    copyRange c src off n dst) dst

end Shape

end LvArray

import Verif.AoS

/-!
# `SparsityPatternView`, `SparsityPattern`, `CRSMatrixView` and `CRSMatrix`

/repo/src/SparsityPatternView.hpp, /repo/src/SparsityPattern.hpp, /repo/src/CRSMatrixView.hpp, /repo/src/CRSMatrix.hpp.
Columns are natural numbers; `colMax` is the largest value of `COL_TYPE`.  Row and column counts are natural numbers, so the
`isPositive` checks cannot fire and are left out.
-/

namespace LvArray

/-- A `SparsityPattern`: the members of `ArrayOfSetsView` and `m_numCols`, /repo/src/SparsityPatternView.hpp 449. -/
structure Sp where
  numCols : Nat
  sets : AoA Nat

namespace Sp

/-- `SPARSITYPATTERN_COLUMN_CHECK( col )` for every given column: /repo/src/SparsityPatternView.hpp 27-41. -/
def columnCheck (c : Cfg) (numCols : Nat) (cols : List Nat) : R Unit :=
  errorIf (c.boundsCheck && cols.any (fun col => decide (numCols ≤ col)))

/-- `resize( nRows, nCols, initialRowCapacity )`: /repo/src/SparsityPattern.hpp 293-294, /repo/src/SparsityPatternView.hpp
433-446. -/
def resize (c : Cfg) (colMax : Nat) (s : Sp) (nRows nCols capacity : Nat) : R Sp := do
  errorIf (decide (colMax + 1 < nCols))
  let sets ← s.sets.resize c nRows capacity
  .ok { numCols := nCols, sets := sets }

/-- `SparsityPattern( nrows, ncols, initialRowCapacity )`: /repo/src/SparsityPattern.hpp 45-52. -/
def mk' (c : Cfg) (colMax nRows nCols capacity : Nat) : R Sp :=
  resize c colMax
    { numCols := 0, sets := { shape := { numArrays := 0, offsets := .empty, sizes := .empty }, values := .empty } }
    nRows nCols capacity

/-- `resizeFromRowCapacities`: /repo/src/SparsityPattern.hpp 129-138. -/
def resizeFromRowCapacities (c : Cfg) (colMax : Nat) (s : Sp) (nCols : Nat) (capacities : List Nat) : R Sp := do
  errorIf (decide (colMax + 1 < nCols))
  let sets ← s.sets.resizeFromCapacities c capacities
  .ok { numCols := nCols, sets := sets }

/-- The capacity `setRowCapacity` asks for: /repo/src/SparsityPattern.hpp 263, /repo/src/CRSMatrix.hpp 337. -/
def clip (numCols newCapacity : Nat) : Nat := if numCols < newCapacity then numCols else newCapacity

/-- `setRowCapacity`: /repo/src/SparsityPattern.hpp 260-265. -/
def setRowCapacity (c : Cfg) (s : Sp) (row newCapacity : Nat) : R Sp := do
  let sets ← s.sets.setCapacityOfArray c row (clip s.numCols newCapacity)
  .ok { s with sets := sets }

/-- `reserveNonZeros( row, nnz )`: /repo/src/SparsityPattern.hpp 243-248. -/
def reserveNonZeros (c : Cfg) (s : Sp) (row nnz : Nat) : R Sp := do
  let cap ← s.sets.shape.capacityOfArray c row
  if nnz ≤ cap then .ok s else setRowCapacity c s row nnz

/-- `appendRow( nzCapacity )`: /repo/src/SparsityPattern.hpp 301-310. -/
def appendRow (c : Cfg) (s : Sp) (capacity : Nat) : R Sp := do
  let shape ← s.sets.shape.appendRow c
  setRowCapacity c { s with sets := { s.sets with shape := shape } } (shape.numArrays - 1) capacity

/-- `incrementSize` of the call backs, /repo/src/SparsityPattern.hpp 420-431, with `dynamicallyGrowRow`, 388-390. -/
def growing (c : Cfg) (numCols row : Nat) (a : AoA Nat) (nToAdd : Nat) : R (AoA Nat) := do
  let nnz ← a.shape.sizeOfArray c row
  let cap ← a.shape.capacityOfArray c row
  a.growIf c (decide (cap < nnz + nToAdd)) row (clip numCols ((nnz + nToAdd) * 2))

/-- `insertNonZero( row, col )` of the owning class: /repo/src/SparsityPattern.hpp 325-326.  It does not check the column. -/
def insertNonZero (c : Cfg) (s : Sp) (row col : Nat) : R (Sp × Bool) := do
  let r ← AoS.insertIntoSet c (growing c s.numCols row) s.sets row col
  .ok ({ s with sets := r.1 }, r.2)

/-- `insertNonZeros( row, first, last )` of the owning class: /repo/src/SparsityPattern.hpp 339-341. -/
def insertNonZeros (c : Cfg) (s : Sp) (row : Nat) (cols : List Nat) : R (Sp × Nat) := do
  let r ← AoS.insertRangeIntoSet c (growing c s.numCols row) s.sets row cols
  .ok ({ s with sets := r.1 }, r.2)

/-- `insertNonZero( row, col )` of the view: /repo/src/SparsityPatternView.hpp 316-322. -/
def viewInsertNonZero (c : Cfg) (s : Sp) (row col : Nat) : R (Sp × Bool) := do
  s.sets.shape.checkBounds c row
  columnCheck c s.numCols [col]
  let r ← AoS.insertIntoSet c (AoS.checking c row) s.sets row col
  .ok ({ s with sets := r.1 }, r.2)

/-- `insertNonZeros( row, first, last )` of the view: /repo/src/SparsityPatternView.hpp 333-345. -/
def viewInsertNonZeros (c : Cfg) (s : Sp) (row : Nat) (cols : List Nat) : R (Sp × Nat) := do
  s.sets.shape.checkBounds c row
  columnCheck c s.numCols cols
  let r ← AoS.insertRangeIntoSet c (AoS.checking c row) s.sets row cols
  .ok ({ s with sets := r.1 }, r.2)

/-- `removeNonZero( row, col )`: /repo/src/SparsityPatternView.hpp 353-359. -/
def removeNonZero (c : Cfg) (s : Sp) (row col : Nat) : R (Sp × Bool) := do
  s.sets.shape.checkBounds c row
  columnCheck c s.numCols [col]
  let r ← AoS.removeFromSet c s.sets row col
  .ok ({ s with sets := r.1 }, r.2)

/-- `removeNonZeros( row, first, last )`: /repo/src/SparsityPatternView.hpp 371-385. -/
def removeNonZeros (c : Cfg) (s : Sp) (row : Nat) (cols : List Nat) : R (Sp × Nat) := do
  s.sets.shape.checkBounds c row
  columnCheck c s.numCols cols
  let r ← AoS.removeRangeFromSet c s.sets row cols
  .ok ({ s with sets := r.1 }, r.2)

/-- `numNonZeros()`: /repo/src/SparsityPatternView.hpp 207-217. -/
def numNonZeros (c : Cfg) (s : Shape) : R Nat :=
  forUp s.numArrays 0 (fun row nnz => do
    let n ← s.sizeOfArray c row
    .ok (nnz + n)) 0

/-- `empty( row, col )`: /repo/src/SparsityPatternView.hpp 264-265. -/
def isEmpty (c : Cfg) (s : Sp) (row col : Nat) : R Bool := do
  let r ← AoS.contains c s.sets row col
  .ok (!r)

end Sp

/-- A `CRSMatrix`: the members of `SparsityPatternView` and `m_entries`, /repo/src/CRSMatrixView.hpp 573-574. -/
structure Crs (V : Type) where
  numCols : Nat
  shape : Shape
  columns : Buf Nat
  entries : Buf V

namespace Crs

variable {V : Type}

/-- `getEntries( row )` and `getSetValues( row )` as a position in the buffers: /repo/src/CRSMatrixView.hpp 235-241,
/repo/src/ArrayOfSetsView.hpp 344-346.  Only used after the offset has been read successfully. -/
def rowPtr (m : Crs V) (row : Nat) : Nat :=
  match m.shape.offsets.cell row with
  | .live p => p
  | _ => 0

/-- `setCapacityOfArray( i, newCapacity, m_entries )`: /repo/src/ArrayOfArraysView.hpp 875-942. -/
def setCapacityOfArray (c : Cfg) (m : Crs V) (i newCapacity : Nat) : R (Crs V) := do
  m.shape.checkBounds c i
  let cap ← m.shape.capacityOfArray c i
  if newCapacity = cap then .ok m
  else if cap < newCapacity then do
    let columns ← m.shape.growRow c.ix i (newCapacity - cap) m.columns
    let entries ← m.shape.growRow c i (newCapacity - cap) m.entries
    let shape ← m.shape.updateOffsets c i (· + (newCapacity - cap))
    .ok { m with shape := shape, columns := columns, entries := entries }
  else do
    let off ← m.shape.offsets.read i
    let prevSize ← m.shape.sizeOfArray c i
    let shape ← m.shape.setSize c i (min prevSize newCapacity)
    let columns ← shape.shrinkRow c.ix i (cap - newCapacity) off (min prevSize newCapacity) prevSize m.columns
    let entries ← shape.shrinkRow c i (cap - newCapacity) off (min prevSize newCapacity) prevSize m.entries
    let shape ← shape.updateOffsets c i (· - (cap - newCapacity))
    .ok { m with shape := shape, columns := columns, entries := entries }

/-- `setRowCapacity`: /repo/src/CRSMatrix.hpp 334-339. -/
def setRowCapacity (c : Cfg) (m : Crs V) (row newCapacity : Nat) : R (Crs V) :=
  setCapacityOfArray c m row (Sp.clip m.numCols newCapacity)

/-- `reserveNonZeros( row, nnz )`: /repo/src/CRSMatrix.hpp 318-323. -/
def reserveNonZeros (c : Cfg) (m : Crs V) (row nnz : Nat) : R (Crs V) := do
  let cap ← m.shape.capacityOfArray c row
  if nnz ≤ cap then .ok m else setRowCapacity c m row nnz

/-- `reserveNonZeros( nnz )`: /repo/src/CRSMatrix.hpp 308-310. -/
def reserveValues (c : Cfg) (m : Crs V) (nnz : Nat) : R (Crs V) := do
  let columns ← m.shape.reserveValues c.ix nnz m.columns
  let entries ← m.shape.reserveValues c nnz m.entries
  .ok { m with columns := columns, entries := entries }

/-- `compress()`: /repo/src/CRSMatrix.hpp 355-357, /repo/src/ArrayOfArraysView.hpp 662-686; buffer after buffer instead of row
after row (see `Shape.compress`). -/
def compress (c : Cfg) (m : Crs V) : R (Crs V) := do
  let r ← m.shape.compress c.ix m.columns
  let r' ← m.shape.compress c m.entries
  .ok { m with shape := r'.1, columns := r.2, entries := r'.2 }

/-- `resize( nRows, nCols, initialRowCapacity )`: /repo/src/CRSMatrix.hpp 349-350, /repo/src/SparsityPatternView.hpp 433-446,
/repo/src/ArrayOfArraysView.hpp 757-796. -/
def resize (c : Cfg) (colMax : Nat) (m : Crs V) (nRows nCols capacity : Nat) : R (Crs V) := do
  errorIf (decide (colMax + 1 < nCols))
  if nRows < m.shape.numArrays then do
    let columns ← m.shape.destroyValues c.ix nRows m.shape.numArrays m.columns
    let entries ← m.shape.destroyValues c nRows m.shape.numArrays m.entries
    let shape ← m.shape.dropRows c nRows
    .ok { numCols := nCols, shape := { shape with numArrays := nRows }, columns := columns, entries := entries }
  else do
    let shape ← m.shape.addRows c nRows capacity
    let columns ← shape.addRowsReserve c.ix nRows capacity m.columns
    let entries ← shape.addRowsReserve c nRows capacity m.entries
    .ok { numCols := nCols, shape := { shape with numArrays := nRows }, columns := columns, entries := entries }

/-- `CRSMatrix( nrows, ncols, initialRowCapacity )`: /repo/src/CRSMatrix.hpp 58-65. -/
def mk' (c : Cfg) (colMax nRows nCols capacity : Nat) : R (Crs V) :=
  resize c colMax
    { numCols := 0, shape := { numArrays := 0, offsets := .empty, sizes := .empty }, columns := .empty, entries := .empty }
    nRows nCols capacity

/-- `resizeFromRowCapacities`: /repo/src/CRSMatrix.hpp 174-183, /repo/src/ArrayOfArraysView.hpp 697-735. -/
def resizeFromRowCapacities (c : Cfg) (colMax : Nat) (m : Crs V) (nCols : Nat) (capacities : List Nat) : R (Crs V) := do
  errorIf (decide (colMax + 1 < nCols))
  let columns ← m.shape.destroyValues c.ix 0 m.shape.numArrays m.columns
  let entries ← m.shape.destroyValues c 0 m.shape.numArrays m.entries
  let shape ← m.shape.fromCapacities c capacities
  let columns ← shape.fromCapacitiesReserve c.ix columns
  let entries ← shape.fromCapacitiesReserve c entries
  .ok { numCols := nCols, shape := shape, columns := columns, entries := entries }

/-- The call backs for a row, constructed when it has `nnz` non zeros and capacity `cap`; `es` are the entries to insert.
Of the owning class (`owning`), /repo/src/CRSMatrix.hpp 508-609, where `incrementSize` may grow the row (`dynamicallyGrowRow`,
/repo/src/CRSMatrix.hpp 500-502), or of the view, /repo/src/CRSMatrixView.hpp 579-706, where it checks the capacity.  An index
outside of `es` reads past the end of the caller's array. -/
def target (c : Cfg) (owning : Bool) (row nnz cap : Nat) (es : List V) : sortedArrayManipulation.Target (Crs V) Nat where
  buf := fun m => m.columns
  ptr := fun m => m.rowPtr row
  put := fun m b => { m with columns := b }
  incrementSize := fun m n =>
    if owning then
      if cap < nnz + n then setRowCapacity c m row (2 * (nnz + n)) else .ok m
    else errorIf (c.boundsCheck && decide (cap < nnz + n)) >>= fun _ => .ok m
  insert := fun m pos =>
    match es[0]? with
    | some e => do
      let entries ← arrayManipulation.emplace c m.entries (m.rowPtr row) nnz pos e
      .ok { m with entries := entries }
    | none => .error (.ub .outOfBounds)
  set := fun m pos colPos =>
    match es[colPos]? with
    | some e => do
      let entries ← m.entries.construct c (m.rowPtr row + pos) e
      .ok { m with entries := entries }
    | none => .error (.ub .outOfBounds)
  insertMany := fun m nLeft colPos pos prevPos =>
    match es[colPos]? with
    | some e => do
      let entries ← arrayManipulation.shiftUp c m.entries (m.rowPtr row) prevPos pos nLeft
      let entries ← entries.construct c (m.rowPtr row + (pos + nLeft - 1)) e
      .ok { m with entries := entries }
    | none => .error (.ub .outOfBounds)
  remove := fun m pos => do
    let entries ← arrayManipulation.erase c m.entries (m.rowPtr row) nnz pos 1
    .ok { m with entries := entries }
  removeMany := fun m nRemoved curPos nextPos => do
    let entries ← arrayManipulation.shiftDown c m.entries (m.rowPtr row) nextPos (curPos + 1) nRemoved
    .ok { m with entries := entries }

/-- `insertNonZero( row, col, entry )`: /repo/src/CRSMatrix.hpp 377-378, /repo/src/CRSMatrixView.hpp 277-279,
/repo/src/ArrayOfSetsView.hpp 362-373.  Neither the owning class nor the view checks the column. -/
def insertNonZeroIn (ci c : Cfg) (owning : Bool) (m : Crs V) (row col : Nat) (e : V) : R (Crs V × Bool) := do
  let nnz ← m.shape.sizeOfArray c row
  let cap ← m.shape.capacityOfArray c row
  let _ ← m.shape.offsets.read row
  let r ← sortedArrayManipulation.insertOne ci (target c owning row nnz cap [e]) m nnz col
  let shape ← r.1.shape.setSize c row (nnz + (if r.2 then 1 else 0))
  .ok ({ r.1 with shape := shape }, r.2)

/-- `insertNonZeros( row, cols, entries, ncols )`: /repo/src/CRSMatrix.hpp 391-396, /repo/src/CRSMatrixView.hpp 292-297,
/repo/src/ArrayOfSetsView.hpp 386-406. -/
def insertNonZerosIn (ci c : Cfg) (owning : Bool) (m : Crs V) (row : Nat) (cols : List Nat) (es : List V) :
    R (Crs V × Nat) := do
  let nnz ← m.shape.sizeOfArray c row
  let cap ← m.shape.capacityOfArray c row
  let _ ← m.shape.offsets.read row
  let r ← sortedArrayManipulation.insertRange ci (target c owning row nnz cap es) m nnz cols
  let shape ← r.1.shape.setSize c row (nnz + r.2)
  .ok ({ r.1 with shape := shape }, r.2)

/-- `removeNonZero( row, col )`: /repo/src/CRSMatrixView.hpp 305-307, /repo/src/ArrayOfSetsView.hpp 416-427. -/
def removeNonZeroIn (ci c : Cfg) (m : Crs V) (row col : Nat) : R (Crs V × Bool) := do
  let nnz ← m.shape.sizeOfArray c row
  let cap ← m.shape.capacityOfArray c row
  let _ ← m.shape.offsets.read row
  let r ← sortedArrayManipulation.removeOne ci (target c false row nnz cap []) m nnz col
  let shape ← r.1.shape.setSize c row (nnz - (if r.2 then 1 else 0))
  .ok ({ r.1 with shape := shape }, r.2)

/-- `removeNonZeros( row, cols, ncols )`: /repo/src/CRSMatrixView.hpp 318-330, /repo/src/ArrayOfSetsView.hpp 440-460. -/
def removeNonZerosIn (ci c : Cfg) (m : Crs V) (row : Nat) (cols : List Nat) : R (Crs V × Nat) := do
  let nnz ← m.shape.sizeOfArray c row
  let cap ← m.shape.capacityOfArray c row
  let p ← m.shape.offsets.read row
  let r ← sortedArrayManipulation.removeRange ci (target c false row nnz cap []) m nnz cols
  let shape ← r.1.shape.setSize c row (nnz - r.2)
  let entries ← arrayManipulation.destroy c r.1.entries (p + nnz - r.2) r.2
  .ok ({ r.1 with shape := shape, entries := entries }, r.2)

/-- The columns are integers: in these four functions their configuration is `c.ix`.  (`ParallelMatrix.lean` also needs the
functions for columns that are checked like entries.) -/
abbrev insertNonZero (c : Cfg) (owning : Bool) (m : Crs V) (row col : Nat) (e : V) : R (Crs V × Bool) :=
  insertNonZeroIn c.ix c owning m row col e

@[inherit_doc insertNonZero]
abbrev insertNonZeros (c : Cfg) (owning : Bool) (m : Crs V) (row : Nat) (cols : List Nat) (es : List V) : R (Crs V × Nat) :=
  insertNonZerosIn c.ix c owning m row cols es

@[inherit_doc insertNonZero]
abbrev removeNonZero (c : Cfg) (m : Crs V) (row col : Nat) : R (Crs V × Bool) := removeNonZeroIn c.ix c m row col

@[inherit_doc insertNonZero]
abbrev removeNonZeros (c : Cfg) (m : Crs V) (row : Nat) (cols : List Nat) : R (Crs V × Nat) := removeNonZerosIn c.ix c m row cols

/-- `getColumns( row )[ k ]`, /repo/src/SparsityPatternView.hpp 277-279: the slice checks the position with bounds checks. -/
def getColumn (c : Cfg) (m : Crs V) (row k : Nat) : R Nat := do
  m.shape.checkBounds2 c row k
  let p ← m.shape.offsets.read row
  m.columns.read (p + k)

/-- `getEntries( row )[ k ]`: /repo/src/CRSMatrixView.hpp 235-241. -/
def getEntry (c : Cfg) (m : Crs V) (row k : Nat) : R V := do
  m.shape.checkBounds2 c row k
  let p ← m.shape.offsets.read row
  m.entries.read (p + k)

/-- `empty( row, col )`: /repo/src/SparsityPatternView.hpp 264-265, /repo/src/ArrayOfSetsView.hpp 191-200. -/
def isEmpty (c : Cfg) (m : Crs V) (row col : Nat) : R Bool := do
  m.shape.checkBounds c row
  let n ← m.shape.sizeOfArray c row
  let p ← m.shape.offsets.read row
  let r ← sortedArrayManipulation.contains c sortedArrayManipulation.less (fun k => m.columns.read (p + k)) n col
  .ok (!r)

/-- `setValues( value )`: /repo/src/CRSMatrixView.hpp 344-357, the rows in any fixed order (they are disjoint); here in
increasing order. -/
def setValues (c : Cfg) (m : Crs V) (value : V) : R (Crs V) := do
  let entries ← forUp m.shape.numArrays 0 (fun row b => do
    let nnz ← m.shape.sizeOfArray c row
    let p ← m.shape.offsets.read row
    forUp nnz 0 (fun i b => Buf.write c b (p + i) value) b) m.entries
  .ok { m with entries := entries }

/-! ## `addToRow` -/

/-- `*acc += val`: /repo/src/CRSMatrixView.hpp 49-51 (`RAJA::seq_atomic`). -/
def addAt [Add V] (c : Cfg) (m : Crs V) (row pos : Nat) (v : V) : R (Crs V) := do
  let x ← m.entries.read (m.rowPtr row + pos)
  let entries ← m.entries.write c (m.rowPtr row + pos) (x + v)
  .ok { m with entries := entries }

/-- `columns[ pos ]`. -/
def column (m : Crs V) (row pos : Nat) : R Nat := m.columns.read (m.rowPtr row + pos)

/-- `LVARRAY_ASSERT_GT( nnz, pos ); LVARRAY_ASSERT_EQ( columns[ pos ], col )`, /repo/src/CRSMatrixView.hpp 444-445, 518-519. -/
def assertColumn (c : Cfg) (m : Crs V) (row nnz pos col : Nat) : R Unit :=
  if c.debug then do
    errorIf (decide (nnz ≤ pos))
    let x ← column m row pos
    errorIf (decide (x ≠ col))
  else .ok ()

/-- The loop of `addToRowBinarySearch`, /repo/src/CRSMatrixView.hpp 440-449.  When a column is missing `nnz - curPos` may become
negative, which `find` does not handle. -/
def binaryLoop [Add V] (c : Cfg) (row nnz : Nat) : Crs V → Nat → List (Nat × V) → R (Crs V)
  | m, _, [] => .ok m
  | m, curPos, (col, v) :: rest =>
    if nnz < curPos then .error (.ub .outOfBounds)
    else do
      let k ← sortedArrayManipulation.find c sortedArrayManipulation.less (fun k => column m row (curPos + k)) (nnz - curPos) col
      let pos := k + curPos
      assertColumn c m row nnz pos col
      let m ← addAt c m row pos v
      binaryLoop c row nnz m (pos + 1) rest

/-- `addToRowBinarySearch`: /repo/src/CRSMatrixView.hpp 427-450; columns and values given as pairs. -/
def addToRowBinarySearch [Add V] (c : Cfg) (m : Crs V) (row : Nat) (args : List (Nat × V)) : R (Crs V) := do
  errorIf (c.debug && !sortedArrayManipulation.isSortedUnique sortedArrayManipulation.less (args.map (·.1)))
  let nnz ← m.shape.sizeOfArray c row
  m.shape.checkBounds c row
  let _ ← m.shape.offsets.read row
  binaryLoop c row nnz m 0 args

/-- The inner loop of `addToRowLinearSearch`, /repo/src/CRSMatrixView.hpp 480-487: the position of the column from `j` on, or
`curPos` when it is not there.  `fuel` is the number of positions left. -/
def linearScan (m : Crs V) (row curPos col : Nat) : Nat → Nat → R Nat
  | 0, _ => .ok curPos
  | fuel + 1, j => do
    let x ← column m row j
    if x = col then .ok j else linearScan m row curPos col fuel (j + 1)

/-- `LVARRAY_ASSERT_EQ( columns[ curPos ], cols[ i ] )`: /repo/src/CRSMatrixView.hpp 488. -/
def assertFound (c : Cfg) (m : Crs V) (row pos col : Nat) : R Unit :=
  if c.debug then do
    let x ← column m row pos
    errorIf (decide (x ≠ col))
  else .ok ()

/-- The loop of `addToRowLinearSearch`, /repo/src/CRSMatrixView.hpp 478-491. -/
def linearLoop [Add V] (c : Cfg) (row nnz : Nat) : Crs V → Nat → List (Nat × V) → R (Crs V)
  | m, _, [] => .ok m
  | m, curPos, (col, v) :: rest => do
    let pos ← linearScan m row curPos col (nnz - curPos) curPos
    assertFound c m row pos col
    let m ← addAt c m row pos v
    linearLoop c row nnz m (pos + 1) rest

/-- `addToRowLinearSearch`: /repo/src/CRSMatrixView.hpp 464-492. -/
def addToRowLinearSearch [Add V] (c : Cfg) (m : Crs V) (row : Nat) (args : List (Nat × V)) : R (Crs V) := do
  errorIf (c.debug && !sortedArrayManipulation.isSortedUnique sortedArrayManipulation.less (args.map (·.1)))
  let nnz ← m.shape.sizeOfArray c row
  m.shape.checkBounds c row
  let _ ← m.shape.offsets.read row
  linearLoop c row nnz m 0 args

/-- The loop of `addToRowBinarySearchUnsorted`, /repo/src/CRSMatrixView.hpp 515-523. -/
def unsortedLoop [Add V] (c : Cfg) (row nnz : Nat) : Crs V → List (Nat × V) → R (Crs V)
  | m, [] => .ok m
  | m, (col, v) :: rest => do
    let pos ← sortedArrayManipulation.find c sortedArrayManipulation.less (column m row) nnz col
    assertColumn c m row nnz pos col
    let m ← addAt c m row pos v
    unsortedLoop c row nnz m rest

/-- `addToRowBinarySearchUnsorted`: /repo/src/CRSMatrixView.hpp 505-524. -/
def addToRowBinarySearchUnsorted [Add V] (c : Cfg) (m : Crs V) (row : Nat) (args : List (Nat × V)) : R (Crs V) := do
  let nnz ← m.shape.sizeOfArray c row
  m.shape.checkBounds c row
  let _ ← m.shape.offsets.read row
  unsortedLoop c row nnz m args

/-- `addToRow`: /repo/src/CRSMatrixView.hpp 397-413. -/
def addToRow [Add V] (c : Cfg) (m : Crs V) (row : Nat) (args : List (Nat × V)) : R (Crs V) := do
  let nnz ← m.shape.sizeOfArray c row
  if args.length < nnz / 4 ∧ 64 < nnz then addToRowBinarySearch c m row args else addToRowLinearSearch c m row args

/-! ## Copy, move and `assimilate` -/

/-- `free( m_entries )`, the destructor: /repo/src/CRSMatrix.hpp 82-83, /repo/src/ArrayOfArraysView.hpp 804-815. -/
def free (c : Cfg) (m : Crs V) : R (Crs V) := do
  let columns ← m.shape.destroyValues c.ix 0 m.shape.numArrays m.columns
  let entries ← m.shape.destroyValues c 0 m.shape.numArrays m.entries
  .ok { numCols := m.numCols
        shape := { numArrays := 0, offsets := m.shape.offsets.release c.ix, sizes := m.shape.sizes.release c.ix }
        columns := columns.release c.ix
        entries := entries.release c }

/-- Copy assignment from another matrix: /repo/src/CRSMatrix.hpp 95-105, `setEqualTo` with the entries as additional pair,
/repo/src/ArrayOfArraysView.hpp 828-865. -/
def copyAssign (c : Cfg) (m src : Crs V) : R (Crs V) := do
  let srcMaxOffset ← src.shape.offsets.read src.shape.numArrays
  let columns ← m.shape.destroyValues c.ix 0 m.shape.numArrays m.columns
  let entries ← m.shape.destroyValues c 0 m.shape.numArrays m.entries
  let r ← m.shape.copyShape c src.shape
  let columns ← bufferManipulation.reserve c.ix columns r.1 srcMaxOffset
  let entries ← bufferManipulation.reserve c entries r.1 srcMaxOffset
  let columns ← r.2.copyRows c.ix src.columns columns
  let entries ← r.2.copyRows c src.entries entries
  .ok { numCols := src.numCols, shape := r.2, columns := columns, entries := entries }

/-- The loop of `assimilate` that constructs the entries, /repo/src/CRSMatrix.hpp 153-162. -/
def initEntries (c : Cfg) (v : V) (s : Shape) (b : Buf V) : R (Buf V) :=
  forUp s.numArrays 0 (fun row b => do
    let nnz ← s.sizeOfArray c row
    let p ← s.offsets.read row
    forUp nnz 0 (fun i b => Buf.construct c b (p + i) v) b) b

/-- `assimilate( SparsityPattern && )`: /repo/src/CRSMatrix.hpp 131-165, /repo/src/SparsityPatternView.hpp 419-423.  `default` is
the value of `T()`.  The matrix afterwards and the pattern afterwards (the moves of the buffers leave null buffers,
`m_numCols` is set to 0, /repo/src/SparsityPatternView.hpp 139-145).  For trivially destructible entries the code skips the first loop; the
model runs it, which only makes it forget the values. -/
def assimilate [Inhabited V] (c : Cfg) (m : Crs V) (src : Sp) : R (Crs V × Sp) := do
  let entries ← m.shape.destroyValues c 0 m.shape.numArrays m.entries
  let entries ← bufferManipulation.reserve c entries 0 src.sets.values.cap
  let freed ← AoA.free c.ix { shape := m.shape, values := m.columns }
  -- the ghost counters of what is gone go with the freed columns
  let _ := freed
  let moved := AoA.moveConstruct src.sets
  let entries ← initEntries c default moved.1.shape entries
  .ok ({ numCols := src.numCols, shape := moved.1.shape, columns := moved.1.values, entries := entries },
    { numCols := 0, sets := moved.2 })

end Crs

end LvArray

/-! ## Histories -/

namespace LvArray

/-- Calls on a `SparsityPattern`. -/
inductive SpOp where
  | insert (row col : Nat)
  | insertMany (row : Nat) (cols : List Nat)
  | remove (row col : Nat)
  | removeMany (row : Nat) (cols : List Nat)
  | isEmpty (row col : Nat)
  | setRowCapacity (row n : Nat)
  | reserveNonZeros (row n : Nat)
  | reserveNonZerosTotal (n : Nat)
  | reserveRows (n : Nat)
  | appendRow (capacity : Nat)
  | resize (nRows nCols capacity : Nat)
  | resizeFromRowCapacities (nCols : Nat) (capacities : List Nat)
  | compress
  | numNonZeros
  deriving Repr

/-- One call (dispatch only, no code of its own in /repo). -/
def Sp.step (c : Cfg) (colMax : Nat) (s : Sp) : SpOp → R (Sp × AoSOut Nat)
  | .insert i v => do let r ← s.insertNonZero c i v; .ok (r.1, .bool r.2)
  | .insertMany i vs => do let r ← s.insertNonZeros c i vs; .ok (r.1, .num r.2)
  | .remove i v => do let r ← s.removeNonZero c i v; .ok (r.1, .bool r.2)
  | .removeMany i vs => do let r ← s.removeNonZeros c i vs; .ok (r.1, .num r.2)
  | .isEmpty i v => do let r ← s.isEmpty c i v; .ok (s, .bool r)
  | .setRowCapacity i n => do let s ← s.setRowCapacity c i n; .ok (s, .unit)
  | .reserveNonZeros i n => do let s ← s.reserveNonZeros c i n; .ok (s, .unit)
  | .reserveNonZerosTotal n => do let a ← s.sets.reserveValues c n; .ok ({ s with sets := a }, .unit)
  | .reserveRows n => do let a ← s.sets.reserve c n; .ok ({ s with sets := a }, .unit)
  | .appendRow n => do let s ← s.appendRow c n; .ok (s, .unit)
  | .resize r n k => do let s ← s.resize c colMax r n k; .ok (s, .unit)
  | .resizeFromRowCapacities n ks => do let s ← s.resizeFromRowCapacities c colMax n ks; .ok (s, .unit)
  | .compress => do let a ← s.sets.compress c; .ok ({ s with sets := a }, .unit)
  | .numNonZeros => do let n ← Sp.numNonZeros c s.sets.shape; .ok (s, .num n)

/-- A history of calls with the values they return. -/
def Sp.run (c : Cfg) (colMax : Nat) : Sp → List SpOp → R (Sp × List (AoSOut Nat))
  | s, [] => .ok (s, [])
  | s, op :: ops => do
    let r ← s.step c colMax op
    let r' ← Sp.run c colMax r.1 ops
    .ok (r'.1, r.2 :: r'.2)

/-- The four ways of adding to a row. -/
inductive AddVariant where
  | auto | binary | linear | unsorted
  deriving Repr, DecidableEq

/-- Calls on a `CRSMatrix`. -/
inductive CrsOp (V : Type) where
  | insert (row col : Nat) (v : V)
  | insertMany (row : Nat) (args : List (Nat × V))
  | remove (row col : Nat)
  | removeMany (row : Nat) (cols : List Nat)
  | isEmpty (row col : Nat)
  | getColumn (row k : Nat)
  | getEntry (row k : Nat)
  | setRowCapacity (row n : Nat)
  | reserveNonZeros (row n : Nat)
  | reserveNonZerosTotal (n : Nat)
  | resize (nRows nCols capacity : Nat)
  | resizeFromRowCapacities (nCols : Nat) (capacities : List Nat)
  | compress
  | numNonZeros
  | setValues (v : V)
  | addToRow (how : AddVariant) (row : Nat) (args : List (Nat × V))
  deriving Repr

variable {V : Type} [Add V]

/-- One call (dispatch only, no code of its own in /repo). -/
def Crs.step (c : Cfg) (colMax : Nat) (m : Crs V) : CrsOp V → R (Crs V × AoSOut (Nat ⊕ V))
  | .insert i k v => do let r ← m.insertNonZero c true i k v; .ok (r.1, .bool r.2)
  | .insertMany i args => do
    let r ← m.insertNonZeros c true i (args.map (·.1)) (args.map (·.2)); .ok (r.1, .num r.2)
  | .remove i v => do let r ← m.removeNonZero c i v; .ok (r.1, .bool r.2)
  | .removeMany i vs => do let r ← m.removeNonZeros c i vs; .ok (r.1, .num r.2)
  | .isEmpty i v => do let r ← m.isEmpty c i v; .ok (m, .bool r)
  | .getColumn i k => do let r ← m.getColumn c i k; .ok (m, .val (.inl r))
  | .getEntry i k => do let r ← m.getEntry c i k; .ok (m, .val (.inr r))
  | .setRowCapacity i n => do let m ← m.setRowCapacity c i n; .ok (m, .unit)
  | .reserveNonZeros i n => do let m ← m.reserveNonZeros c i n; .ok (m, .unit)
  | .reserveNonZerosTotal n => do let m ← m.reserveValues c n; .ok (m, .unit)
  | .resize r n k => do let m ← m.resize c colMax r n k; .ok (m, .unit)
  | .resizeFromRowCapacities n ks => do let m ← m.resizeFromRowCapacities c colMax n ks; .ok (m, .unit)
  | .compress => do let m ← m.compress c; .ok (m, .unit)
  | .numNonZeros => do let n ← Sp.numNonZeros c m.shape; .ok (m, .num n)
  | .setValues v => do let m ← m.setValues c v; .ok (m, .unit)
  | .addToRow .auto i args => do let m ← m.addToRow c i args; .ok (m, .unit)
  | .addToRow .binary i args => do let m ← m.addToRowBinarySearch c i args; .ok (m, .unit)
  | .addToRow .linear i args => do let m ← m.addToRowLinearSearch c i args; .ok (m, .unit)
  | .addToRow .unsorted i args => do let m ← m.addToRowBinarySearchUnsorted c i args; .ok (m, .unit)

/-- A history of calls with the values they return. -/
def Crs.run (c : Cfg) (colMax : Nat) : Crs V → List (CrsOp V) → R (Crs V × List (AoSOut (Nat ⊕ V)))
  | m, [] => .ok (m, [])
  | m, op :: ops => do
    let r ← m.step c colMax op
    let r' ← Crs.run c colMax r.1 ops
    .ok (r'.1, r.2 :: r'.2)

end LvArray

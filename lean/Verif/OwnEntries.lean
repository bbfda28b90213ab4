import Verif.OwnSets
import Verif.Sparse

/-!
# Functions of `CRSMatrix` called with columns and entries of the matrix itself

`matrix.insertNonZero( i, col, matrix.getEntries( j )[ k ] )` and
`matrix.insertNonZeros( i, &matrix.getColumns( j )[ lo ], &matrix.getEntries( j )[ lo ], n )`, of the matrix and of a view of it.
The entry is a reference and the range consists of two pointers; the call backs read through them after the entries of the row have
been shifted.  A single column is passed by value.  (`LVARRAY_RESTRICT` on the pointer arguments is not modelled.)
-/

namespace LvArray.Crs

open sortedArrayManipulation

variable {V : Type}

/-- What a pointer to slot `p` of the columns, taken when the matrix was `m`, reads when it is `s`.  The allocation is replaced
exactly when its capacity grows (/repo/src/bufferManipulation.hpp 252-260). -/
def readOwnColumn (c : Cfg) (m s : Crs V) (p : Nat) : R Nat :=
  if m.columns.cap < s.columns.cap then .error (.ub .dangling) else Buf.readStale c.ix m.columns s.columns p

@[inherit_doc readOwnColumn]
def readOwnEntry (c : Cfg) (m s : Crs V) (p : Nat) : R V :=
  if m.entries.cap < s.entries.cap then .error (.ub .dangling) else Buf.readStale c m.entries s.entries p

/-- `&matrix.getEntries( row )[ k ]`, /repo/src/CRSMatrixView.hpp 235-241, as a position in the entries. -/
def elementAt (c : Cfg) (m : Crs V) (row k : Nat) : R Nat := do
  m.shape.checkBounds2 c row k
  let p ← m.shape.offsets.read row
  .ok (p + k)

/-- `matrix.getColumns( row ).begin() + lo` and `matrix.getEntries( row ).begin() + lo`, /repo/src/SparsityPatternView.hpp 277-279,
/repo/src/CRSMatrixView.hpp 235-241: the same position in the columns and in the entries. -/
def iteratorAt (c : Cfg) (m : Crs V) (row lo : Nat) : R Nat := do
  m.shape.checkBounds c row
  let p ← m.shape.offsets.read row
  .ok (p + lo)

/-- The call backs for a row, as in `target`; the `k`-th entry to insert is what `ent s k` reads in the state `s` in which it is
used.  /repo/src/CRSMatrix.hpp 508-609, /repo/src/CRSMatrixView.hpp 579-706.  `insert` is `arrayManipulation::emplace`
(/repo/src/arrayManipulation.hpp 474-487), which reads its argument after the shift. -/
def targetRef (c : Cfg) (owning : Bool) (row nnz cap : Nat) (ent : Crs V → Nat → R V) : Target (Crs V) Nat where
  buf := fun m => m.columns
  ptr := fun m => m.rowPtr row
  put := fun m b => { m with columns := b }
  incrementSize := fun m n =>
    if owning then
      if cap < nnz + n then setRowCapacity c m row (2 * (nnz + n)) else .ok m
    else errorIf (c.boundsCheck && decide (cap < nnz + n)) >>= fun _ => .ok m
  insert := fun m pos => do
    arrayManipulation.assertNonNull c m.entries (m.rowPtr row)
    arrayManipulation.checkInsertBounds c nnz pos
    let entries ← arrayManipulation.shiftUp c m.entries (m.rowPtr row) nnz pos 1
    let e ← ent { m with entries := entries } 0
    let entries ← entries.construct c (m.rowPtr row + pos) e
    .ok { m with entries := entries }
  set := fun m pos colPos => do
    let e ← ent m colPos
    let entries ← m.entries.construct c (m.rowPtr row + pos) e
    .ok { m with entries := entries }
  insertMany := fun m nLeft colPos pos prevPos => do
    let entries ← arrayManipulation.shiftUp c m.entries (m.rowPtr row) prevPos pos nLeft
    let e ← ent { m with entries := entries } colPos
    let entries ← entries.construct c (m.rowPtr row + (pos + nLeft - 1)) e
    .ok { m with entries := entries }
  remove := fun m pos => do
    let entries ← arrayManipulation.erase c m.entries (m.rowPtr row) nnz pos 1
    .ok { m with entries := entries }
  removeMany := fun m nRemoved curPos nextPos => do
    let entries ← arrayManipulation.shiftDown c m.entries (m.rowPtr row) nextPos (curPos + 1) nRemoved
    .ok { m with entries := entries }

/-- `matrix.insertNonZero( row, col, matrix.getEntries( j )[ k ] )`: /repo/src/CRSMatrix.hpp 377-378 (`owning`),
/repo/src/CRSMatrixView.hpp 277-279, /repo/src/ArrayOfSetsView.hpp 362-373. -/
def insertNonZeroOwn (c : Cfg) (owning : Bool) (m : Crs V) (row col j k : Nat) : R (Crs V × Bool) := do
  let q ← m.elementAt c j k
  let nnz ← m.shape.sizeOfArray c row
  let cap ← m.shape.capacityOfArray c row
  let _ ← m.shape.offsets.read row
  let r ← insertOne c.ix (targetRef c owning row nnz cap (fun s i => readOwnEntry c m s (q + i))) m nnz col
  let shape ← r.1.shape.setSize c row (nnz + (if r.2 then 1 else 0))
  .ok ({ r.1 with shape := shape }, r.2)

/-- `matrix.insertNonZeros( row, matrix.getColumns( j ).begin() + lo, matrix.getEntries( j ).begin() + lo, n )`:
/repo/src/CRSMatrix.hpp 391-396 (`owning`), /repo/src/CRSMatrixView.hpp 292-297, /repo/src/ArrayOfSetsView.hpp 386-406. -/
def insertNonZerosOwn (c : Cfg) (owning : Bool) (m : Crs V) (row j lo n : Nat) : R (Crs V × Nat) := do
  let q ← m.iteratorAt c j lo
  let nnz ← m.shape.sizeOfArray c row
  let cap ← m.shape.capacityOfArray c row
  let _ ← m.shape.offsets.read row
  let r ← insertRangeRef c.ix (targetRef c owning row nnz cap (fun s i => readOwnEntry c m s (q + i)))
    (fun s i => readOwnColumn c m s (q + i)) m nnz n
  let shape ← r.1.shape.setSize c row (nnz + r.2)
  .ok ({ r.1 with shape := shape }, r.2)

/-- `matrix.removeNonZeros( row, matrix.getColumns( j ).begin() + lo, n )`: /repo/src/CRSMatrixView.hpp 318-330,
/repo/src/ArrayOfSetsView.hpp 440-460. -/
def removeNonZerosOwn (c : Cfg) (m : Crs V) (row j lo n : Nat) : R (Crs V × Nat) := do
  let q ← m.iteratorAt c j lo
  let nnz ← m.shape.sizeOfArray c row
  let cap ← m.shape.capacityOfArray c row
  let p ← m.shape.offsets.read row
  let r ← removeRangeRef c.ix (target c false row nnz cap []) (fun s i => readOwnColumn c m s (q + i)) m nnz n
  let shape ← r.1.shape.setSize c row (nnz - r.2)
  let entries ← arrayManipulation.destroy c r.1.entries (p + nnz - r.2) r.2
  .ok ({ r.1 with shape := shape, entries := entries }, r.2)

/-! ## `addToRow`

None of its variants moves anything, so the pointers stay valid; each column and value is read when it is used, after the earlier ones
have been added.  `cols i` is `cols[ i ]` and `vals m i` is `vals[ i ]` when the matrix is `m`; the columns never change. -/

/-- The loop of `addToRowBinarySearch`, /repo/src/CRSMatrixView.hpp 440-449, with `n` columns left, the next one being number `i`. -/
def binaryLoopRef [Add V] (c : Cfg) (row nnz : Nat) (cols : Crs V → Nat → R Nat) (vals : Crs V → Nat → R V) :
    Nat → Crs V → Nat → Nat → R (Crs V)
  | 0, m, _, _ => .ok m
  | n + 1, m, curPos, i =>
    if nnz < curPos then .error (.ub .outOfBounds)
    else do
      let col ← cols m i
      let k ← find c less (fun k => column m row (curPos + k)) (nnz - curPos) col
      let pos := k + curPos
      assertColumn c m row nnz pos col
      let v ← vals m i
      let m ← addAt c m row pos v
      binaryLoopRef c row nnz cols vals n m (pos + 1) (i + 1)

/-- The loop of `addToRowLinearSearch`, /repo/src/CRSMatrixView.hpp 478-491.  (Each `cols[ i ]` of the inner loop reads the same.) -/
def linearLoopRef [Add V] (c : Cfg) (row nnz : Nat) (cols : Crs V → Nat → R Nat) (vals : Crs V → Nat → R V) :
    Nat → Crs V → Nat → Nat → R (Crs V)
  | 0, m, _, _ => .ok m
  | n + 1, m, curPos, i => do
    let col ← cols m i
    let pos ← linearScan m row curPos col (nnz - curPos) curPos
    assertFound c m row pos col
    let v ← vals m i
    let m ← addAt c m row pos v
    linearLoopRef c row nnz cols vals n m (pos + 1) (i + 1)

/-- The loop of `addToRowBinarySearchUnsorted`, /repo/src/CRSMatrixView.hpp 515-523. -/
def unsortedLoopRef [Add V] (c : Cfg) (row nnz : Nat) (cols : Crs V → Nat → R Nat) (vals : Crs V → Nat → R V) :
    Nat → Crs V → Nat → R (Crs V)
  | 0, m, _ => .ok m
  | n + 1, m, i => do
    let col ← cols m i
    let pos ← find c less (column m row) nnz col
    assertColumn c m row nnz pos col
    let v ← vals m i
    let m ← addAt c m row pos v
    unsortedLoopRef c row nnz cols vals n m (i + 1)

/-- `matrix.addToRowBinarySearch( row, matrix.getColumns( j ).begin() + lo, matrix.getEntries( j ).begin() + lo, n )`:
/repo/src/CRSMatrixView.hpp 427-450. -/
def addToRowBinarySearchOwn [Add V] (c : Cfg) (m : Crs V) (row j lo n : Nat) : R (Crs V) := do
  let q ← m.iteratorAt c j lo
  assertSource c.ix (fun i => m.columns.read (q + i)) n
  let nnz ← m.shape.sizeOfArray c row
  m.shape.checkBounds c row
  let _ ← m.shape.offsets.read row
  binaryLoopRef c row nnz (fun s i => s.columns.read (q + i)) (fun s i => s.entries.read (q + i)) n m 0 0

/-- The same with `addToRowLinearSearch`: /repo/src/CRSMatrixView.hpp 464-492. -/
def addToRowLinearSearchOwn [Add V] (c : Cfg) (m : Crs V) (row j lo n : Nat) : R (Crs V) := do
  let q ← m.iteratorAt c j lo
  assertSource c.ix (fun i => m.columns.read (q + i)) n
  let nnz ← m.shape.sizeOfArray c row
  m.shape.checkBounds c row
  let _ ← m.shape.offsets.read row
  linearLoopRef c row nnz (fun s i => s.columns.read (q + i)) (fun s i => s.entries.read (q + i)) n m 0 0

/-- The same with `addToRowBinarySearchUnsorted`: /repo/src/CRSMatrixView.hpp 505-524. -/
def addToRowBinarySearchUnsortedOwn [Add V] (c : Cfg) (m : Crs V) (row j lo n : Nat) : R (Crs V) := do
  let q ← m.iteratorAt c j lo
  let nnz ← m.shape.sizeOfArray c row
  m.shape.checkBounds c row
  let _ ← m.shape.offsets.read row
  unsortedLoopRef c row nnz (fun s i => s.columns.read (q + i)) (fun s i => s.entries.read (q + i)) n m 0

/-- The same with `addToRow`: /repo/src/CRSMatrixView.hpp 397-413. -/
def addToRowOwn [Add V] (c : Cfg) (m : Crs V) (row j lo n : Nat) : R (Crs V) := do
  let nnz ← m.shape.sizeOfArray c row
  if n < nnz / 4 ∧ 64 < nnz then addToRowBinarySearchOwn c m row j lo n else addToRowLinearSearchOwn c m row j lo n

end LvArray.Crs

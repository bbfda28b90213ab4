import Verif.ParallelCalls
import Verif.Spec.ParallelMatrix

/-!
# The member functions of `CRSMatrixView` as programs

The values of the store are the columns.  `c` is the configuration of the entries; only its checks matter here.
-/

namespace LvArray

open Spec

variable {V : Type}

/-- The store that threads with views of one `CRSMatrix` share: /repo/src/CRSMatrixView.hpp 573-574. -/
def Crs.shared (m : Crs V) : RowStore Nat V := { shape := m.shape, values := m.columns, entries := m.entries }

/-- What the owner of a matrix with `n` columns sees. -/
def RowStore.matrix (s : RowStore Nat V) (n : Nat) : Crs V := ⟨n, s.shape, s.values, s.entries⟩

namespace Parallel

open sortedArrayManipulation (less isSortedUnique)

/-- The call backs of a view: /repo/src/CRSMatrixView.hpp 579-706.  `nnz`, `cap` and `es` as in `Crs.target`. -/
def matCallbacks (c : Cfg) (nnz cap : Nat) (es : List V) : Callbacks Nat V where
  incrementSize := fun n => stopIf (c.boundsCheck && decide (cap < nnz + n))
  insert := fun pos =>
    match es[0]? with
    | some e => emplace onEntry c nnz pos e
    | none => .fail (.ub .outOfBounds)
  set := fun pos colPos =>
    match es[colPos]? with
    | some e => onEntry (.construct pos e)
    | none => .fail (.ub .outOfBounds)
  insertMany := fun nLeft colPos pos prevPos =>
    match es[colPos]? with
    | some e => do
      shiftUp onEntry c prevPos pos nLeft
      onEntry (.construct (pos + nLeft - 1) e)
    | none => .fail (.ub .outOfBounds)
  remove := fun pos => erase onEntry c nnz pos 1
  removeMany := fun nRemoved curPos nextPos => shiftDown onEntry c nextPos (curPos + 1) nRemoved

/-- `insertNonZero( row, col, entry )`: /repo/src/CRSMatrixView.hpp 277-279, /repo/src/ArrayOfSetsView.hpp 362-373. -/
def insertNonZero (c : Cfg) (col : Nat) (e : V) : Code Nat V Bool := do
  let nnz ← size
  let cap ← capacity
  base
  let r ← insertOne c (matCallbacks c nnz cap [e]) nnz col
  setSize (nnz + (if r then 1 else 0))
  .ret r

/-- `insertNonZeros( row, cols, entries, ncols )`: /repo/src/CRSMatrixView.hpp 292-297, /repo/src/ArrayOfSetsView.hpp 386-406. -/
def insertNonZeros (c : Cfg) (cols : List Nat) (es : List V) : Code Nat V Nat := do
  let nnz ← size
  let cap ← capacity
  base
  let r ← insertRange c (matCallbacks c nnz cap es) nnz cols
  setSize (nnz + r)
  .ret r

/-- `removeNonZero( row, col )`: /repo/src/CRSMatrixView.hpp 305-307, /repo/src/ArrayOfSetsView.hpp 416-427. -/
def removeNonZero (c : Cfg) (col : Nat) : Code Nat V Bool := do
  let nnz ← size
  let cap ← capacity
  base
  let r ← removeOne c (matCallbacks c nnz cap []) nnz col
  setSize (nnz - (if r then 1 else 0))
  .ret r

/-- `removeNonZeros( row, cols, ncols )`: /repo/src/CRSMatrixView.hpp 318-330, /repo/src/ArrayOfSetsView.hpp 440-460. -/
def removeNonZeros (c : Cfg) (cols : List Nat) : Code Nat V Nat := do
  let nnz ← size
  let cap ← capacity
  base
  let r ← removeRange c (matCallbacks c nnz cap []) nnz cols
  setSize (nnz - r)
  destroy onEntry (nnz - r) r
  .ret r

/-- `empty( row, col )`: /repo/src/SparsityPatternView.hpp 264-265, /repo/src/ArrayOfSetsView.hpp 191-200. -/
def isEmpty (c : Cfg) (col : Nat) : Code Nat V Bool := do
  let r ← contains c col
  .ret (!r)

/-- `getEntries( row )[ k ]`: /repo/src/CRSMatrixView.hpp 235-241. -/
def getEntry (c : Cfg) (k : Nat) : Code Nat V V := do
  checkBounds2 c k
  base
  entry k

/-- `getEntries( row )[ k ] = v`: /repo/src/CRSMatrixView.hpp 235-241. -/
def setEntry (c : Cfg) (k : Nat) (v : V) : Code Nat V Unit := do
  checkBounds2 c k
  base
  onEntry (.assign k v)

/-- The body of the loop of `setValues`: /repo/src/CRSMatrixView.hpp 350-355. -/
def fillRow (v : V) : Code Nat V Unit := do
  let nnz ← size
  base
  up nnz 0 fun i => onEntry (.assign i v)

/-! ### `addToRow` -/

/-- `*acc += val`: /repo/src/CRSMatrixView.hpp 49-51 (`RAJA::seq_atomic`): a read and a write. -/
def addAt [Add V] (pos : Nat) (v : V) : Code Nat V Unit := do
  let x ← entry pos
  onEntry (.assign pos (x + v))

/-- /repo/src/CRSMatrixView.hpp 444-445, 518-519. -/
def assertColumn (c : Cfg) (nnz pos col : Nat) : Code Nat V Unit :=
  if c.debug then do
    stopIf (decide (nnz ≤ pos))
    let x ← value pos
    stopIf (decide (x ≠ col))
  else .ret ()

/-- The loop of `addToRowBinarySearch`, /repo/src/CRSMatrixView.hpp 440-449. -/
def binaryLoop [Add V] (c : Cfg) (nnz : Nat) : Nat → List (Nat × V) → Code Nat V Unit
  | _, [] => .ret ()
  | curPos, (col, v) :: rest =>
    if nnz < curPos then .fail (.ub .outOfBounds)
    else do
      let k ← find c less curPos (nnz - curPos) col
      assertColumn c nnz (k + curPos) col
      addAt (k + curPos) v
      binaryLoop c nnz (k + curPos + 1) rest

/-- `addToRowBinarySearch`: /repo/src/CRSMatrixView.hpp 427-450. -/
def addToRowBinarySearch [Add V] (c : Cfg) (args : List (Nat × V)) : Code Nat V Unit := do
  stopIf (c.debug && !isSortedUnique less (args.map (·.1)))
  let nnz ← size
  checkRow
  base
  binaryLoop c nnz 0 args

/-- The inner loop of `addToRowLinearSearch`, /repo/src/CRSMatrixView.hpp 480-487. -/
def linearScan (curPos col : Nat) : Nat → Nat → Code Nat V Nat
  | 0, _ => .ret curPos
  | fuel + 1, j => do
    let x ← value j
    if x = col then .ret j else linearScan curPos col fuel (j + 1)

/-- /repo/src/CRSMatrixView.hpp 488. -/
def assertFound (c : Cfg) (pos col : Nat) : Code Nat V Unit :=
  if c.debug then do
    let x ← value pos
    stopIf (decide (x ≠ col))
  else .ret ()

/-- The loop of `addToRowLinearSearch`, /repo/src/CRSMatrixView.hpp 478-491. -/
def linearLoop [Add V] (c : Cfg) (nnz : Nat) : Nat → List (Nat × V) → Code Nat V Unit
  | _, [] => .ret ()
  | curPos, (col, v) :: rest => do
    let pos ← linearScan curPos col (nnz - curPos) curPos
    assertFound c pos col
    addAt pos v
    linearLoop c nnz (pos + 1) rest

/-- `addToRowLinearSearch`: /repo/src/CRSMatrixView.hpp 464-492. -/
def addToRowLinearSearch [Add V] (c : Cfg) (args : List (Nat × V)) : Code Nat V Unit := do
  stopIf (c.debug && !isSortedUnique less (args.map (·.1)))
  let nnz ← size
  checkRow
  base
  linearLoop c nnz 0 args

/-- The loop of `addToRowBinarySearchUnsorted`, /repo/src/CRSMatrixView.hpp 515-523. -/
def unsortedLoop [Add V] (c : Cfg) (nnz : Nat) : List (Nat × V) → Code Nat V Unit
  | [] => .ret ()
  | (col, v) :: rest => do
    let pos ← find c less 0 nnz col
    assertColumn c nnz pos col
    addAt pos v
    unsortedLoop c nnz rest

/-- `addToRowBinarySearchUnsorted`: /repo/src/CRSMatrixView.hpp 505-524. -/
def addToRowBinarySearchUnsorted [Add V] (c : Cfg) (args : List (Nat × V)) : Code Nat V Unit := do
  let nnz ← size
  checkRow
  base
  unsortedLoop c nnz args

/-- `addToRow`: /repo/src/CRSMatrixView.hpp 397-413. -/
def addToRow [Add V] (c : Cfg) (args : List (Nat × V)) : Code Nat V Unit := do
  let nnz ← size
  if args.length < nnz / 4 ∧ 64 < nnz then addToRowBinarySearch c args else addToRowLinearSearch c args

/-- A call on a row: /repo/src/CRSMatrixView.hpp 235-241, 277-330, 344-357, 397-524, /repo/src/SparsityPatternView.hpp 264-279. -/
def matCode [Add V] (c : Cfg) : MatCall V → Code Nat V (RowOut (Nat ⊕ V))
  | .insert k v => insertNonZero c k v >>= fun b => pure (.bool b)
  | .insertMany args => insertNonZeros c (args.map (·.1)) (args.map (·.2)) >>= fun n => pure (.num n)
  | .remove k => removeNonZero c k >>= fun b => pure (.bool b)
  | .removeMany ks => removeNonZeros c ks >>= fun n => pure (.num n)
  | .isEmpty k => isEmpty c k >>= fun b => pure (.bool b)
  | .size => size >>= fun n => pure (.num n)
  | .getColumn k => getValue c k >>= fun j => pure (.val (.inl j))
  | .getEntry k => getEntry c k >>= fun v => pure (.val (.inr v))
  | .setEntry k v => setEntry c k v >>= fun _ => pure .unit
  | .fill v => fillRow v >>= fun _ => pure .unit
  | .addToRow .auto args => addToRow c args >>= fun _ => pure .unit
  | .addToRow .binary args => addToRowBinarySearch c args >>= fun _ => pure .unit
  | .addToRow .linear args => addToRowLinearSearch c args >>= fun _ => pure .unit
  | .addToRow .unsorted args => addToRowBinarySearchUnsorted c args >>= fun _ => pure .unit

end Parallel

end LvArray

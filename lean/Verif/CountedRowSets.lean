import Verif.Counted

/-!
# The operations on a row of an `ArrayOfSets`, a `SparsityPattern` or a `CRSMatrix`, counting accesses

The same programs as in `AoS.lean` and `Sparse.lean`, in the counting monad of `Counted.lean`: every construction, destruction, move,
comparison, read or write of an element, column, entry, size or offset counts one; checks of arguments are free.
-/

namespace LvArray.Counted

open sortedArrayManipulation (CountedTarget)

namespace AoS

variable {T : Type}

/-- The call backs for set `i`, apart from `incrementSize` the empty ones of /repo/src/sortedArrayManipulation.hpp 71-158. -/
def target (inc : AoA T → Nat → R (AoA T)) (cinc : AoA T → Nat → Counted (AoA T)) (i : Nat) : CountedTarget (AoA T) T where
  plain := LvArray.AoS.target inc i
  incrementSize := cinc
  insert := fun a _ => pure a
  set := fun a _ _ => pure a
  insertMany := fun a _ _ _ _ => pure a
  remove := fun a _ => pure a
  removeMany := fun a _ _ _ => pure a

/-- `incrementSize` of the call backs of the owning class: /repo/src/ArrayOfSets.hpp 487-529. -/
def growing (c : Cfg) (i : Nat) (a : AoA T) (n : Nat) : Counted (AoA T) := AoA.dynamicallyGrowArray c a i n

/-- `incrementSize` of the call backs of the view: /repo/src/ArrayOfSetsView.hpp 470-512. -/
def checking (c : Cfg) (i : Nat) (a : AoA T) (n : Nat) : Counted (AoA T) := Shape.capacityCheck c a.shape i n >>= fun _ => pure a

variable [LT T] [DecidableLT T] [DecidableEq T]

/-- `insertIntoSet( i, value )`: /repo/src/ArrayOfSets.hpp 377-378, /repo/src/ArrayOfSetsView.hpp 362-373. -/
def insertIntoSet (c : Cfg) (inc : AoA T → Nat → R (AoA T)) (cinc : AoA T → Nat → Counted (AoA T)) (a : AoA T) (i : Nat) (v : T) :
    Counted (AoA T × Bool) := do
  free (a.shape.checkBounds c i)
  let n ← Shape.sizeOfArray c a.shape i
  let _ ← AoA.ptr a i
  let r ← sortedArrayManipulation.insertOne c (target inc cinc i) a n v
  let shape ← Shape.setSize c r.1.shape i (n + (if r.2 then 1 else 0))
  pure ({ r.1 with shape := shape }, r.2)

/-- `insertIntoSet( i, first, last )`: /repo/src/ArrayOfSets.hpp 391-393, /repo/src/ArrayOfSetsView.hpp 386-406. -/
def insertRangeIntoSet [Inhabited T] (c : Cfg) (inc : AoA T → Nat → R (AoA T)) (cinc : AoA T → Nat → Counted (AoA T)) (a : AoA T)
    (i : Nat) (vs : List T) : Counted (AoA T × Nat) := do
  free (a.shape.checkBounds c i)
  let n ← Shape.sizeOfArray c a.shape i
  let _ ← AoA.ptr a i
  let r ← sortedArrayManipulation.insertRange c (target inc cinc i) a n vs
  let shape ← Shape.setSize c r.1.shape i (n + r.2)
  pure ({ r.1 with shape := shape }, r.2)

/-- `removeFromSet( i, value )`: /repo/src/ArrayOfSets.hpp 399-401, /repo/src/ArrayOfSetsView.hpp 416-427. -/
def removeFromSet (c : Cfg) (a : AoA T) (i : Nat) (v : T) : Counted (AoA T × Bool) := do
  free (a.shape.checkBounds c i)
  let n ← Shape.sizeOfArray c a.shape i
  let _ ← AoA.ptr a i
  let r ← sortedArrayManipulation.removeOne c (target (LvArray.AoS.checking c i) (checking c i) i) a n v
  let shape ← Shape.setSize c r.1.shape i (n - (if r.2 then 1 else 0))
  pure ({ r.1 with shape := shape }, r.2)

/-- `removeFromSet( i, first, last )`: /repo/src/ArrayOfSets.hpp 414-417, /repo/src/ArrayOfSetsView.hpp 440-460. -/
def removeRangeFromSet (c : Cfg) (a : AoA T) (i : Nat) (vs : List T) : Counted (AoA T × Nat) := do
  free (a.shape.checkBounds c i)
  let n ← Shape.sizeOfArray c a.shape i
  let _ ← AoA.ptr a i
  let r ← sortedArrayManipulation.removeRange c (target (LvArray.AoS.checking c i) (checking c i) i) a n vs
  let shape ← Shape.setSize c r.1.shape i (n - r.2)
  pure ({ r.1 with shape := shape }, r.2)

/-- `contains( i, value )`: /repo/src/ArrayOfSetsView.hpp 191-200. -/
def contains (c : Cfg) (a : AoA T) (i : Nat) (v : T) : Counted Bool := do
  free (a.shape.checkBounds c i)
  let n ← Shape.sizeOfArray c a.shape i
  let p ← AoA.ptr a i
  sortedArrayManipulation.contains c LvArray.sortedArrayManipulation.less (fun k => a.values.read (p + k)) n v

omit [LT T] [DecidableLT T] [DecidableEq T]

/-- `clearSet( i )`: /repo/src/ArrayOfSets.hpp 423-431. -/
def clearSet [Inhabited T] (c : Cfg) (a : AoA T) (i : Nat) : Counted (AoA T) := do
  free (a.shape.checkBounds c i)
  let prevSize ← Shape.sizeOfArray c a.shape i
  let p ← AoA.ptr a i
  let values ← arrayManipulation.resize c a.values p prevSize 0 default
  let shape ← Shape.setSize c a.shape i 0
  pure { shape := shape, values := values }

end AoS

namespace Sp

/-- `incrementSize` of the call backs, /repo/src/SparsityPattern.hpp 420-431, with `dynamicallyGrowRow`, 388-390. -/
def growing (c : Cfg) (numCols row : Nat) (a : AoA Nat) (nToAdd : Nat) : Counted (AoA Nat) := do
  let nnz ← Shape.sizeOfArray c a.shape row
  let cap ← Shape.capacityOfArray c a.shape row
  AoA.growIf c (decide (cap < nnz + nToAdd)) a row (LvArray.Sp.clip numCols ((nnz + nToAdd) * 2))

/-- `insertNonZero( row, col )` of the owning class: /repo/src/SparsityPattern.hpp 325-326. -/
def insertNonZero (c : Cfg) (s : Sp) (row col : Nat) : Counted (Sp × Bool) := do
  let r ← AoS.insertIntoSet c (LvArray.Sp.growing c s.numCols row) (growing c s.numCols row) s.sets row col
  pure ({ s with sets := r.1 }, r.2)

/-- `insertNonZeros( row, first, last )` of the owning class: /repo/src/SparsityPattern.hpp 339-341. -/
def insertNonZeros (c : Cfg) (s : Sp) (row : Nat) (cols : List Nat) : Counted (Sp × Nat) := do
  let r ← AoS.insertRangeIntoSet c (LvArray.Sp.growing c s.numCols row) (growing c s.numCols row) s.sets row cols
  pure ({ s with sets := r.1 }, r.2)

/-- `removeNonZero( row, col )`: /repo/src/SparsityPatternView.hpp 353-359. -/
def removeNonZero (c : Cfg) (s : Sp) (row col : Nat) : Counted (Sp × Bool) := do
  free (s.sets.shape.checkBounds c row)
  free (LvArray.Sp.columnCheck c s.numCols [col])
  let r ← AoS.removeFromSet c s.sets row col
  pure ({ s with sets := r.1 }, r.2)

/-- `removeNonZeros( row, first, last )`: /repo/src/SparsityPatternView.hpp 371-385. -/
def removeNonZeros (c : Cfg) (s : Sp) (row : Nat) (cols : List Nat) : Counted (Sp × Nat) := do
  free (s.sets.shape.checkBounds c row)
  free (LvArray.Sp.columnCheck c s.numCols cols)
  let r ← AoS.removeRangeFromSet c s.sets row cols
  pure ({ s with sets := r.1 }, r.2)

end Sp

namespace Crs

variable {V : Type}

/-- `setCapacityOfArray( i, newCapacity, m_entries )`: /repo/src/ArrayOfArraysView.hpp 875-942. -/
def setCapacityOfArray (c : Cfg) (m : Crs V) (i newCapacity : Nat) : Counted (Crs V) := do
  free (m.shape.checkBounds c i)
  let cap ← Shape.capacityOfArray c m.shape i
  if newCapacity = cap then pure m
  else if cap < newCapacity then do
    let columns ← Shape.growRow c.ix m.shape i (newCapacity - cap) m.columns
    let entries ← Shape.growRow c m.shape i (newCapacity - cap) m.entries
    let shape ← Shape.updateOffsets c m.shape i (· + (newCapacity - cap))
    pure { m with shape := shape, columns := columns, entries := entries }
  else do
    let off ← op (m.shape.offsets.read i)
    let prevSize ← Shape.sizeOfArray c m.shape i
    let shape ← Shape.setSize c m.shape i (min prevSize newCapacity)
    let columns ← Shape.shrinkRow c.ix shape i (cap - newCapacity) off (min prevSize newCapacity) prevSize m.columns
    let entries ← Shape.shrinkRow c shape i (cap - newCapacity) off (min prevSize newCapacity) prevSize m.entries
    let shape ← Shape.updateOffsets c shape i (· - (cap - newCapacity))
    pure { m with shape := shape, columns := columns, entries := entries }

/-- `setRowCapacity`: /repo/src/CRSMatrix.hpp 334-339. -/
def setRowCapacity (c : Cfg) (m : Crs V) (row newCapacity : Nat) : Counted (Crs V) :=
  setCapacityOfArray c m row (LvArray.Sp.clip m.numCols newCapacity)

/-- The call backs for a row: /repo/src/CRSMatrix.hpp 508-609 (`owning`), /repo/src/CRSMatrixView.hpp 579-706.  The entries to insert
are read from an array of the caller, which is not counted. -/
def target (c : Cfg) (owning : Bool) (row nnz cap : Nat) (es : List V) : CountedTarget (Crs V) Nat where
  plain := LvArray.Crs.target c owning row nnz cap es
  incrementSize := fun m n =>
    if owning then
      if cap < nnz + n then setRowCapacity c m row (2 * (nnz + n)) else pure m
    else free (errorIf (c.boundsCheck && decide (cap < nnz + n))) >>= fun _ => pure m
  insert := fun m pos =>
    match es[0]? with
    | some e => do
      let entries ← arrayManipulation.emplace c m.entries (m.rowPtr row) nnz pos e
      pure { m with entries := entries }
    | none => free (.error (.ub .outOfBounds))
  set := fun m pos colPos =>
    match es[colPos]? with
    | some e => do
      let entries ← op (m.entries.construct c (m.rowPtr row + pos) e)
      pure { m with entries := entries }
    | none => free (.error (.ub .outOfBounds))
  insertMany := fun m nLeft colPos pos prevPos =>
    match es[colPos]? with
    | some e => do
      let entries ← arrayManipulation.shiftUp c m.entries (m.rowPtr row) prevPos pos nLeft
      let entries ← op (entries.construct c (m.rowPtr row + (pos + nLeft - 1)) e)
      pure { m with entries := entries }
    | none => free (.error (.ub .outOfBounds))
  remove := fun m pos => do
    let entries ← arrayManipulation.erase c m.entries (m.rowPtr row) nnz pos 1
    pure { m with entries := entries }
  removeMany := fun m nRemoved curPos nextPos => do
    let entries ← arrayManipulation.shiftDown c m.entries (m.rowPtr row) nextPos (curPos + 1) nRemoved
    pure { m with entries := entries }

/-- `insertNonZero( row, col, entry )`: /repo/src/CRSMatrix.hpp 377-378, /repo/src/CRSMatrixView.hpp 277-279,
/repo/src/ArrayOfSetsView.hpp 362-373. -/
def insertNonZero (c : Cfg) (owning : Bool) (m : Crs V) (row col : Nat) (e : V) : Counted (Crs V × Bool) := do
  let nnz ← Shape.sizeOfArray c m.shape row
  let cap ← Shape.capacityOfArray c m.shape row
  let _ ← op (m.shape.offsets.read row)
  let r ← sortedArrayManipulation.insertOne c.ix (target c owning row nnz cap [e]) m nnz col
  let shape ← Shape.setSize c r.1.shape row (nnz + (if r.2 then 1 else 0))
  pure ({ r.1 with shape := shape }, r.2)

/-- `insertNonZeros( row, cols, entries, ncols )`: /repo/src/CRSMatrix.hpp 391-396, /repo/src/CRSMatrixView.hpp 292-297,
/repo/src/ArrayOfSetsView.hpp 386-406. -/
def insertNonZeros (c : Cfg) (owning : Bool) (m : Crs V) (row : Nat) (cols : List Nat) (es : List V) : Counted (Crs V × Nat) := do
  let nnz ← Shape.sizeOfArray c m.shape row
  let cap ← Shape.capacityOfArray c m.shape row
  let _ ← op (m.shape.offsets.read row)
  let r ← sortedArrayManipulation.insertRange c.ix (target c owning row nnz cap es) m nnz cols
  let shape ← Shape.setSize c r.1.shape row (nnz + r.2)
  pure ({ r.1 with shape := shape }, r.2)

/-- `removeNonZero( row, col )`: /repo/src/CRSMatrixView.hpp 305-307, /repo/src/ArrayOfSetsView.hpp 416-427. -/
def removeNonZero (c : Cfg) (m : Crs V) (row col : Nat) : Counted (Crs V × Bool) := do
  let nnz ← Shape.sizeOfArray c m.shape row
  let cap ← Shape.capacityOfArray c m.shape row
  let _ ← op (m.shape.offsets.read row)
  let r ← sortedArrayManipulation.removeOne c.ix (target c false row nnz cap []) m nnz col
  let shape ← Shape.setSize c r.1.shape row (nnz - (if r.2 then 1 else 0))
  pure ({ r.1 with shape := shape }, r.2)

/-- `removeNonZeros( row, cols, ncols )`: /repo/src/CRSMatrixView.hpp 318-330, /repo/src/ArrayOfSetsView.hpp 440-460. -/
def removeNonZeros (c : Cfg) (m : Crs V) (row : Nat) (cols : List Nat) : Counted (Crs V × Nat) := do
  let nnz ← Shape.sizeOfArray c m.shape row
  let cap ← Shape.capacityOfArray c m.shape row
  let p ← op (m.shape.offsets.read row)
  let r ← sortedArrayManipulation.removeRange c.ix (target c false row nnz cap []) m nnz cols
  let shape ← Shape.setSize c r.1.shape row (nnz - r.2)
  let entries ← arrayManipulation.destroy c r.1.entries (p + nnz - r.2) r.2
  pure ({ r.1 with shape := shape, entries := entries }, r.2)

end Crs

end LvArray.Counted

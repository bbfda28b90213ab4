import Verif.Spec.Sparse
import Verif.Spec.RowViews

/-!
# Specification: views of a `CRSMatrix`

A `CRSMatrixView` shares the non zeros with the matrix it was taken from.  It goes on doing so until the matrix replaces the storage
it keeps them in, which it does only when the storage is too small.  A matrix has storage for the number of non zeros of each row,
for where the rows start, for the columns and for the entries; the last two are always equally large and replaced together, so the
specification has one number for both (`values`).  It says how many non zeros each row has been given room for, how much room each
storage has, and counts how often each has been replaced.
-/

namespace LvArray

variable {V : Type}

/-- The calls that a view offers as well: /repo/src/CRSMatrixView.hpp 205-563. -/
def CrsOp.onView : CrsOp V → Bool
  | .insert _ _ _ | .insertMany _ _ | .remove _ _ | .removeMany _ _ | .isEmpty _ _ | .getColumn _ _ | .getEntry _ _ | .numNonZeros
  | .setValues _ | .addToRow _ _ _ => true
  | _ => false

/-- The statements of a program with one `CRSMatrix` and any number of views of it. -/
inductive MatStmt (V : Type) where
  /-- a member function of the matrix -/
  | call (op : CrsOp V)
  /-- `view[ v ] = matrix.toView()` -/
  | take (v : Nat)
  /-- `view[ v ] = view[ u ]` -/
  | dup (v u : Nat)
  /-- a member function of a view -/
  | via (v : Nat) (op : CrsOp V)
  /-- `view[ v ].numRows()` -/
  | numRows (v : Nat)
  /-- `view[ v ].numColumns()` -/
  | numColumns (v : Nat)

namespace Spec

/-- The number of non zeros of every row. -/
def Matrix.counts (M : Matrix V) : List Nat := M.rows.map fun f => (columnsOf M.numCols f).length

/-- The number of non zeros of a row. -/
def Matrix.count (M : Matrix V) (i : Nat) : Nat := M.counts[i]?.getD 0

/-- How many non zeros the rows have room for after a call that turns `M` into `M'`.  No row is given room for more non zeros than
there are columns. -/
def capsAfter (M M' : Matrix V) (caps : List Nat) : CrsOp V → List Nat
  | .insert i _ _ | .insertMany i _ =>
    caps.modify i fun cap => if cap < M'.count i then min M.numCols (2 * M'.count i) else cap
  | .setRowCapacity i n => caps.modify i fun _ => min M.numCols n
  | .reserveNonZeros i n => caps.modify i fun cap => if cap < n then min M.numCols n else cap
  | .resize r _ k => caps.take r ++ List.replicate (r - caps.length) k
  | .resizeFromRowCapacities _ ks => ks
  | .compress => M.counts
  | _ => caps

/-- How much room a call needs in the storages, when it leaves the rows with room for `caps`. -/
def matNeeds (op : CrsOp V) (caps : List Nat) : Three Nat :=
  match op with
  | .resize r _ _ => ⟨r, r + 1, caps.sum⟩
  | .resizeFromRowCapacities _ ks => ⟨ks.length, ks.length + 1, ks.sum⟩
  | .reserveNonZerosTotal n => ⟨0, 0, n⟩
  | _ => ⟨0, 0, caps.sum⟩

/-- How much room a storage gets when it is replaced: what is needed if the call names the size of everything, twice that if it
concerns a row. -/
def matGrowth (op : CrsOp V) (need : Nat) : Nat :=
  match op with
  | .resize _ _ _ | .resizeFromRowCapacities _ _ | .reserveNonZerosTotal _ => need
  | _ => 2 * need

/-- The room after a call. -/
def matRoom (op : CrsOp V) (room need : Nat) : Nat := if tooSmall room need then matGrowth op need else room

/-- The matrix, how many non zeros its rows have room for, how much room its storages have, how often each was replaced, and the
views: how many rows and columns a view takes there to be, and how often each storage had been replaced when it was taken. -/
structure MatShelf (V : Type) where
  matrix : Matrix V
  caps : List Nat
  room : Three Nat
  replaced : Three Nat
  views : Nat → Option (Nat × Nat × Three Nat)

/-- `CRSMatrix( rows, columns, capacity )`, and no views. -/
def MatShelf.init (V : Type) (rows columns capacity : Nat) : MatShelf V :=
  { matrix := { numCols := columns, rows := List.replicate rows fun _ => none }
    caps := List.replicate rows capacity
    room := ⟨rows, rows + 1, rows * capacity⟩
    replaced := ⟨0, 0, 0⟩
    views := fun _ => none }

/-- A view is current: the matrix has as many rows and columns as when the view was taken, in the same storages. -/
def MatShelf.current (s : MatShelf V) (w : Nat × Nat × Three Nat) : Prop :=
  w = (s.matrix.rows.length, s.matrix.numCols, s.replaced)

instance (s : MatShelf V) (w : Nat × Nat × Three Nat) : Decidable (s.current w) := by unfold MatShelf.current; infer_instance

/-- One statement; `none` if it is not legal.  Through a view only what needs no more room is legal. -/
def matStep [Add V] (colMax : Nat) (s : MatShelf V) : MatStmt V → Option (MatShelf V × Option (AoSOut (Nat ⊕ V)))
  | .call op =>
    (crsStep colMax s.matrix op).map fun r =>
      let caps := capsAfter s.matrix r.1 s.caps op
      let n := matNeeds op caps
      ({ s with
          matrix := r.1
          caps := caps
          room := ⟨matRoom op s.room.sizes n.sizes, matRoom op s.room.offsets n.offsets, matRoom op s.room.values n.values⟩
          replaced := ⟨s.replaced.sizes + (tooSmall s.room.sizes n.sizes).toNat,
            s.replaced.offsets + (tooSmall s.room.offsets n.offsets).toNat,
            s.replaced.values + (tooSmall s.room.values n.values).toNat⟩ },
        some r.2)
  | .take v =>
    some ({ s with views := fun k => if k = v then some (s.matrix.rows.length, s.matrix.numCols, s.replaced) else s.views k }, none)
  | .dup v u => (s.views u).map fun w => ({ s with views := fun k => if k = v then some w else s.views k }, none)
  | .via v op =>
    (s.views v).bind fun w =>
      if s.current w ∧ op.onView = true then
        (crsStep colMax s.matrix op).bind fun r =>
          if capsAfter s.matrix r.1 s.caps op = s.caps then some ({ s with matrix := r.1 }, some r.2) else none
      else none
  | .numRows v => (s.views v).map fun w => (s, some (.num w.1))
  | .numColumns v => (s.views v).map fun w => (s, some (.num w.2.1))

/-- A program, and the answers it got. -/
def matRun [Add V] (colMax : Nat) : MatShelf V → List (MatStmt V) → Option (MatShelf V × List (AoSOut (Nat ⊕ V)))
  | s, [] => some (s, [])
  | s, st :: sts =>
    (matStep colMax s st).bind fun r => (matRun colMax r.1 sts).map fun q => (q.1, r.2.toList ++ q.2)

/-- Calls that are legal one after the other, keep the number of rows and columns, and never need more than the room there is. -/
def fitMatrix [Add V] (colMax : Nat) (room : Three Nat) : Matrix V → List Nat → List (CrsOp V) → Prop
  | _, _, [] => True
  | M, caps, op :: ops =>
    ∃ M' out, crsStep colMax M op = some (M', out) ∧ M'.numCols = M.numCols ∧ M'.rows.length = M.rows.length ∧
      (matNeeds op (capsAfter M M' caps op)).sizes ≤ room.sizes ∧ (matNeeds op (capsAfter M M' caps op)).offsets ≤ room.offsets ∧
      (matNeeds op (capsAfter M M' caps op)).values ≤ room.values ∧ fitMatrix colMax room M' (capsAfter M M' caps op) ops

/-- The row a call is about. -/
def rowOf : CrsOp V → Option Nat
  | .insert i _ _ | .insertMany i _ | .remove i _ | .removeMany i _ | .isEmpty i _ | .getColumn i _ | .getEntry i _
  | .addToRow _ i _ => some i
  | _ => none

/-- What a call through a view looks at was replaced: the storages were last replaced when the counters were `now`, the view
was taken when they were `seen`.  The bounds are looked at when they are checked, and the non zeros of a row if there are any and there
is something to look for. -/
def matGone (checks : Bool) (M : Matrix V) (seen now : Three Nat) : CrsOp V → Prop
  | .getColumn _ _ | .getEntry _ _ =>
    seen.offsets ≠ now.offsets ∨ seen.values ≠ now.values ∨ checks = true ∧ seen.sizes ≠ now.sizes
  | .insert i _ _ | .remove i _ | .isEmpty i _ =>
    seen.sizes ≠ now.sizes ∨ seen.offsets ≠ now.offsets ∨ seen.values ≠ now.values ∧ M.count i ≠ 0
  | .insertMany i args | .addToRow _ i args =>
    seen.sizes ≠ now.sizes ∨ seen.offsets ≠ now.offsets ∨ seen.values ≠ now.values ∧ M.count i ≠ 0 ∧ args ≠ []
  | .removeMany i ks =>
    seen.sizes ≠ now.sizes ∨ seen.offsets ≠ now.offsets ∨ seen.values ≠ now.values ∧ M.count i ≠ 0 ∧ ks ≠ []
  | _ => False

end Spec

end LvArray

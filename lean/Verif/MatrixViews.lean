import Verif.CrsStep
import Verif.RowViews
import Verif.Spec.MatrixViews

/-!
# Views of a `CRSMatrix` that outlive calls on it

A `CRSMatrixView` is a copy of the number of rows and columns and of the four buffers of the matrix, that is of four pointers
(/repo/src/CRSMatrixView.hpp 573-574, /repo/src/ArrayOfArraysView.hpp 957-975; `toView`, /repo/src/CRSMatrix.hpp 200-203,
/repo/src/CRSMatrixView.hpp 156-167).  It is not told when the matrix reallocates a buffer.  The model keeps the matrix with its four
buffers, the addresses they are at, and views with the addresses they know.
-/

namespace LvArray

variable {V : Type}

/-- Something for each of the four buffers. -/
structure Four (α : Type) where
  sizes : α
  offsets : α
  columns : α
  entries : α
  deriving DecidableEq, Repr

/-- A `CRSMatrix`, where its buffers are, an address that was never used, and views: each a number of rows, a number of columns and
four pointers.  Simplification: an address is never used again after it was released. -/
structure MatWorld (V : Type) where
  obj : Crs V
  addr : Four Nat
  fresh : Nat
  views : Nat → Option (Nat × Nat × Four Nat)

/-- The matrix as a view sees it. -/
def MatWorld.through (w : MatWorld V) (v : Nat × Nat × Four Nat) : Crs V :=
  { numCols := v.2.1
    shape :=
      { numArrays := v.1
        offsets := follow v.2.2.offsets w.addr.offsets w.obj.shape.offsets
        sizes := follow v.2.2.sizes w.addr.sizes w.obj.shape.sizes }
    columns := follow v.2.2.columns w.addr.columns w.obj.columns
    entries := follow v.2.2.entries w.addr.entries w.obj.entries }

/-- The matrix after a view has changed what it sees. -/
def MatWorld.putBack (w : MatWorld V) (v : Nat × Nat × Four Nat) (m : Crs V) : MatWorld V :=
  { w with
    obj :=
      { numCols := w.obj.numCols
        shape :=
          { numArrays := w.obj.shape.numArrays
            offsets := if v.2.2.offsets = w.addr.offsets then m.shape.offsets else w.obj.shape.offsets
            sizes := if v.2.2.sizes = w.addr.sizes then m.shape.sizes else w.obj.shape.sizes }
        columns := if v.2.2.columns = w.addr.columns then m.columns else w.obj.columns
        entries := if v.2.2.entries = w.addr.entries then m.entries else w.obj.entries } }

/-- A member function of the view (dispatch only).  The insertions are the ones that check the capacity instead of growing the row,
/repo/src/CRSMatrixView.hpp 277-297, 579-706; the other functions are inherited by the matrix and the same: 305-563.  A call that
views do not offer is not a program. -/
def Crs.viewStep [Add V] (c : Cfg) (m : Crs V) : CrsOp V → R (Crs V × AoSOut (Nat ⊕ V))
  | .insert i k v => do let r ← m.insertNonZero c false i k v; .ok (r.1, .bool r.2)
  | .insertMany i args => do
    let r ← m.insertNonZeros c false i (args.map (·.1)) (args.map (·.2)); .ok (r.1, .num r.2)
  | .setRowCapacity _ _ | .reserveNonZeros _ _ | .reserveNonZerosTotal _ | .resize _ _ _ | .resizeFromRowCapacities _ _ | .compress =>
    .error .abort
  | op => m.step c 0 op

/-- Look up a view; using an undeclared one is not a program. -/
def MatWorld.view (w : MatWorld V) (v : Nat) : R (Nat × Nat × Four Nat) :=
  match w.views v with
  | some h => .ok h
  | none => .error (.ub .dangling)

/-- One statement. -/
def MatWorld.step [Add V] (c : Cfg) (colMax : Nat) (w : MatWorld V) : MatStmt V → R (MatWorld V × Option (AoSOut (Nat ⊕ V)))
  | .call op => do
    let r ← w.obj.step c colMax op
    .ok ({ w with
            obj := r.1
            addr := ⟨movedTo w.obj.shape.sizes.cap r.1.shape.sizes.cap w.addr.sizes w.fresh,
              movedTo w.obj.shape.offsets.cap r.1.shape.offsets.cap w.addr.offsets w.fresh,
              movedTo w.obj.columns.cap r.1.columns.cap w.addr.columns w.fresh,
              movedTo w.obj.entries.cap r.1.entries.cap w.addr.entries w.fresh⟩
            fresh := w.fresh + 1 }, some r.2)
  | .take v => .ok ({ w with views := upd w.views v (some (w.obj.shape.numArrays, w.obj.numCols, w.addr)) }, none)
  | .dup v u => do
    let h ← w.view u
    .ok ({ w with views := upd w.views v (some h) }, none)
  | .via v op => do
    let h ← w.view v
    let r ← (w.through h).viewStep c op
    .ok (w.putBack h r.1, some r.2)
  | .numRows v => do
    let h ← w.view v
    .ok (w, some (.num (w.through h).shape.numArrays))
  | .numColumns v => do
    let h ← w.view v
    .ok (w, some (.num (w.through h).numCols))

/-- A program, and the answers it got. -/
def MatWorld.run [Add V] (c : Cfg) (colMax : Nat) : MatWorld V → List (MatStmt V) → R (MatWorld V × List (AoSOut (Nat ⊕ V)))
  | w, [] => .ok (w, [])
  | w, st :: sts => do
    let (w, x) ← w.step c colMax st
    let (w, xs) ← MatWorld.run c colMax w sts
    .ok (w, x.toList ++ xs)

/-- `CRSMatrix( rows, columns, capacity )`, /repo/src/CRSMatrix.hpp 58-65, and no views. -/
def MatWorld.construct (c : Cfg) (colMax rows columns capacity : Nat) : R (MatWorld V) := do
  let m ← Crs.mk' c colMax rows columns capacity
  .ok { obj := m, addr := ⟨0, 0, 0, 0⟩, fresh := 1, views := fun _ => none }

end LvArray

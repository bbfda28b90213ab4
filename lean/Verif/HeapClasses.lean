import Verif.Heap
import Verif.Spec.Containers
import Verif.ArrayND
import Verif.AoALemmas

/-!
# The six container classes as objects in a heap

The single object models taken apart into members and buffers.
-/

namespace LvArray

variable {T : Type}

/-- An `ArrayOfArraysView( true )`: null buffers, /repo/src/ArrayOfArraysView.hpp 608-613. -/
def AoA.null (T : Type) : AoA T := { shape := { numArrays := 0, offsets := .empty, sizes := .empty }, values := .empty }

namespace Sp

/-- Copy assignment: /repo/src/SparsityPattern.hpp 95-105. -/
def copyAssign (c : Cfg) (s src : Sp) : R Sp := do
  let sets ← s.sets.copyAssign c src.sets
  .ok { numCols := src.numCols, sets := sets }

/-- The same with both arguments the same object. -/
def selfAssign (c : Cfg) (s : Sp) : R Sp := do
  let sets ← s.sets.selfAssign c
  .ok { numCols := s.numCols, sets := sets }

/-- `free()`, the destructor: /repo/src/SparsityPattern.hpp 80-81. -/
def free (c : Cfg) (s : Sp) : R Sp := do
  let sets ← s.sets.free c
  .ok { numCols := s.numCols, sets := sets }

end Sp

/-- Copy assignment of a matrix to itself: `Crs.copyAssign` with both arguments the same object, as in `AoA.selfAssign`,
/repo/src/CRSMatrix.hpp 101-111, /repo/src/ArrayOfArraysView.hpp 828-865. -/
def Crs.selfAssign {V : Type} (c : Cfg) (m : Crs V) : R (Crs V) := do
  let entries ← if c.trivial then .ok m.entries else m.shape.destroyValues c 0 m.shape.numArrays m.entries
  let srcMaxOffset ← m.shape.offsets.read m.shape.numArrays
  let columns ← bufferManipulation.reserve c.ix m.columns srcMaxOffset srcMaxOffset
  let entries ← bufferManipulation.reserve c entries srcMaxOffset srcMaxOffset
  let columns ← m.shape.copyRows c.ix columns columns
  let entries ← m.shape.copyRows c entries entries
  .ok { m with columns := columns, entries := entries }

/-- One call on an `Array` (dispatch only, no code of its own in /repo); `T()` is `default`. -/
def ArrayN.step [Inhabited T] (c : Cfg) (a : ArrayN T) : BoxOp T → R (ArrayN T × Option T)
  | .resize dims => do let a ← a.resize c dims default; .ok (a, none)
  | .resizeDimension pairs => do let a ← a.resizeDimension c pairs default; .ok (a, none)
  | .resizeDefault n v => do let a ← a.resizeDefaultDimension c n v; .ok (a, none)
  | .clear => do let a ← a.clear c default; .ok (a, none)
  | .setResizeIndex k => do let a ← a.setSingleParameterResizeIndex k; .ok (a, none)
  | .reserve n => do let a ← a.reserve c n; .ok (a, none)
  | .set idx v => do let a ← a.set c idx v; .ok (a, none)
  | .get idx => do let v ← a.get c idx; .ok (a, some v)

/-- One call on an `ArrayOfArrays` (dispatch only, no code of its own in /repo). -/
def AoA.call [Inhabited T] (c : Cfg) (a : AoA T) : RowOp T → R (AoA T × Option T)
  | .op o => do let a ← a.step c o; .ok (a, none)
  | .get i j => do let v ← a.get c i j; .ok (a, some v)

namespace Heap

/-- `Array< T, NDIM, PERMUTATION >`: one buffer; /repo/src/Array.hpp.  The default move assignment of the view,
/repo/src/ArrayView.hpp 227-238, does not release the buffer of the destination.  The members of a destroyed array are
modelled as zero. -/
def array (T : Type) [Inhabited T] (perm : List Nat) : Class T Unit (BoxOp T) (Option T) where
  Obj := ArrayN T
  Fields := List Nat × List Nat × List Nat × Nat
  fields := fun a => (a.perm, a.dims, a.strides, a.resizeIndex)
  buffers := fun a => [.val a.buf]
  join := fun f bs =>
    { buf := (bs.getD 0 (.val .empty)).asVal, perm := f.1, dims := f.2.1, strides := f.2.2.1, resizeIndex := f.2.2.2 }
  construct := fun _ _ => .ok (.init T perm)
  blank := .init T perm
  call := ArrayN.step
  -- Array.hpp 173-185
  copyAssign := fun c a src => a.copyAssign c src default
  selfAssign := fun c a => a.copyAssign c a default
  -- Array.hpp 193-204
  beforeMove := fun _ a => .ok a
  movedFrom := fun _ a => a.movedFrom
  -- Array.hpp 164-165
  dtor := fun c a => do
    let b ← bufferManipulation.free c a.buf a.size
    .ok { a.movedFrom with buf := b }

section
variable [LT T] [DecidableLT T] [DecidableEq T]

/-- `SortedArray`: one buffer; /repo/src/SortedArray.hpp.  The default move assignment does not release the buffer of the
destination. -/
def sortedArray (T : Type) [LT T] [DecidableLT T] [DecidableEq T] [Inhabited T] : Class T Unit (SetOp T) (SetOut T) where
  Obj := SortedArr T
  Fields := Nat
  fields := fun a => a.size
  buffers := fun a => [.val a.buf]
  join := fun n bs => { buf := (bs.getD 0 (.val .empty)).asVal, size := n }
  -- SortedArray.hpp 66-68
  construct := fun _ _ => .ok (.init T none)
  blank := .init T none
  call := SortedArr.step
  -- SortedArray.hpp 100-106
  copyAssign := SortedArr.copyAssign
  selfAssign := fun c a => a.copyAssign c a
  -- SortedArray.hpp 114
  beforeMove := fun _ a => .ok a
  -- SortedArrayView.hpp 89-96, 118-125
  movedFrom := fun _ _ => { buf := .empty, size := 0 }
  -- SortedArray.hpp 89-91
  dtor := fun c a => do
    let b ← bufferManipulation.free c a.buf a.size
    .ok { buf := b, size := 0 }

end

/-- The parts of `ArrayOfArraysView`, /repo/src/ArrayOfArraysView.hpp 960-971. -/
def AoA.buffers (a : AoA T) : List (Store T) := [.idx a.shape.offsets, .idx a.shape.sizes, .val a.values]

/-- And back. -/
def AoA.join (numArrays : Nat) (bs : List (Store T)) : AoA T :=
  { shape := { numArrays := numArrays, offsets := (bs.getD 0 (.idx .empty)).asIdx, sizes := (bs.getD 1 (.idx .empty)).asIdx }
    values := (bs.getD 2 (.val .empty)).asVal }

/-- `ArrayOfArrays`: three buffers; /repo/src/ArrayOfArrays.hpp. -/
def arrayOfArrays (T : Type) [Inhabited T] : Class T (Nat × Nat) (RowOp T) (Option T) where
  Obj := AoA T
  Fields := Nat
  fields := fun a => a.shape.numArrays
  buffers := AoA.buffers
  join := AoA.join
  -- ArrayOfArrays.hpp 55-60
  construct := fun c args => AoA.mk' c args.1 args.2
  -- ArrayOfArrays.hpp 66-69
  blank := AoA.null T
  call := AoA.call
  copyAssign := AoA.copyAssign
  selfAssign := AoA.selfAssign
  -- ArrayOfArrays.hpp 184-190
  beforeMove := AoA.free
  -- ArrayOfArraysView.hpp 215-221, 253-262
  movedFrom := fun _ a => (AoA.moveConstruct a).2
  -- ArrayOfArrays.hpp 80-81
  dtor := AoA.free

/-- `ArrayOfSets`: the same members; /repo/src/ArrayOfSets.hpp 45-125. -/
def arrayOfSets (T : Type) [LT T] [DecidableLT T] [DecidableEq T] [Inhabited T] : Class T (Nat × Nat) (AoSOp T) (AoSOut T) where
  Obj := AoA T
  Fields := Nat
  fields := fun a => a.shape.numArrays
  buffers := AoA.buffers
  join := AoA.join
  construct := fun c args => AoA.mk' c args.1 args.2
  blank := AoA.null T
  call := AoS.step
  copyAssign := AoA.copyAssign
  selfAssign := AoA.selfAssign
  beforeMove := AoA.free
  movedFrom := fun _ a => (AoA.moveConstruct a).2
  dtor := AoA.free

/-- `SparsityPattern`: the members of `ArrayOfSets` and `m_numCols`; /repo/src/SparsityPattern.hpp 45-118.  Moves set
`m_numCols` of the source to zero, /repo/src/SparsityPatternView.hpp 103-106, 139-145. -/
def sparsityPattern (colMax : Nat) : Class Nat (Nat × Nat × Nat) SpOp (AoSOut Nat) where
  Obj := Sp
  Fields := Nat × Nat
  fields := fun s => (s.numCols, s.sets.shape.numArrays)
  buffers := fun s => AoA.buffers s.sets
  join := fun f bs => { numCols := f.1, sets := AoA.join f.2 bs }
  construct := fun c args => Sp.mk' c colMax args.1 args.2.1 args.2.2
  blank := { numCols := 0, sets := AoA.null Nat }
  call := fun c => Sp.step c colMax
  copyAssign := Sp.copyAssign
  selfAssign := Sp.selfAssign
  beforeMove := Sp.free
  movedFrom := fun _ s => { numCols := 0, sets := (AoA.moveConstruct s.sets).2 }
  dtor := Sp.free

/-- `CRSMatrix`: four buffers; /repo/src/CRSMatrix.hpp 58-124, the moves are the default ones of the view
(/repo/src/CRSMatrixView.hpp 115, 149) on top of those of `SparsityPatternView`. -/
def crsMatrix (V : Type) [Add V] (colMax : Nat) : Class V (Nat × Nat × Nat) (CrsOp V) (AoSOut (Nat ⊕ V)) where
  Obj := Crs V
  Fields := Nat × Nat
  fields := fun m => (m.numCols, m.shape.numArrays)
  buffers := fun m => [.idx m.shape.offsets, .idx m.shape.sizes, .idx m.columns, .val m.entries]
  join := fun f bs =>
    { numCols := f.1
      shape := { numArrays := f.2, offsets := (bs.getD 0 (.idx .empty)).asIdx, sizes := (bs.getD 1 (.idx .empty)).asIdx }
      columns := (bs.getD 2 (.idx .empty)).asIdx
      entries := (bs.getD 3 (.val .empty)).asVal }
  construct := fun c args => Crs.mk' c colMax args.1 args.2.1 args.2.2
  blank := { numCols := 0, shape := (AoA.null V).shape, columns := .empty, entries := .empty }
  call := fun c => Crs.step c colMax
  copyAssign := Crs.copyAssign
  selfAssign := Crs.selfAssign
  beforeMove := Crs.free
  movedFrom := fun _ _ => { numCols := 0, shape := (AoA.null V).shape, columns := .empty, entries := .empty }
  dtor := Crs.free

end Heap

end LvArray

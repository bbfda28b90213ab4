import Verif.Indexing

/-!
# Functions over slices

`sliceHelpers.hpp`, `memcpy.hpp`, the type-punning constructor of `ArrayView` and `ArrayView::setValues`.
Element storage is a function from addresses to values: slices handed to these functions refer to initialised
arrays (see `Props/ArrayResize.lean`).
-/

namespace LvArray

open indexing

variable {σ : Type} {T : Type}

/-- `forValuesInSlice( slice, f )`: /repo/src/sliceHelpers.hpp 28-54.  `f` receives the address of the element and
threads a state.  `n` is `NDIM`; at `NDIM = 0` the recursion has reached a value (28-32). -/
def forValuesInSlice (c : Cfg) (f : Int → σ → R σ) : Nat → Slice → σ → R σ
  | 0, s, st => f s.data st
  | n + 1, s, st => forUp (s.dims.headD 0) 0
      (fun i st => s.at_ c i >>= fun t => forValuesInSlice c f n t st) st

/-- `forValuesInSliceWithIndices( slice, f, indices... )`: /repo/src/sliceHelpers.hpp 65-96. -/
def forValuesInSliceWithIndices (c : Cfg) (f : Int → List Int → σ → R σ) : Nat → Slice → List Int → σ → R σ
  | 0, s, indices, st => f s.data indices st
  | n + 1, s, indices, st => forUp (s.dims.headD 0) 0
      (fun i st => s.at_ c i >>= fun t => forValuesInSliceWithIndices c f n t (indices ++ [(i : Int)]) st) st

/-- Storage of one array: address to value. -/
abbrev Store (T : Type) := Int → T

/-- Assignment through an address. -/
def Store.set (m : Store T) (a : Int) (v : T) : Store T := fun b => if b = a then v else m b

/-- `sumOverFirstDimension( src, dst )`: /repo/src/sliceHelpers.hpp 107-143.  For `NDIM = 1` (107-116) `dst` is a
reference, here a slice without dimensions.  The dimension comparison (132-137) is always compiled in because
`ARRAY_SLICE_CHECK_BOUNDS` is always defined (/repo/src/ArraySlice.hpp 55, 66).  `src` and `dst` do not overlap. -/
def sumOverFirstDimension [Add T] (c : Cfg) (src : Slice) (srcMem : Store T) (dst : Slice) (dstMem : Store T) :
    R (Store T) := do
  forUp (src.dims.length - 1) 1
    (fun i (_ : Unit) => errorIf (src.dims.getD i 0 != dst.dims.getD (i - 1) 0)) ()
  forValuesInSliceWithIndices c
    (fun addr idx m => do
      let a ← dst.call c idx.tail
      .ok (m.set a (m a + srcMem addr))) src.dims.length src [] dstMem

/-- `memcpy( dst, src )` on slices: /repo/src/memcpy.hpp 73-89.  `umpireInterface::copy` copies `size()` consecutive
elements; source and destination do not overlap. -/
def memcpySlices (dst : Slice) (dstMem : Store T) (src : Slice) (srcMem : Store T) : R (Store T) := do
  errorIf (dst.size != src.size)
  forUp dst.dims.length 0 (fun i (_ : Unit) => errorIf (dst.strides.getD i 0 != src.strides.getD i 0)) ()
  let d ← dst.dataIfContiguous
  let s ← src.dataIfContiguous
  .ok (fun a => if d ≤ a ∧ a < d + dst.size then srcMem (s + (a - d)) else dstMem a)

/-- `memcpy( dst, dstIndices, src, srcIndices )` on views: /repo/src/memcpy.hpp 152-175.  The moves between memory
spaces (165-166) are no-ops in a single memory space. -/
def memcpyViews (c : Cfg) (dst : Slice) (dstMem : Store T) (dstIndices : List Int)
    (src : Slice) (srcMem : Store T) (srcIndices : List Int) : R (Store T) := do
  let d ← dst.chain c dstIndices
  let s ← src.chain c srcIndices
  memcpySlices d dstMem s srcMem

/-- `convertSize< T, U >( numU )`: /repo/src/typeManipulation.hpp 466-497.  The `static_assert`s on the sizes are
preconditions of the theorems. -/
def convertSize (sizeT sizeU numU : Nat) : R Nat :=
  if sizeT ≤ sizeU then .ok (numU * sizeU / sizeT)
  else do
    let numUPerT := sizeT / sizeU
    errorIf (numU % numUPerT != 0)
    .ok (numU / numUPerT)

/-- The loop over the strides in the converting constructor, /repo/src/ArrayView.hpp 159-165. -/
def convertStrides (sizeT sizeU : Nat) (usd : Int) : Nat → List Nat → R (List Nat)
  | _, [] => .ok []
  | i, s :: ss => do
    let s' ← if (i : Int) ≠ usd then convertSize sizeT sizeU s else .ok s
    let ss' ← convertStrides sizeT sizeU usd (i + 1) ss
    .ok (s' :: ss')

/-- Construction of an `ArrayView< T >` from an `ArrayView< U >`: /repo/src/ArrayView.hpp 149-166.  Only the shape is
computed; the new view starts at the same byte.  (`USD` is a dimension of the view.) -/
def Slice.convert (sizeT sizeU : Nat) (v : Slice) : R Slice := do
  let d ← convertSize sizeT sizeU (v.dims.getD v.usd.toNat 0)
  let ss ← convertStrides sizeT sizeU v.usd 0 v.strides
  .ok { v with dims := v.dims.set v.usd.toNat d, strides := ss }

/-- `ArrayView::setValues( value )`: /repo/src/ArrayView.hpp 608-617 (the loop body is independent per `i`; any
execution order gives the same result, the model goes upwards). -/
def setValues (n : Nat) (v : T) (m : Store T) : R (Store T) :=
  forUp n 0 (fun i m => .ok (m.set i v)) m

/-- `ArrayView::setValues( rhs )`: /repo/src/ArrayView.hpp 643-658. -/
def setValuesFrom (lhs : Slice) (m : Store T) (rhs : Slice) (r : Store T) : R (Store T) := do
  forUp lhs.dims.length 0 (fun dim (_ : Unit) => do
    errorIf (lhs.dims.getD dim 0 != rhs.dims.getD dim 0)
    errorIf (lhs.strides.getD dim 0 != rhs.strides.getD dim 0)) ()
  forUp lhs.size 0 (fun i m => .ok (m.set i (r i))) m

end LvArray

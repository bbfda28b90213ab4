import Verif.BufferLemmas
import Verif.Indexing

/-!
# Multi-dimensional `Array`

The owning `Array< T, NDIM, PERMUTATION >`: shape changes, element access, copies.  The one dimensional operations
(`emplace_back`, ...) are in `Array1D.lean`.
-/

namespace LvArray

open indexing

variable {T : Type}

/-- `Array< T, NDIM, PERMUTATION, INDEX_TYPE, BUFFER_TYPE >`: members of /repo/src/ArrayView.hpp (`m_dims`,
`m_strides`, `m_dataBuffer`, `m_singleParameterResizeIndex`) plus the permutation template argument. -/
structure ArrayN (T : Type) where
  buf : Buf T
  perm : List Nat
  dims : List Nat
  strides : List Nat
  resizeIndex : Nat

namespace ArrayN

/-- Default constructor: /repo/src/Array.hpp 89-100, `m_dims` zeroed (/repo/src/ArrayView.hpp, `CArray` default). -/
def init (T : Type) (perm : List Nat) : ArrayN T :=
  { buf := Buf.empty, perm := perm, dims := List.replicate perm.length 0
    strides := calculateStrides perm (List.replicate perm.length 0), resizeIndex := 0 }

/-- The array as seen by its indexing functions. -/
def view (a : ArrayN T) : Slice :=
  { data := 0, dims := a.dims, strides := a.strides, usd := (typeManipulation.getStrideOneDimension a.perm : Nat) }

/-- `size()`: /repo/src/ArrayView.hpp 395-409. -/
def size (a : ArrayN T) : Nat := multiplyAll a.dims

/-- Reading `a( idx... )`: /repo/src/ArrayView.hpp 553-559. -/
def get (c : Cfg) (a : ArrayN T) (idx : List Int) : R T := do
  let k ← a.view.call c idx
  if k < 0 then .error (.ub .outOfBounds) else a.buf.read k.toNat

/-- Assigning `a( idx... ) = v`: /repo/src/ArrayView.hpp 553-559. -/
def set (c : Cfg) (a : ArrayN T) (idx : List Int) (v : T) : R (ArrayN T) := do
  let k ← a.view.call c idx
  if k < 0 then .error (.ub .outOfBounds)
  else
    let b ← a.buf.write c k.toNat v
    .ok { a with buf := b }

/-- `resize( numDims, dims* )`, `resize( dims... )`: /repo/src/Array.hpp 294-310, 319-338.  `v` is `T()`.  A list of the
wrong length is rejected at run time (298) or at compile time (321). -/
def resize (c : Cfg) (a : ArrayN T) (newDims : List Int) (v : T) : R (ArrayN T) := do
  errorIf (newDims.length != a.dims.length)
  errorIf (newDims.any (fun d => decide (d < 0)))
  let dims := newDims.map Int.toNat
  let b ← bufferManipulation.resize c a.buf a.size (multiplyAll dims) v
  .ok { a with buf := b, dims := dims, strides := calculateStrides a.perm dims }

/-- `resizeWithoutInitializationOrDestruction( newDims... )`: /repo/src/Array.hpp 347-383.  Only for trivially destructible
types (355, a `static_assert`, as is the number of sizes, 354).  The sizes are stored before each is checked; the error ends
the program, so the order does not matter. -/
def resizeWithoutInit (c : Cfg) (a : ArrayN T) (newDims : List Int) : R (ArrayN T) := do
  errorIf (newDims.length != a.dims.length)
  errorIf (newDims.any (fun d => decide (d < 0)))
  let dims := newDims.map Int.toNat
  let b ← bufferManipulation.reserve c a.buf a.size (multiplyAll dims)
  .ok { a with buf := b, dims := dims, strides := calculateStrides a.perm dims }

/-- `resizeDimension< INDICES... >( newDims... )`: /repo/src/Array.hpp 393-414. -/
def resizeDimension (c : Cfg) (a : ArrayN T) (pairs : List (Nat × Int)) (v : T) : R (ArrayN T) := do
  errorIf (pairs.any (fun q => decide (q.2 < 0)))
  let dims := pairs.foldl (fun ds q => ds.set q.1 q.2.toNat) a.dims
  let b ← bufferManipulation.resize c a.buf a.size (multiplyAll dims) v
  .ok { a with buf := b, dims := dims, strides := calculateStrides a.perm dims }

/-- `clear()`: /repo/src/Array.hpp 442-449. -/
def clear (c : Cfg) (a : ArrayN T) (v : T) : R (ArrayN T) := do
  let b ← bufferManipulation.resize c a.buf a.size 0 v
  let dims := a.dims.set a.resizeIndex 0
  .ok { a with buf := b, dims := dims, strides := calculateStrides a.perm dims }

/-- `setSingleParameterResizeIndex( index )`: /repo/src/Array.hpp 456-461. -/
def setSingleParameterResizeIndex (a : ArrayN T) (index : Int) : R (ArrayN T) := do
  errorIf (decide (index < 0))
  errorIf (decide (index ≥ a.dims.length))
  .ok { a with resizeIndex := index.toNat }

/-- `reserve( newCapacity )`: /repo/src/Array.hpp 475-476. -/
def reserve (c : Cfg) (a : ArrayN T) (n : Nat) : R (ArrayN T) := do
  let b ← bufferManipulation.reserve c a.buf a.size n
  .ok { a with buf := b }

/-- Growing branch of `resizeDefaultDimension`: /repo/src/Array.hpp 636-650 (loop from the last iteration down). -/
def growLoop (c : Cfg) (valuesToAdd valuesToShift numIterations : Nat) (v : T) (b : Buf T) : R (Buf T) :=
  forDown numIterations 0 (fun i b => do
    let valuesLeftToInsert := valuesToAdd * i
    let startOfShift := valuesToShift * i
    let b ← arrayManipulation.shiftUp c b startOfShift valuesToShift 0 valuesLeftToInsert
    let startOfNewValues := startOfShift + valuesToShift + valuesLeftToInsert
    arrayManipulation.constructRange c b startOfNewValues valuesToAdd (fun _ => v)) b

/-- Shrinking branch of `resizeDefaultDimension`: /repo/src/Array.hpp 663-678. -/
def shrinkLoop (c : Cfg) (valuesToRemove valuesToShift numIterations newSize : Nat) (b : Buf T) : R (Buf T) := do
  let b ← forUp (numIterations - 1) 1 (fun i b =>
    let amountToShift := valuesToRemove * i
    let startOfShift := valuesToShift * i
    arrayManipulation.shiftDown c b startOfShift (valuesToShift + amountToShift) amountToShift amountToShift) b
  arrayManipulation.destroy c b newSize (valuesToRemove * numIterations)

/-- `resizeDefaultDimension( newDimLength, args... )`, i.e. `resize( newdim )` and `resizeDefault( newdim, v )`:
/repo/src/Array.hpp 423-435, 590-680. -/
def resizeDefaultDimension (c : Cfg) (a : ArrayN T) (newDim : Int) (v : T) : R (ArrayN T) := do
  errorIf (decide (newDim < 0))
  let newLen := newDim.toNat
  let dims := a.dims.set a.resizeIndex newLen
  let a' : ArrayN T := { a with dims := dims, strides := calculateStrides a.perm dims }
  if a.dims.length = 1 ∨ a.perm.getD 0 0 = a.resizeIndex then
    let b ← bufferManipulation.resize c a.buf a.size a'.size v
    .ok { a' with buf := b }
  else
    let curDimLength := a.dims.getD a.resizeIndex 0
    let curDimStride := a.strides.getD a.resizeIndex 0
    let curSize := a.size
    let newSize := a'.size
    if newSize = curSize then .ok a'
    else if newLen > curDimLength then
      let b ← bufferManipulation.reserve c a.buf curSize newSize
      let valuesToAdd := curDimStride * (newLen - curDimLength)
      let valuesToShift := curDimStride * curDimLength
      let b ← growLoop c valuesToAdd valuesToShift ((newSize - curSize) / valuesToAdd) v b
      .ok { a' with buf := b }
    else
      let valuesToRemove := curDimStride * (curDimLength - newLen)
      let valuesToShift := curDimStride * newLen
      let b ← shrinkLoop c valuesToRemove valuesToShift ((curSize - newSize) / valuesToRemove) newSize a.buf
      .ok { a' with buf := b }

/-- Copy assignment (and copy construction, which assigns to a default constructed array):
/repo/src/Array.hpp 138-140, 173-185.  Both arrays have the same permutation type. -/
def copyAssign (c : Cfg) (a rhs : ArrayN T) (v : T) : R (ArrayN T) := do
  let b ← bufferManipulation.copyInto c a.buf a.size rhs.buf rhs.size v
  let a' := { a with buf := b, dims := rhs.dims, strides := rhs.strides }
  a'.setSingleParameterResizeIndex rhs.resizeIndex

/-- The source after being moved from: /repo/src/Array.hpp 150-158, 193-204 (the buffer's pointer is taken). -/
def movedFrom (a : ArrayN T) : ArrayN T :=
  { a with buf := Buf.empty, dims := a.dims.map (fun _ => 0), strides := a.strides.map (fun _ => 0) }

end ArrayN

end LvArray

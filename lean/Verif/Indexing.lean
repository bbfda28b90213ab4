import Verif.Mem
import Mathlib.Algebra.BigOperators.Group.List.Basic

/-!
# Multi-dimensional indexing

`indexing.hpp`, the index arithmetic of `ArrayView`, and `ArraySlice`.

Dimension sizes and strides are natural numbers (`resize` aborts on negative sizes, /repo/src/Array.hpp 304, 331);
indices are integers because negative ones can be passed.  The same functions with the fixed width of
`INDEX_TYPE` are in `Machine.lean`; C56 says when the two agree.
-/

namespace LvArray

namespace indexing

/-- /repo/src/indexing.hpp 36-68 (`ConditionalMultiply< isOne >::multiply`). -/
def condMul (isOne : Bool) (a b : Int) : Int := if isOne then a else a * b

/-- /repo/src/indexing.hpp 76-92.  (`SIZE = 0` does not exist in the code.) -/
def multiplyAll : List Nat → Nat
  | [] => 1
  | [x] => x
  | x :: y :: ys => x * multiplyAll (y :: ys)

/-- /repo/src/indexing.hpp 104-127; `usd` is the template parameter `USD`, decremented at each recursion.  The number
of indices equals the number of strides (`static_assert` in the callers); the last case does not occur. -/
def getLinearIndex (usd : Int) : List Nat → List Int → Int
  | s :: _, [i] => condMul (usd == 0) i s
  | s :: ss, i :: j :: js => condMul (usd == 0) i s + getLinearIndex (usd - 1) ss (j :: js)
  | _, _ => 0

/-- /repo/src/indexing.hpp 184-197: loop over the arguments with `curDim` and `invalid`. -/
def invalidIndices (dims : List Nat) (idx : List Int) : Bool :=
  (idx.foldl (fun (st : Nat × Bool) (index : Int) =>
    (st.1 + 1, st.2 || decide (index < 0) || decide (index ≥ ((dims.getD st.1 0 : Nat) : Int)))) (0, false)).2

/-- /repo/src/indexing.hpp 206-209. -/
def checkIndices (dims : List Nat) (idx : List Int) : R Unit := errorIf (invalidIndices dims idx)

/-- The `foldedStrides[ i ]` loop, /repo/src/indexing.hpp 226-233. -/
def foldedStride (perm dims : List Nat) (i : Nat) : Nat :=
  ((List.range perm.length).drop (i + 1)).foldl (fun acc j => acc * dims.getD (perm.getD j 0) 0) 1

/-- /repo/src/indexing.hpp 220-243.  The `CArray` the result is written to starts zeroed
(/repo/src/typeManipulation.hpp 533). -/
def calculateStrides (perm dims : List Nat) : List Nat :=
  (List.range perm.length).foldl (fun s i => s.set (perm.getD i 0) (foldedStride perm dims i))
    (List.replicate perm.length 0)

end indexing

namespace typeManipulation

/-- /repo/src/typeManipulation.hpp 399-412. -/
def contains (k : Nat) : List Nat → Bool
  | [] => false
  | i :: is => (k == i) || contains k is

/-- /repo/src/typeManipulation.hpp 419-421, 450-455: every dimension is contained. -/
def isValidPermutation (perm : List Nat) : Bool := (List.range perm.length).all (fun k => contains k perm)

/-- /repo/src/typeManipulation.hpp 437-444: the last entry of the permutation. -/
def getStrideOneDimension (perm : List Nat) : Nat := perm.getD (perm.length - 1) 0

end typeManipulation

open indexing

/-- `ArraySlice< T, NDIM, USD >`: `data` is the offset of `m_data` from the start of the allocation, `dims` and
`strides` the `NDIM` entries `m_dims`, `m_strides` point at.  /repo/src/ArraySlice.hpp 89-376. -/
structure Slice where
  data : Int
  dims : List Nat
  strides : List Nat
  usd : Int
  deriving DecidableEq, Repr

namespace Slice

/-- `size()`: /repo/src/ArraySlice.hpp 169-183. -/
def size (s : Slice) : Nat := multiplyAll s.dims

/-- `linearIndex( indices... )` relative to the start of the allocation; /repo/src/ArraySlice.hpp 240-249 together
with the address computed by `operator()`, 303-309. -/
def call (c : Cfg) (s : Slice) (idx : List Int) : R Int := do
  if c.boundsCheck then checkIndices s.dims idx
  .ok (s.data + getLinearIndex s.usd s.strides idx)

/-- `ARRAY_SLICE_CHECK_BOUNDS( index )`, /repo/src/ArraySlice.hpp 55-66. -/
def checkBounds (c : Cfg) (s : Slice) (i : Int) : R Unit :=
  if c.boundsCheck then errorIf (decide (i < 0) || decide (i ≥ (s.dims.headD 0 : Nat))) else .ok ()

/-- `operator[]` for `NDIM > 1`: /repo/src/ArraySlice.hpp 273-282.  The case `NDIM == 1` (289-296) computes the same
address and yields the element instead of a slice: here that is a slice without dimensions. -/
def at_ (c : Cfg) (s : Slice) (i : Int) : R Slice := do
  s.checkBounds c i
  .ok { data := s.data + condMul (s.usd == 0) i (s.strides.headD 0)
        dims := s.dims.tail, strides := s.strides.tail, usd := s.usd - 1 }

/-- Repeated `operator[]`: `s[ i0 ][ i1 ]...`; also `internal::slice`, /repo/src/memcpy.hpp 38-57. -/
def chain (c : Cfg) (s : Slice) : List Int → R Slice
  | [] => .ok s
  | i :: is => do (← s.at_ c i).chain c is

/-- `isContiguous()`: /repo/src/ArraySlice.hpp 215-233. -/
def isContiguous (s : Slice) : Bool :=
  if s.usd < 0 then false
  else if s.dims.length == 1 && s.usd == 0 then true
  else
    (List.range s.dims.length).foldl (fun (rval : Bool) (i : Nat) =>
      if (i : Int) == s.usd then rval
      else
        let prod := (List.range s.dims.length).foldl
          (fun (prod : Nat) (j : Nat) => if j != i then prod * s.dims.getD j 0 else prod) 1
        rval && decide (s.strides.getD i 0 ≤ prod)) true

/-- `dataIfContiguous()`: /repo/src/ArraySlice.hpp 316-324 (a slice with `USD < 0` is rejected at compile time,
which is represented as an abort). -/
def dataIfContiguous (s : Slice) : R Int := do
  errorIf (decide (s.usd < 0))
  errorIf (!s.isContiguous)
  .ok s.data

/-- `begin()`, `end()`: /repo/src/ArraySlice.hpp 330-340. -/
def beginEnd (s : Slice) : R (Int × Int) := do
  let b ← s.dataIfContiguous
  let e ← s.dataIfContiguous
  .ok (b, e + s.size)

end Slice

/-- The layout part of an `ArrayView`/`Array` with permutation `perm` and dimension sizes `dims`, as a slice that starts
at the beginning of the allocation (`toSlice`).  Strides: /repo/src/Array.hpp 92, 307, 335; `USD`:
/repo/src/typeManipulation.hpp 437-444.  `ArrayView::operator()`, `linearIndex`, `operator[]`, `size`
(/repo/src/ArrayView.hpp 395-409, 451-460, 510-559) are textually those of `ArraySlice`. -/
def layout (perm dims : List Nat) : Slice :=
  { data := 0, dims := dims, strides := calculateStrides perm dims,
    usd := (typeManipulation.getStrideOneDimension perm : Nat) }

end LvArray

import Verif.FaultRows
import Verif.AoACopy
import Verif.Spec.Constructors
/-!
# Copy assignments of `ArrayOfArrays` whose values throw

`throws i j` says that copying value `j` of inner array `i` of the source throws.
-/

namespace LvArray.FaultyRows

variable {T : Type}

/-- `uninitializedCopy( &src[ off ], &src[ off ] + n, &dst[ off ] )`, /repo/src/arrayManipulation.hpp 173-189, from value `j` on,
ended by the first copy constructor that throws. -/
def copyUntil (c : Cfg) (throws : Nat → Bool) (src : Buf T) (off : Nat) : Nat → Nat → Buf T → R (Buf T × Bool)
  | 0, _, b => .ok (b, false)
  | n + 1, j, b =>
    if throws j then .ok (b, true)
    else do
      let v ← src.read (off + j)
      let b ← b.construct c (off + j) v
      copyUntil c throws src off n (j + 1) b

/-- The loop of `setEqualTo` that copies the values, /repo/src/ArrayOfArraysView.hpp 855-862, from inner array `i` on. -/
def copyRowsUntil (c : Cfg) (throws : Nat → Nat → Bool) (s : Shape) (src : Buf T) : Nat → Nat → Buf T → R (Buf T × Bool)
  | 0, _, b => .ok (b, false)
  | n + 1, i, b => do
    let off ← s.offsets.read i
    let m ← s.sizeOfArray c i
    let r ← copyUntil c (throws i) src off m 0 b
    if r.2 then .ok r else copyRowsUntil c throws s src n (i + 1) r.1

/-- Copy assignment from another object: `operator=( ArrayOfArrays const & )`, /repo/src/ArrayOfArrays.hpp 168-177, and
`setEqualTo`, /repo/src/ArrayOfArraysView.hpp 828-865.  Offsets, sizes and the number of arrays are those of the source before the
first value is copied. -/
def copyAssign (c : Cfg) (throws : Nat → Nat → Bool) (a src : AoA T) : R (AoA T × Bool) := do
  let srcMaxOffset ← src.shape.offsets.read src.shape.numArrays
  let values ← a.shape.destroyValues c 0 a.shape.numArrays a.values
  let (maxOffset, shape) ← a.shape.copyShape c src.shape
  let values ← bufferManipulation.reserve c values maxOffset srcMaxOffset
  let r ← copyRowsUntil c throws shape src.values shape.numArrays 0 values
  .ok ({ shape := shape, values := r.1 }, r.2)

/-- `ArrayOfArrays( ArrayOfArrays const & src )`: /repo/src/ArrayOfArrays.hpp 66-69.  It constructs the base class and does not
delegate: if the copy throws, the destructor does not run, and the buffers are lost with the values in them. -/
def copied (c : Cfg) (throws : Nat → Nat → Bool) (src : AoA T) : Spec.Built (AoA T) :=
  match copyAssign c throws { shape := { numArrays := 0, offsets := .empty, sizes := .empty }, values := .empty } src with
  | .ok (a, false) => .made a
  | .ok (a, true) => .threw (a.values.lostLive + a.values.countL c a.values.cap) a.values.cap
  | .error .abort => .terminated
  | .error (.ub _) => .undefined

end LvArray.FaultyRows

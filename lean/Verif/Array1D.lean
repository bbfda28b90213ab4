import Verif.BufferLemmas
/-!
# One-dimensional `Array`

`Array< T, 1, ... >` of /repo/src/Array.hpp: a data buffer and one dimension length.  `INDEX_TYPE` arguments
are integers; the length itself is a natural number because no modelled operation makes it negative (the only
candidate, `pop_back` on an empty array, is undefined behaviour or an abort).
-/

namespace LvArray

variable {T : Type}

/-- `m_dataBuffer` and `m_dims[ 0 ]`. -/
structure Array1 (T : Type) where
  buf : Buf T
  size : Nat

/-- Default constructed array (/repo/src/Array.hpp 89-100) over a heap or a stack buffer of length `n`
(/repo/src/Array.hpp 717-750, `StackArray`). -/
def Array1.init (T : Type) : Option Nat → Array1 T
  | none => { buf := Buf.empty, size := 0 }
  | some n => { buf := Buf.stack n, size := 0 }

/-- A signed position argument: negative positions are rejected by the bounds checks of
/repo/src/bufferManipulation.hpp 170 and /repo/src/arrayManipulation.hpp 29-41 when those are compiled in and
lead outside the allocation otherwise. -/
def posArg (c : Cfg) (pos : Int) : R Nat :=
  if pos < 0 then (if c.boundsCheck then .error .abort else .error (.ub .outOfBounds)) else .ok pos.toNat

namespace Array1

/-- /repo/src/Array.hpp 493-499. -/
def emplaceBack (c : Cfg) (a : Array1 T) (v : T) : R (Array1 T) := do
  let b ← bufferManipulation.emplaceBack c a.buf a.size v
  .ok { buf := b, size := a.size + 1 }

/-- /repo/src/Array.hpp 509-515. -/
def emplace (c : Cfg) (a : Array1 T) (pos : Int) (v : T) : R (Array1 T) := do
  let pos ← posArg c pos
  let b ← bufferManipulation.emplace c a.buf a.size pos v
  .ok { buf := b, size := a.size + 1 }

/-- /repo/src/Array.hpp 526-529. -/
def insert [Inhabited T] (c : Cfg) (a : Array1 T) (pos : Int) (vs : List T) : R (Array1 T) := do
  let pos ← posArg c pos
  let b ← bufferManipulation.insert c a.buf a.size pos vs
  .ok { buf := b, size := a.size + vs.length }

/-- /repo/src/Array.hpp 536-542. -/
def popBack (c : Cfg) (a : Array1 T) : R (Array1 T) := do
  let b ← bufferManipulation.popBack c a.buf a.size
  .ok { buf := b, size := a.size - 1 }

/-- /repo/src/Array.hpp 550-556. -/
def erase (c : Cfg) (a : Array1 T) (pos : Int) : R (Array1 T) := do
  let pos ← posArg c pos
  let b ← bufferManipulation.erase c a.buf a.size pos
  .ok { buf := b, size := a.size - 1 }

/-- /repo/src/Array.hpp 423-435 and the one-dimensional branch of `resizeDefaultDimension`, 592-606.
`resize( n )` passes the value-initialised element. -/
def resizeDefault (c : Cfg) (a : Array1 T) (n : Int) (v : T) : R (Array1 T) := do
  errorIf (decide (n < 0))
  let b ← bufferManipulation.resize c a.buf a.size n.toNat v
  .ok { buf := b, size := n.toNat }

/-- `resizeWithoutInitializationOrDestruction( n )` of a one-dimensional array: /repo/src/Array.hpp 347-383. -/
def resizeWithoutInit (c : Cfg) (a : Array1 T) (n : Int) : R (Array1 T) := do
  errorIf (decide (n < 0))
  let b ← bufferManipulation.reserve c a.buf a.size n.toNat
  .ok { buf := b, size := n.toNat }

/-- /repo/src/Array.hpp 475-476. A negative capacity is never greater than the current one. -/
def reserve (c : Cfg) (a : Array1 T) (n : Int) : R (Array1 T) := do
  let b ← bufferManipulation.reserve c a.buf a.size n.toNat
  .ok { a with buf := b }

/-- /repo/src/Array.hpp 442-449. -/
def clear [Inhabited T] (c : Cfg) (a : Array1 T) : R (Array1 T) := do
  let b ← bufferManipulation.resize c a.buf a.size 0 default
  .ok { buf := b, size := 0 }

/-- `ARRAY_SLICE_CHECK_BOUNDS` /repo/src/ArraySlice.hpp 55-57. Without bounds checking nothing is checked
and an index outside `[0, size)` is undefined behaviour (reported by the cell access below for non-negative
indices). -/
def checkIndex (c : Cfg) (a : Array1 T) (i : Int) : R Nat :=
  if i < 0 ∨ (a.size : Int) ≤ i then
    (if c.boundsCheck then .error .abort
     else if i < 0 then .error (.ub .outOfBounds) else .ok i.toNat)
  else .ok i.toNat

/-- Reading `a[ i ]`: /repo/src/ArrayView.hpp 541-546. -/
def get (c : Cfg) (a : Array1 T) (i : Int) : R T := do
  let i ← a.checkIndex c i
  a.buf.read i

/-- `a[ i ] = v`: /repo/src/ArrayView.hpp 541-546. -/
def set (c : Cfg) (a : Array1 T) (i : Int) (v : T) : R (Array1 T) := do
  let i ← a.checkIndex c i
  let b ← a.buf.write c i v
  .ok { a with buf := b }

/-- Copy assignment, /repo/src/Array.hpp 173-185. Returns the new destination. -/
def copyAssign [Inhabited T] (c : Cfg) (a rhs : Array1 T) : R (Array1 T) := do
  let b ← bufferManipulation.copyInto c a.buf a.size rhs.buf rhs.size default
  .ok { buf := b, size := rhs.size }

/-- Copy construction, /repo/src/Array.hpp 138-140 (heap buffer). -/
def copy [Inhabited T] (c : Cfg) (rhs : Array1 T) : R (Array1 T) :=
  copyAssign c (Array1.init T none) rhs

/-- Destructor, /repo/src/Array.hpp 164-165. Returns the released buffer. -/
def dtor (c : Cfg) (a : Array1 T) : R (Buf T) :=
  bufferManipulation.free c a.buf a.size

/-- Move construction, /repo/src/Array.hpp 150-158 with /repo/src/MallocBuffer.hpp 74-80.
Returns the new array and the moved-from array. -/
def move (src : Array1 T) : Array1 T × Array1 T :=
  (src, { buf := Buf.empty, size := 0 })

/-- Move assignment, /repo/src/Array.hpp 193-204 with /repo/src/MallocBuffer.hpp 113-120 (heap buffers, two
distinct arrays).  Returns the destination, the moved-from source and the buffer the destination held before:
the code neither destroys its elements nor frees it nor stores it anywhere. -/
def moveAssign (dst src : Array1 T) : Array1 T × Array1 T × Buf T :=
  (src, { buf := Buf.empty, size := 0 }, dst.buf)

/-- Move assignment of an array to itself: `m_data = src.m_data; src.m_data = nullptr` on one object.
Returns the array and the buffer it held before. -/
def selfMoveAssign (a : Array1 T) : Array1 T × Buf T :=
  ({ buf := Buf.empty, size := 0 }, a.buf)

/-- Release build / bounds-checked `a.emplace_back( a[ i ] )`: the argument is a reference into the array's
own storage (/repo/src/bufferManipulation.hpp 297-303: the buffer is grown before the element is built). -/
def emplaceBackSelf (c : Cfg) (a : Array1 T) (i : Nat) : R (Array1 T) := do
  bufferManipulation.check c a.buf a.size
  let b ← bufferManipulation.dynamicReserve c a.buf a.size (a.size + 1)
  -- the reference still points to the old block if the buffer was reallocated
  let v ← if a.buf.cap < a.size + 1 then .error (.ub .dangling) else b.read i
  let b ← arrayManipulation.emplaceBack c b 0 a.size v
  .ok { buf := b, size := a.size + 1 }

/-- What a reference to slot `i`, taken when the slots were those of `old`, reads now that they are those of `b` and the block is
still the same.  Moving from an element of a trivial type copies it and destroying it does nothing (/repo/src/arrayManipulation.hpp
149-163), so a slot the model considers empty still holds the bytes it had: the functions that shift elements write a slot only
when an element is to stay there. -/
def _root_.LvArray.Buf.readStale (c : Cfg) (old b : Buf T) (i : Nat) : R T :=
  match b.cell i with
  | .raw => if c.trivial then old.read i else b.read i
  | _ => b.read i

/-- `a.emplace( pos, a[ i ] )`: the argument is read after the tail has been shifted
(/repo/src/bufferManipulation.hpp 315-324, /repo/src/arrayManipulation.hpp 474-487). -/
def emplaceSelf (c : Cfg) (a : Array1 T) (pos i : Nat) : R (Array1 T) := do
  bufferManipulation.checkInsert c a.buf a.size pos
  let b ← bufferManipulation.dynamicReserve c a.buf a.size (a.size + 1)
  arrayManipulation.assertNonNull c b 0
  arrayManipulation.checkInsertBounds c a.size pos
  let b ← arrayManipulation.shiftUp c b 0 a.size pos 1
  let v ← if a.buf.cap < a.size + 1 then .error (.ub .dangling) else Buf.readStale c a.buf b i
  let b ← b.construct c pos v
  .ok { buf := b, size := a.size + 1 }

/-- `a.resizeDefault( n, a[ i ] )`: destroy the tail, then copy the referenced value
(/repo/src/bufferManipulation.hpp 272-286, /repo/src/arrayManipulation.hpp 281-309). -/
def resizeDefaultSelf (c : Cfg) (a : Array1 T) (n i : Nat) : R (Array1 T) := do
  bufferManipulation.check c a.buf a.size
  let b ← bufferManipulation.reserve c a.buf a.size n
  let b ← arrayManipulation.destroy c b n (a.size - n)
  let b ← forUp (n - a.size) a.size (fun k b => do
    let v ← if a.buf.cap < n then .error (.ub .dangling) else b.read i
    b.construct c k v) b
  .ok { buf := b, size := n }

end Array1

/-- The operations of a one-dimensional array used in histories. -/
inductive VecOp (T : Type) where
  | emplaceBack (v : T)
  | emplace (pos : Int) (v : T)
  | insert (pos : Int) (vs : List T)
  | popBack
  | erase (pos : Int)
  | resize (n : Int)
  | resizeDefault (n : Int) (v : T)
  | reserve (n : Int)
  | clear
  | set (i : Int) (v : T)
  deriving DecidableEq, Repr

/-- One API call. -/
def Array1.step [Inhabited T] (c : Cfg) (a : Array1 T) : VecOp T → R (Array1 T)
  | .emplaceBack v => a.emplaceBack c v
  | .emplace pos v => a.emplace c pos v
  | .insert pos vs => a.insert c pos vs
  | .popBack => a.popBack c
  | .erase pos => a.erase c pos
  | .resize n => a.resizeDefault c n default
  | .resizeDefault n v => a.resizeDefault c n v
  | .reserve n => a.reserve c n
  | .clear => a.clear c
  | .set i v => a.set c i v

/-- A history of API calls. -/
def Array1.run [Inhabited T] (c : Cfg) : Array1 T → List (VecOp T) → R (Array1 T)
  | a, [] => .ok a
  | a, op :: ops => a.step c op >>= fun a => Array1.run c a ops

end LvArray

import Verif.Array1D

/-!
# One-dimensional arrays when memory runs out

`MallocBuffer::reallocate` passes `newCapacity * sizeof( T )` to `std::malloc` and does not look at the result (/repo/src/MallocBuffer.hpp
128-142).  The product is computed in `std::size_t`.  Here the block that was really obtained is kept apart from the capacity the buffer
records.  Sizes and capacities as such are natural numbers: whether they fit their type is the subject of `Machine.lean`.
-/

namespace LvArray

variable {T : Type}

/-- The allocator: `sizeof( T )`, the number of values of `std::size_t`, and whether `std::malloc` grants the request number `k` for `n` bytes. -/
structure Supply where
  elem : Nat
  word : Nat
  grants : Nat → Nat → Bool

/-- `MallocBuffer`: the block behind `m_data` (`cap` is the number of elements for which there is memory), `m_capacity`, whether `m_data` is
null, and how many requests were made so far. -/
structure Held (T : Type) where
  buf : Buf T
  claimed : Nat
  null : Bool
  asked : Nat

/-- Default construction, /repo/src/MallocBuffer.hpp 50-54. -/
def Held.init (T : Type) : Held T := { buf := Buf.empty, claimed := 0, null := true, asked := 0 }

namespace Held

/-- `LVARRAY_ASSERT( ptr != nullptr || nothing )`, in debug builds: /repo/src/arrayManipulation.hpp 151, 204, 206, 286, 425, 479, 507, 532. -/
def assertPtr (c : Cfg) (null nothing : Bool) : R Unit := errorIf (c.debug && null && !nothing)

/-- /repo/src/MallocBuffer.hpp 128-142 with `uninitializedMove`, /repo/src/arrayManipulation.hpp 200-212. -/
def reallocate (c : Cfg) (s : Supply) (h : Held T) (size newCap : Nat) : R (Held T) := do
  let bytes := newCap * s.elem % s.word
  let got := s.grants h.asked bytes
  let fresh : Buf T := { kind := .malloc, cap := if got then bytes / s.elem else 0, cell := fun _ => .raw,
                         lostLive := h.buf.lostLive, lostMoved := h.buf.lostMoved, moves := h.buf.moves }
  let overlap := min newCap size
  assertPtr c (!got) (overlap == 0)
  assertPtr c h.null (overlap == 0)
  let (nb, ob) ← forUp overlap 0 (moveAcross c) (fresh, h.buf)
  assertPtr c h.null (size == 0)
  let ob ← arrayManipulation.destroy c ob 0 size
  .ok { buf := { nb with lostLive := nb.lostLive + ob.countL c ob.cap, lostMoved := nb.lostMoved + ob.countM c ob.cap }
        claimed := newCap, null := !got, asked := h.asked + 1 }

/-- /repo/src/bufferManipulation.hpp 144-154. -/
def check (c : Cfg) (h : Held T) (size : Nat) : R Unit := errorIf (c.boundsCheck && decide (h.claimed < size))

/-- /repo/src/bufferManipulation.hpp 166-177. -/
def checkInsert (c : Cfg) (h : Held T) (size pos : Nat) : R Unit := do
  h.check c size
  errorIf (c.boundsCheck && decide (size < pos))

/-- /repo/src/bufferManipulation.hpp 230-238 with `setCapacity`, 214-218. -/
def reserve (c : Cfg) (s : Supply) (h : Held T) (size newCap : Nat) : R (Held T) := do
  h.check c size
  if h.claimed < newCap then h.reallocate c s size newCap else .ok h

/-- /repo/src/bufferManipulation.hpp 251-259. -/
def dynamicReserve (c : Cfg) (s : Supply) (h : Held T) (size newCap : Nat) : R (Held T) := do
  h.check c size
  if h.claimed < newCap then h.reallocate c s size (2 * newCap) else .ok h

/-- /repo/src/bufferManipulation.hpp 272-286, /repo/src/arrayManipulation.hpp 281-309. -/
def resize (c : Cfg) (s : Supply) (h : Held T) (size newSize : Nat) (v : T) : R (Held T) := do
  h.check c size
  let h ← h.reserve c s size newSize
  assertPtr c h.null (size == 0 && newSize == 0)
  let b ← arrayManipulation.resize c h.buf 0 size newSize v
  .ok { h with buf := b }

/-- /repo/src/bufferManipulation.hpp 297-303, /repo/src/arrayManipulation.hpp 421-429. -/
def emplaceBack (c : Cfg) (s : Supply) (h : Held T) (size : Nat) (v : T) : R (Held T) := do
  h.check c size
  let h ← h.dynamicReserve c s size (size + 1)
  assertPtr c h.null false
  let b ← h.buf.construct c size v
  .ok { h with buf := b }

/-- /repo/src/bufferManipulation.hpp 315-324, /repo/src/arrayManipulation.hpp 474-487. -/
def emplace (c : Cfg) (s : Supply) (h : Held T) (size pos : Nat) (v : T) : R (Held T) := do
  h.checkInsert c size pos
  let h ← h.dynamicReserve c s size (size + 1)
  assertPtr c h.null false
  arrayManipulation.checkInsertBounds c size pos
  let b ← arrayManipulation.shiftUp c h.buf 0 size pos 1
  let b ← b.construct c pos v
  .ok { h with buf := b }

/-- /repo/src/bufferManipulation.hpp 338-350, /repo/src/arrayManipulation.hpp 501-519. -/
def insert [Inhabited T] (c : Cfg) (s : Supply) (h : Held T) (size pos : Nat) (vs : List T) : R (Held T) := do
  h.checkInsert c size pos
  let h ← h.dynamicReserve c s size (size + vs.length)
  assertPtr c h.null false
  arrayManipulation.checkInsertBounds c size pos
  let b ← arrayManipulation.shiftUp c h.buf 0 size pos vs.length
  let b ← arrayManipulation.constructRange c b pos vs.length (fun i => vs.getD i default)
  .ok { h with buf := b }

/-- /repo/src/bufferManipulation.hpp 359-363, /repo/src/arrayManipulation.hpp 529-536. -/
def popBack (c : Cfg) (h : Held T) (size : Nat) : R (Held T) := do
  h.check c size
  assertPtr c h.null false
  errorIf (c.debug && size == 0)
  let b ← if size = 0 then .error (.ub .outOfBounds) else h.buf.destroyAt c (size - 1)
  .ok { h with buf := b }

/-- /repo/src/bufferManipulation.hpp 373-379, /repo/src/arrayManipulation.hpp 392-409. -/
def erase (c : Cfg) (h : Held T) (size pos : Nat) : R (Held T) := do
  h.check c size
  errorIf (decide (size ≤ pos))
  let b ← arrayManipulation.erase c h.buf 0 size pos 1
  .ok { h with buf := b }

end Held

/-- `Array< T, 1, ... >` on such a buffer. -/
structure Held1 (T : Type) where
  held : Held T
  size : Nat

/-- Default construction, /repo/src/Array.hpp 89-100. -/
def Held1.init (T : Type) : Held1 T := { held := Held.init T, size := 0 }

/-- One call: the lines of /repo/src/Array.hpp that `Array1.step` models (423-435, 442-449, 475-476, 493-556) and /repo/src/ArrayView.hpp
541-546. -/
def Held1.step [Inhabited T] (c : Cfg) (s : Supply) (a : Held1 T) : VecOp T → R (Held1 T)
  | .emplaceBack v => do
    let h ← a.held.emplaceBack c s a.size v
    .ok { held := h, size := a.size + 1 }
  | .emplace pos v => do
    let pos ← posArg c pos
    let h ← a.held.emplace c s a.size pos v
    .ok { held := h, size := a.size + 1 }
  | .insert pos vs => do
    let pos ← posArg c pos
    let h ← a.held.insert c s a.size pos vs
    .ok { held := h, size := a.size + vs.length }
  | .popBack => do
    let h ← a.held.popBack c a.size
    .ok { held := h, size := a.size - 1 }
  | .erase pos => do
    let pos ← posArg c pos
    let h ← a.held.erase c a.size pos
    .ok { held := h, size := a.size - 1 }
  | .resize n => do
    errorIf (decide (n < 0))
    let h ← a.held.resize c s a.size n.toNat default
    .ok { held := h, size := n.toNat }
  | .resizeDefault n v => do
    errorIf (decide (n < 0))
    let h ← a.held.resize c s a.size n.toNat v
    .ok { held := h, size := n.toNat }
  | .reserve n => do
    let h ← a.held.reserve c s a.size n.toNat
    .ok { a with held := h }
  | .clear => do
    let h ← a.held.resize c s a.size 0 default
    .ok { held := h, size := 0 }
  | .set i v => do
    let i ← ({ buf := a.held.buf, size := a.size } : Array1 T).checkIndex c i
    let b ← a.held.buf.write c i v
    .ok { a with held := { a.held with buf := b } }

/-- A history of calls. -/
def Held1.run [Inhabited T] (c : Cfg) (s : Supply) : Held1 T → List (VecOp T) → R (Held1 T)
  | a, [] => .ok a
  | a, op :: ops => a.step c s op >>= fun a => Held1.run c s a ops

/-- `a[ i ]`: /repo/src/ArrayView.hpp 541-546. -/
def Held1.get (c : Cfg) (a : Held1 T) (i : Int) : R T := do
  let i ← ({ buf := a.held.buf, size := a.size } : Array1 T).checkIndex c i
  a.held.buf.read i

/-- `capacity()`: /repo/src/ArrayView.hpp 435-437. -/
def Held1.capacity (a : Held1 T) : Nat := a.held.claimed

end LvArray

import Verif.SortedManip
import Verif.Array1D
/-!
# `SortedArray`

/repo/src/SortedArray.hpp and /repo/src/SortedArrayView.hpp: a buffer of values kept sorted and unique.
-/

namespace LvArray

variable {T : Type}

/-- `m_values` and `m_size`: /repo/src/SortedArrayView.hpp 285-300. -/
structure SortedArr (T : Type) where
  buf : Buf T
  size : Nat

namespace SortedArr

/-- Default construction, /repo/src/SortedArray.hpp 66-68, over a heap buffer or a stack buffer of length `n`. -/
def init (T : Type) : Option Nat → SortedArr T
  | none => { buf := Buf.empty, size := 0 }
  | some n => { buf := Buf.stack n, size := 0 }

/-- `CallBacks( m_values, size() )`, /repo/src/SortedArray.hpp 346-383: `incrementSize` grows the buffer and returns its
(possibly new) start; the other call backs are the empty ones of /repo/src/sortedArrayManipulation.hpp 71-158. -/
def target (c : Cfg) (size : Nat) : sortedArrayManipulation.Target (Buf T) T where
  buf := fun b => b
  ptr := fun _ => 0
  put := fun _ b => b
  incrementSize := fun b n => bufferManipulation.dynamicReserve c b size (size + n)
  insert := fun b _ => .ok b
  set := fun b _ _ => .ok b
  insertMany := fun b _ _ _ _ => .ok b
  remove := fun b _ => .ok b
  removeMany := fun b _ _ _ => .ok b

variable [LT T] [DecidableLT T] [DecidableEq T]

/-- `insert( value )`, /repo/src/SortedArray.hpp 222-230. -/
def insert (c : Cfg) (a : SortedArr T) (v : T) : R (SortedArr T × Bool) := do
  let r ← sortedArrayManipulation.insertOne c (target c a.size) a.buf a.size v
  .ok ({ buf := r.1, size := a.size + (if r.2 then 1 else 0) }, r.2)

/-- `insert( first, last )`, /repo/src/SortedArray.hpp 240-251. -/
def insertMany [Inhabited T] (c : Cfg) (a : SortedArr T) (vs : List T) : R (SortedArr T × Nat) := do
  let r ← sortedArrayManipulation.insertRange c (target c a.size) a.buf a.size vs
  .ok ({ buf := r.1, size := a.size + r.2 }, r.2)

/-- `remove( value )`, /repo/src/SortedArray.hpp 258-266. -/
def remove (c : Cfg) (a : SortedArr T) (v : T) : R (SortedArr T × Bool) := do
  let r ← sortedArrayManipulation.removeOne c (target c a.size) a.buf a.size v
  .ok ({ buf := r.1, size := a.size - (if r.2 then 1 else 0) }, r.2)

/-- `remove( first, last )`, /repo/src/SortedArray.hpp 276-287. -/
def removeMany (c : Cfg) (a : SortedArr T) (vs : List T) : R (SortedArr T × Nat) := do
  let r ← sortedArrayManipulation.removeRange c (target c a.size) a.buf a.size vs
  .ok ({ buf := r.1, size := a.size - r.2 }, r.2)

omit [LT T] [DecidableLT T] [DecidableEq T] in
/-- `clear()`, /repo/src/SortedArray.hpp 299-304. -/
def clear [Inhabited T] (c : Cfg) (a : SortedArr T) : R (SortedArr T) := do
  let b ← bufferManipulation.resize c a.buf a.size 0 default
  .ok { buf := b, size := 0 }

omit [LT T] [DecidableLT T] [DecidableEq T] in
/-- `reserve( n )`, /repo/src/SortedArray.hpp 311-313; a negative request is never above the capacity. -/
def reserve (c : Cfg) (a : SortedArr T) (n : Int) : R (SortedArr T) := do
  let b ← bufferManipulation.reserve c a.buf a.size n.toNat
  .ok { a with buf := b }

/-- `contains( value )` and `count( value )`, /repo/src/SortedArrayView.hpp 195-206. -/
def contains (c : Cfg) (a : SortedArr T) (v : T) : R Bool :=
  sortedArrayManipulation.contains c sortedArrayManipulation.less (fun i => a.buf.read i) a.size v

omit [LT T] [DecidableLT T] [DecidableEq T] in
/-- `operator[]` and `operator()`, /repo/src/SortedArrayView.hpp 219-235 with the bounds check of lines 25-34. -/
def get (c : Cfg) (a : SortedArr T) (i : Int) : R T := do
  errorIf (c.boundsCheck && (decide (i < 0) || decide ((a.size : Int) ≤ i)))
  if i < 0 then .error (.ub .outOfBounds) else a.buf.read i.toNat

omit [LT T] [DecidableLT T] [DecidableEq T] in
/-- Copy assignment, /repo/src/SortedArray.hpp 100-106. -/
def copyAssign [Inhabited T] (c : Cfg) (a src : SortedArr T) : R (SortedArr T) := do
  let b ← bufferManipulation.copyInto c a.buf a.size src.buf src.size default
  .ok { buf := b, size := src.size }

omit [LT T] [DecidableLT T] [DecidableEq T] in
/-- Move assignment between two arrays, /repo/src/SortedArray.hpp 114 with /repo/src/SortedArrayView.hpp 118-125 and
/repo/src/MallocBuffer.hpp 113-120.  Returns the destination, the moved-from source and the buffer the destination held
before. -/
def moveAssign (dst src : SortedArr T) : SortedArr T × SortedArr T × Buf T :=
  (src, { buf := Buf.empty, size := 0 }, dst.buf)

end SortedArr

/-- Calls on a `SortedArray`. -/
inductive SetOp (T : Type) where
  | insert (v : T)
  | insertMany (vs : List T)
  | remove (v : T)
  | removeMany (vs : List T)
  | contains (v : T)
  | get (i : Int)
  | reserve (n : Int)
  | clear
  deriving Repr

/-- What a call returns. -/
inductive SetOut (T : Type) where
  | unit
  | bool (b : Bool)
  | num (n : Nat)
  | val (v : T)
  deriving Repr, DecidableEq

variable [LT T] [DecidableLT T] [DecidableEq T]

/-- One call (dispatch only, no code of its own in /repo). -/
def SortedArr.step [Inhabited T] (c : Cfg) (a : SortedArr T) : SetOp T → R (SortedArr T × SetOut T)
  | .insert v => do let r ← a.insert c v; .ok (r.1, .bool r.2)
  | .insertMany vs => do let r ← a.insertMany c vs; .ok (r.1, .num r.2)
  | .remove v => do let r ← a.remove c v; .ok (r.1, .bool r.2)
  | .removeMany vs => do let r ← a.removeMany c vs; .ok (r.1, .num r.2)
  | .contains v => do let r ← a.contains c v; .ok (a, .bool r)
  | .get i => do let r ← a.get c i; .ok (a, .val r)
  | .reserve n => do let a ← a.reserve c n; .ok (a, .unit)
  | .clear => do let a ← a.clear c; .ok (a, .unit)

/-- A history of calls with the values they return. -/
def SortedArr.run [Inhabited T] (c : Cfg) : SortedArr T → List (SetOp T) → R (SortedArr T × List (SetOut T))
  | a, [] => .ok (a, [])
  | a, op :: ops => do
    let r ← a.step c op
    let r' ← SortedArr.run c r.1 ops
    .ok (r'.1, r.2 :: r'.2)

end LvArray

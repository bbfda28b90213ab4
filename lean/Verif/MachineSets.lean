import Verif.Machine
import Verif.SortedArray

/-!
# `SortedArray` with machine integers

The operations of `Verif/SortedArray.lean` once more, with the number of values kept in the index type `t` that was chosen
for the array (see `Verif/Machine.lean`).  The functions of /repo/src/sortedArrayManipulation.hpp take and return
`std::ptrdiff_t`; only the members of the array and the parameters of its functions are an `INDEX_TYPE`.
-/

namespace LvArray

open IntTy

variable {T : Type}

/-- `m_values` and `m_size`: /repo/src/SortedArrayView.hpp 285-300; the size is a value of the index type, possibly a negative
one. -/
structure SetM (T : Type) where
  buf : Buf T
  size : Int

/-- `dynamicReserve`: /repo/src/bufferManipulation.hpp 251-259, its parameters are `std::ptrdiff_t`: `2 * newCapacity` may
overflow, and a negative `newCapacity` is never above the capacity. -/
def bufferManipulation.dynamicReserveM (c : Cfg) (b : Buf T) (size : Nat) (newCap : Int) : R (Buf T) := do
  check c b size
  if (b.cap : Int) < newCap then do
    let twice ← mul int ptrdiff 2 newCap
    setCapacity c b size twice.toNat
  else .ok b

namespace SetM

/-- The same array with its size in the index type.  Applied to the empty array of `SortedArray.lean`, which has a heap buffer or
a stack buffer, it is the array after default construction: /repo/src/SortedArray.hpp 66-68. -/
def of (a : SortedArr T) : SetM T := { buf := a.buf, size := a.size }

/-- `size()` passed as the `std::ptrdiff_t size` of the functions of /repo/src/sortedArrayManipulation.hpp and
/repo/src/bufferManipulation.hpp.  A build with debug assertions rejects a negative one (`isPositive`,
/repo/src/sortedArrayManipulation.hpp 417, 479, 520, 626, 683).  Simplified: what the functions do with a negative one otherwise
is not followed further but counted as undefined. -/
def sizeArg (c : Cfg) (a : SetM T) : R Nat :=
  if ptrdiff.cast a.size < 0 then (if c.debug then .error .abort else .error (.ub .overflow))
  else .ok (ptrdiff.cast a.size).toNat

/-- `CallBacks( m_values, size() )`, /repo/src/SortedArray.hpp 346-383: the parameter `nToAdd` of `incrementSize` is an
`INDEX_TYPE`, the sum `m_size + nToAdd` is computed in the type of the operands and passed as a `std::ptrdiff_t`. -/
def target (t : IntTy) (c : Cfg) (size : Int) (n : Nat) : sortedArrayManipulation.Target (Buf T) T :=
  { SortedArr.target c n with
    incrementSize := fun b nToAdd => do
      let sum ← add t t size (t.cast nToAdd)
      bufferManipulation.dynamicReserveM c b n (ptrdiff.cast sum) }

variable [LT T] [DecidableLT T] [DecidableEq T]

/-- `insert( value )`, /repo/src/SortedArray.hpp 222-230: `m_size += success`, a `bool` is promoted to `int`. -/
def insert (t : IntTy) (c : Cfg) (a : SetM T) (v : T) : R (SetM T × Bool) := do
  let n ← a.sizeArg c
  let r ← sortedArrayManipulation.insertOne c (target t c a.size n) a.buf n v
  let z ← add t int a.size (if r.2 then 1 else 0)
  .ok ({ buf := r.1, size := t.cast z }, r.2)

/-- `insert( first, last )`, /repo/src/SortedArray.hpp 240-251: the number of inserted values is converted to `INDEX_TYPE`. -/
def insertMany [Inhabited T] (t : IntTy) (c : Cfg) (a : SetM T) (vs : List T) : R (SetM T × Int) := do
  let n ← a.sizeArg c
  let r ← sortedArrayManipulation.insertRange c (target t c a.size n) a.buf n vs
  let nInserted := t.cast r.2
  let z ← t.addTo a.size nInserted
  .ok ({ buf := r.1, size := z }, nInserted)

/-- `remove( value )`, /repo/src/SortedArray.hpp 258-266: `m_size -= success`. -/
def remove (t : IntTy) (c : Cfg) (a : SetM T) (v : T) : R (SetM T × Bool) := do
  let n ← a.sizeArg c
  let r ← sortedArrayManipulation.removeOne c (target t c a.size n) a.buf n v
  let z ← sub t int a.size (if r.2 then 1 else 0)
  .ok ({ buf := r.1, size := t.cast z }, r.2)

/-- `remove( first, last )`, /repo/src/SortedArray.hpp 276-287. -/
def removeMany (t : IntTy) (c : Cfg) (a : SetM T) (vs : List T) : R (SetM T × Int) := do
  let n ← a.sizeArg c
  let r ← sortedArrayManipulation.removeRange c (target t c a.size n) a.buf n vs
  let nRemoved := t.cast r.2
  let z ← t.subTo a.size nRemoved
  .ok ({ buf := r.1, size := z }, nRemoved)

omit [LT T] [DecidableLT T] [DecidableEq T] in
/-- `clear()`, /repo/src/SortedArray.hpp 299-304. -/
def clear [Inhabited T] (c : Cfg) (a : SetM T) : R (SetM T) := do
  let n ← a.sizeArg c
  let b ← bufferManipulation.resize c a.buf n 0 default
  .ok { buf := b, size := 0 }

omit [LT T] [DecidableLT T] [DecidableEq T] in
/-- `reserve( n )`, /repo/src/SortedArray.hpp 311-313: the argument is converted to `INDEX_TYPE` and then to
`std::ptrdiff_t`; a negative request is never above the capacity. -/
def reserve (t : IntTy) (c : Cfg) (a : SetM T) (n : Int) : R (SetM T) := do
  let k ← a.sizeArg c
  let b ← bufferManipulation.reserve c a.buf k (ptrdiff.cast (t.cast n)).toNat
  .ok { a with buf := b }

/-- `contains( value )` and `count( value )`, /repo/src/SortedArrayView.hpp 195-206. -/
def contains (c : Cfg) (a : SetM T) (v : T) : R Bool := do
  let n ← a.sizeArg c
  sortedArrayManipulation.contains c sortedArrayManipulation.less (fun i => a.buf.read i) n v

omit [LT T] [DecidableLT T] [DecidableEq T] in
/-- `operator[]` and `operator()`, /repo/src/SortedArrayView.hpp 219-235 with the bounds check of lines 25-34: the argument is
converted to `INDEX_TYPE`, and to `std::ptrdiff_t` by the buffer. -/
def get (t : IntTy) (c : Cfg) (a : SetM T) (i : Int) : R T := do
  errorIf (c.boundsCheck && (decide (t.cast i < 0) || decide (a.size ≤ t.cast i)))
  if ptrdiff.cast (t.cast i) < 0 then .error (.ub .outOfBounds) else a.buf.read (ptrdiff.cast (t.cast i)).toNat

/-- One call (dispatch only, no code of its own in /repo).  A number that a call returns is listed without its sign; see
`insertMany` and `removeMany` for the number itself. -/
def step [Inhabited T] (t : IntTy) (c : Cfg) (a : SetM T) : SetOp T → R (SetM T × SetOut T)
  | .insert v => do let r ← a.insert t c v; .ok (r.1, .bool r.2)
  | .insertMany vs => do let r ← a.insertMany t c vs; .ok (r.1, .num r.2.toNat)
  | .remove v => do let r ← a.remove t c v; .ok (r.1, .bool r.2)
  | .removeMany vs => do let r ← a.removeMany t c vs; .ok (r.1, .num r.2.toNat)
  | .contains v => do let r ← a.contains c v; .ok (a, .bool r)
  | .get i => do let r ← a.get t c i; .ok (a, .val r)
  | .reserve n => do let a ← a.reserve t c n; .ok (a, .unit)
  | .clear => do let a ← a.clear c; .ok (a, .unit)

/-- A history of calls with the values they return. -/
def run [Inhabited T] (t : IntTy) (c : Cfg) : SetM T → List (SetOp T) → R (SetM T × List (SetOut T))
  | a, [] => .ok (a, [])
  | a, op :: ops => do
    let r ← a.step t c op
    let r' ← run t c r.1 ops
    .ok (r'.1, r.2 :: r'.2)

end SetM

end LvArray

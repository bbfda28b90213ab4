import Verif.AoALemmas
/-!
# Calls on an `ArrayOfArrays` whose values throw

The calls that construct values in an inner array, once more, with the state in which they leave the object if the constructor of a
value throws and the caller goes on using the object.  The result says whether the call threw.  Simplifications: those of
`Faults.lean`; the index of a constructor counts from the beginning of the call.
-/

namespace LvArray.FaultyRows

variable {T : Type}

/-- `for i < n: new ( ptr + p + i ) T( v i )`, the construction loops of /repo/src/arrayManipulation.hpp 427, 452-458 and 486,
ended by the first constructor that throws.  `i` counts the constructors. -/
def constructUntil (c : Cfg) (throws : Nat → Bool) (p : Nat) (v : Nat → T) : Nat → Nat → Buf T → R (Buf T × Bool)
  | 0, _, b => .ok (b, false)
  | n + 1, i, b =>
    if throws i then .ok (b, true)
    else b.construct c (p + i) (v i) >>= constructUntil c throws p v n (i + 1)

/-- What follows the constructors: the size is set if none threw. -/
def finish (c : Cfg) (a : AoA T) (i n : Nat) (r : Buf T × Bool) : R (AoA T × Bool) :=
  if r.2 then .ok ({ a with values := r.1 }, true)
  else a.shape.setSize c i n >>= fun shape => .ok ({ shape := shape, values := r.1 }, false)

/-- `emplaceBack`: /repo/src/ArrayOfArrays.hpp 347-352, /repo/src/ArrayOfArraysView.hpp 439-449,
/repo/src/arrayManipulation.hpp 421-429. -/
def emplaceBack (c : Cfg) (throws : Nat → Bool) (a : AoA T) (i : Nat) (v : T) : R (AoA T × Bool) := do
  let a ← a.dynamicallyGrowArray c i 1
  a.shape.checkBounds c i
  a.shape.capacityCheck c i 1
  let p ← a.ptr i
  let n ← a.shape.sizeOfArray c i
  arrayManipulation.assertNonNull c a.values p
  let r ← constructUntil c throws (p + n) (fun _ => v) 1 0 a.values
  finish c a i (n + 1) r

/-- `appendToArray`: /repo/src/ArrayOfArrays.hpp 361-367, /repo/src/ArrayOfArraysView.hpp 482-492,
/repo/src/arrayManipulation.hpp 443-459.  The check of the capacity behind the constructors is not reached if one throws. -/
def appendToArray [Inhabited T] (c : Cfg) (throws : Nat → Bool) (a : AoA T) (i : Nat) (vs : List T) : R (AoA T × Bool) := do
  let a ← a.dynamicallyGrowArray c i vs.length
  a.shape.checkBounds c i
  let p ← a.ptr i
  let n ← a.shape.sizeOfArray c i
  let r ← constructUntil c throws (p + n) (fun k => vs.getD k default) vs.length 0 a.values
  if r.2 then .ok ({ a with values := r.1 }, true)
  else do
    a.shape.capacityCheck c i vs.length
    finish c a i (n + vs.length) r

/-- `emplace`: /repo/src/ArrayOfArrays.hpp 378-383, /repo/src/ArrayOfArraysView.hpp 503-513, /repo/src/arrayManipulation.hpp
474-487. -/
def emplace (c : Cfg) (throws : Nat → Bool) (a : AoA T) (i j : Nat) (v : T) : R (AoA T × Bool) := do
  let a ← a.dynamicallyGrowArray c i 1
  a.shape.checkInsertBounds2 c i j
  a.shape.capacityCheck c i 1
  let p ← a.ptr i
  let n ← a.shape.sizeOfArray c i
  arrayManipulation.assertNonNull c a.values p
  arrayManipulation.checkInsertBounds c n j
  let values ← arrayManipulation.shiftUp c a.values p n j 1
  let r ← constructUntil c throws (p + j) (fun _ => v) 1 0 values
  finish c a i (n + 1) r

/-- `appendArray( first, last )`: /repo/src/ArrayOfArrays.hpp 286-296.  The new array is there before its values. -/
def appendArray [Inhabited T] (c : Cfg) (throws : Nat → Bool) (a : AoA T) (vs : List T) : R (AoA T × Bool) := do
  let shape ← a.shape.appendRow c
  appendToArray c throws { a with shape := shape } (shape.numArrays - 1) vs

/-- `insertIntoArray`: /repo/src/ArrayOfArrays.hpp 393-399, /repo/src/ArrayOfArraysView.hpp 525-539,
/repo/src/arrayManipulation.hpp 501-519. -/
def insertIntoArray [Inhabited T] (c : Cfg) (throws : Nat → Bool) (a : AoA T) (i j : Nat) (vs : List T) : R (AoA T × Bool) := do
  let a ← a.dynamicallyGrowArray c i vs.length
  a.shape.checkInsertBounds2 c i j
  a.shape.capacityCheck c i vs.length
  let p ← a.ptr i
  let n ← a.shape.sizeOfArray c i
  arrayManipulation.assertNonNull c a.values p
  arrayManipulation.checkInsertBounds c n j
  let values ← arrayManipulation.shiftUp c a.values p n j vs.length
  let r ← constructUntil c throws (p + j) (fun k => vs.getD k default) vs.length 0 values
  finish c a i (n + vs.length) r

/-- `insertArray`: /repo/src/ArrayOfArrays.hpp 305-318.  The new array is there before its values. -/
def insertArray [Inhabited T] (c : Cfg) (throws : Nat → Bool) (a : AoA T) (i : Nat) (vs : List T) : R (AoA T × Bool) := do
  let shape ← a.shape.insertRow c i
  appendToArray c throws { a with shape := shape } i vs

/-- `resizeArray`: /repo/src/ArrayOfArrays.hpp 410-425, /repo/src/arrayManipulation.hpp 281-309.  The `memset` for types that
are trivially default constructible counts as constructors; those of such types do not throw. -/
def resizeArray (c : Cfg) (throws : Nat → Bool) (a : AoA T) (i newSize : Nat) (v : T) : R (AoA T × Bool) := do
  a.shape.checkBounds c i
  let cap ← a.shape.capacityOfArray c i
  let a ← AoA.growIf c (decide (cap < newSize)) a i newSize
  let prevSize ← a.shape.sizeOfArray c i
  a.shape.checkBounds c i
  let p ← a.ptr i
  let values ← arrayManipulation.destroy c a.values (p + newSize) (prevSize - newSize)
  let r ← constructUntil c throws (p + prevSize) (fun _ => v) (newSize - prevSize) 0 values
  finish c a i newSize r

/-- `appendArray( n )`: /repo/src/ArrayOfArrays.hpp 269-279.  The new array is there before its values. -/
def appendArraySize [Inhabited T] (c : Cfg) (throws : Nat → Bool) (a : AoA T) (n : Nat) : R (AoA T × Bool) := do
  let shape ← a.shape.appendRow c
  resizeArray c throws { a with shape := shape } (shape.numArrays - 1) n default

/-- One call.  None of the other calls constructs values from arguments. -/
def step [Inhabited T] (c : Cfg) (a : AoA T) (op : AoAOp T) (throws : Nat → Bool) : R (AoA T × Bool) :=
  match op with
  | .emplaceBack i v => emplaceBack c throws a i v
  | .appendToArray i vs => appendToArray c throws a i vs
  | .emplace i j v => emplace c throws a i j v
  | .appendArray vs => appendArray c throws a vs
  | .insertIntoArray i j vs => insertIntoArray c throws a i j vs
  | .insertArray i vs => insertArray c throws a i vs
  | .resizeArray i n v => resizeArray c throws a i n v
  | .appendArraySize n => appendArraySize c throws a n
  | op => a.step c op >>= fun a => .ok (a, false)

/-- A history: calls, and which of the constructors of each throw.  The result says which calls threw. -/
def run [Inhabited T] (c : Cfg) : AoA T → List (AoAOp T × (Nat → Bool)) → R (AoA T × List Bool)
  | a, [] => .ok (a, [])
  | a, (op, throws) :: ops =>
    step c a op throws >>= fun r => run c r.1 ops >>= fun q => .ok (q.1, r.2 :: q.2)

end LvArray.FaultyRows

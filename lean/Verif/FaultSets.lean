import Verif.Faults
import Verif.SortedArray
/-!
# Calls on a `SortedArray` that end in an exception

The `SortedArray` of `SortedArray.lean` once more, now with the state in which a call leaves it when it does not return, as
`Faults.lean` has it for the one-dimensional `Array`.  The state is that of `Faults.lean`: `buf` is `m_values`, `dim` is
`m_size` (/repo/src/SortedArrayView.hpp 285-300).

Simplifications: those of `Faults.lean` (moving and destroying an element do not throw, memory is never exhausted, trivial
types do not throw), and comparing two elements does not throw.
-/

namespace LvArray

namespace FaultySet

open Faulty sortedArrayManipulation

variable {T : Type}

/-- A value computed by comparisons and checks alone. -/
def look {α : Type} (f : Buf T → R α) : FProg T α := fun s => eval (f s.buf) s

/-- A member function that constructs and copies no element: it compares, moves and destroys elements.  Where it is refused
it is by a check, and the checks precede the first change: /repo/src/SortedArray.hpp 258-266 and 276-287 (`remove`), 299-304
(`clear`), 311-313 (`reserve`), /repo/src/SortedArrayView.hpp 195-206 and 219-235 (`contains`, `operator[]`). -/
def quiet {α : Type} (f : SortedArr T → R (SortedArr T × α)) : FProg T α := do
  let n ← size
  fun s =>
    match f { buf := s.buf, size := n } with
    | .ok (a, x) => .ok x { s with buf := a.buf, dim := (a.size : Int) }
    | .error .abort => .error .handler s
    | .error (.ub u) => .error (.ub u) s

variable [LT T] [DecidableLT T] [DecidableEq T]

/-- Where a single value belongs and whether it is there: the first part of `sortedArrayManipulation::insert`,
/repo/src/sortedArrayManipulation.hpp 617-643. -/
def place (c : Cfg) (n : Nat) (v : T) (b : Buf T) : R (Nat × Bool) := do
  assertRange c (fun i => b.read (0 + i)) n (isSortedUnique less)
  let pos ← insertPosition c (fun i => b.read (0 + i)) n v
  let present ← isAt (fun i => b.read (0 + i)) n pos v
  .ok (pos, present)

/-- `sortedArrayManipulation::insert` of a single value, /repo/src/sortedArrayManipulation.hpp 617-656, with the call backs of
/repo/src/SortedArray.hpp 346-383 and `arrayManipulation::emplace`, /repo/src/arrayManipulation.hpp 474-487. -/
def insertOne (c : Cfg) (throws : Nat → Bool) (n : Nat) (v : T) : FProg T Bool := do
  let (pos, present) ← look (place c n v)
  if present then do
    onBuf (bufferManipulation.dynamicReserve c · n (n + 0))
    pure false
  else do
    onBuf (bufferManipulation.dynamicReserve c · n (n + 1))
    checking (arrayManipulation.assertNonNull c · 0)
    checking (fun _ => arrayManipulation.checkInsertBounds c n pos)
    onBuf (arrayManipulation.shiftUp c · 0 n pos 1)
    element c throws (·.construct c (0 + pos) v)
    pure true

/-- `insert( value )`, /repo/src/SortedArray.hpp 222-230. -/
def insert (c : Cfg) (throws : Nat → Bool) (v : T) : FProg T Bool := do
  let n ← size
  let inserted ← insertOne c throws n v
  setDim ((n + (if inserted then 1 else 0) : Nat) : Int)
  pure inserted

/-- The second pass of the range `insert`, /repo/src/sortedArrayManipulation.hpp 731-755, values from the last to the
first. -/
def insertLoop (c : Cfg) (throws : Nat → Bool) : List T → Nat → Nat → FProg T Unit
  | [], _, _ => pure ()
  | v :: vs, upperBound, nLeft => do
    let (pos, present) ← look (fun b => do
      let pos ← find c less (fun i => b.read (0 + i)) upperBound v
      let present ← isAt (fun i => b.read (0 + i)) upperBound pos v
      .ok (pos, present))
    if present then insertLoop c throws vs upperBound nLeft
    else do
      onBuf (arrayManipulation.shiftUp c · 0 upperBound pos nLeft)
      element c throws (fun b =>
        if pos + nLeft = 0 then .error (.ub .outOfBounds) else b.construct c (0 + (pos + nLeft - 1)) v)
      insertLoop c throws vs pos (nLeft - 1)

/-- `sortedArrayManipulation::insert` of a range, /repo/src/sortedArrayManipulation.hpp 673-758. -/
def insertRange [Inhabited T] (c : Cfg) (throws : Nat → Bool) (n : Nat) (vs : List T) : FProg T Nat := do
  look (fun b => assertRange c (fun i => b.read (0 + i)) n (isSortedUnique less))
  look (fun _ => errorIf (c.debug && !isSortedUnique less vs))
  if n = 0 then do
    onBuf (bufferManipulation.dynamicReserve c · n (n + vs.length))
    loop vs.length 0 (fun i => element c throws (·.construct c (0 + i) (vs.getD i default)))
    pure vs.length
  else do
    let nToInsert ← look (fun b => countLoop c (fun i => b.read (0 + i)) n vs.reverse n 0)
    onBuf (bufferManipulation.dynamicReserve c · n (n + nToInsert))
    if nToInsert = 0 then pure 0
    else do
      insertLoop c throws vs.reverse n nToInsert
      pure nToInsert

/-- `insert( first, last )`, /repo/src/SortedArray.hpp 240-251. -/
def insertMany [Inhabited T] (c : Cfg) (throws : Nat → Bool) (vs : List T) : FProg T Nat := do
  let n ← size
  let inserted ← insertRange c throws n vs
  setDim ((n + inserted : Nat) : Int)
  pure inserted

/-- One call (dispatch only). -/
def call [Inhabited T] (c : Cfg) (throws : Nat → Bool) : SetOp T → FProg T (SetOut T)
  | .insert v => do let r ← insert c throws v; pure (.bool r)
  | .insertMany vs => do let r ← insertMany c throws vs; pure (.num r)
  | op => quiet (fun a => a.step c op)

/-- How a call ended, as the caller sees it. -/
inductive Outcome (T : Type) where
  | returned (o : SetOut T)
  | threw
  | refused
  | undefined (u : UB)
  deriving DecidableEq, Repr

/-- A history in which the caller catches every exception and goes on. -/
def run [Inhabited T] (c : Cfg) (throws : Nat → Bool) : Faulty T → List (SetOp T) → List (Outcome T) × Faulty T
  | s, [] => ([], s)
  | s, op :: ops =>
    match call c throws op s with
    | .ok o s' => (.returned o :: (run c throws s' ops).1, (run c throws s' ops).2)
    | .error .element s' => (.threw :: (run c throws s' ops).1, (run c throws s' ops).2)
    | .error .handler s' => (.refused :: (run c throws s' ops).1, (run c throws s' ops).2)
    | .error (.ub u) s' => ([.undefined u], s')

omit [LT T] [DecidableLT T] [DecidableEq T] in
/-- Reading `a[ i ]`, /repo/src/SortedArrayView.hpp 219-235. -/
def get (c : Cfg) (i : Int) : FProg T T := quiet (fun a => do let x ← a.get c i; .ok (a, x))

omit [LT T] [DecidableLT T] [DecidableEq T] in
/-- The destructor, /repo/src/SortedArray.hpp 91-93. -/
def dtor (c : Cfg) : FProg T Unit := Faulty.dtor c

end FaultySet

end LvArray

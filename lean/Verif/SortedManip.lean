import Verif.BufferLemmas

/-!
# `sortedArrayManipulation`

The set operations of /repo/src/sortedArrayManipulation.hpp on a range of a buffer.  The assertions that a pointer is
not null and that a size is not negative cannot fire (sizes are natural numbers and at most the capacity of the
buffer), so they are left out; the debug-only sortedness assertions are modelled.  `comp` is the comparison object,
`<` by default.
-/

namespace LvArray.sortedArrayManipulation

variable {T : Type}

/-- /repo/src/sortedArrayManipulation.hpp 266-290, the range given as a list. -/
def isSorted (comp : T → T → Bool) : List T → Bool
  | [] => true
  | [_] => true
  | first :: next :: rest => if comp next first then false else isSorted comp (next :: rest)

/-- /repo/src/sortedArrayManipulation.hpp 371-395. -/
def isSortedUnique (comp : T → T → Bool) : List T → Bool
  | [] => true
  | [_] => true
  | first :: next :: rest =>
    if comp next first || !comp first next then false else isSortedUnique comp (next :: rest)

/-- The values `ptr[ 0 ], ..., ptr[ n - 1 ]`, as read by an assertion. -/
def readAll (read : Nat → R T) (n : Nat) : R (List T) := (List.range n).mapM read

/-- A debug-only assertion about the values of a range. -/
def assertRange (c : Cfg) (read : Nat → R T) (n : Nat) (test : List T → Bool) : R Unit :=
  if c.debug then do
    let xs ← readAll read n
    errorIf (!test xs)
  else .ok ()

/-- The loop of `find`, /repo/src/sortedArrayManipulation.hpp 421-434.  `fuel` bounds the number of iterations; `find`
passes the size, which is enough because the interval shrinks (`find_spec` would be false otherwise). -/
def findLoop (comp : T → T → Bool) (read : Nat → R T) (value : T) : Nat → Nat → Nat → R Nat
  | 0, lower, _ => .ok lower
  | fuel + 1, lower, upper =>
    if lower = upper then .ok lower
    else do
      let guess := (lower + upper) / 2
      let x ← read guess
      if comp x value then findLoop comp read value fuel (guess + 1) upper
      else findLoop comp read value fuel lower guess

/-- /repo/src/sortedArrayManipulation.hpp 408-436. -/
def find (c : Cfg) (comp : T → T → Bool) (read : Nat → R T) (size : Nat) (value : T) : R Nat := do
  assertRange c read size (isSorted comp)
  findLoop comp read value size 0 size

/-- `( pos != size ) && ( ptr[ pos ] == value )`, the test of /repo/src/sortedArrayManipulation.hpp 457, 482 (negated),
643, 714 (negated) and 740. -/
def isAt [DecidableEq T] (read : Nat → R T) (size pos : Nat) (value : T) : R Bool :=
  if pos = size then .ok false else do
    let x ← read pos
    .ok (decide (x = value))

/-- /repo/src/sortedArrayManipulation.hpp 448-458. -/
def contains [DecidableEq T] (c : Cfg) (comp : T → T → Bool) (read : Nat → R T) (size : Nat) (value : T) : R Bool := do
  let pos ← find c comp read size value
  isAt read size pos value

/-- `less< T >`, /repo/src/sortedArrayManipulation.hpp 165-178. -/
def less [LT T] [DecidableLT T] (a b : T) : Bool := decide (a < b)

/-- What `insert` and `remove` operate on: a range starting at `ptr` in a buffer, and the call backs
(/repo/src/sortedArrayManipulation.hpp 71-158).  `σ` is everything the call backs can reach. -/
structure Target (σ T : Type) where
  /-- the buffer the pointer points into -/
  buf : σ → Buf T
  /-- position of the pointer in its buffer -/
  ptr : σ → Nat
  /-- replace the buffer's contents -/
  put : σ → Buf T → σ
  /-- `incrementSize( ptr, n )`; the new pointer is `ptr` of the new state -/
  incrementSize : σ → Nat → R σ
  /-- `insert( pos )` -/
  insert : σ → Nat → R σ
  /-- `set( pos, valuePos )` -/
  set : σ → Nat → Nat → R σ
  /-- `insert( nLeftToInsert, valuePos, pos, prevPos )` -/
  insertMany : σ → Nat → Nat → Nat → Nat → R σ
  /-- `remove( pos )` -/
  remove : σ → Nat → R σ
  /-- `remove( nRemoved, curPos, nextPos )` -/
  removeMany : σ → Nat → Nat → Nat → R σ

variable {σ : Type}

/-- `ptr[ i ]`. -/
def Target.read (t : Target σ T) (s : σ) (i : Nat) : R T := (t.buf s).read (t.ptr s + i)

/-- An operation of `arrayManipulation` on the range. -/
def Target.modify (t : Target σ T) (s : σ) (f : Buf T → Nat → R (Buf T)) : R σ := do
  let b ← f (t.buf s) (t.ptr s)
  .ok (t.put s b)

variable [LT T] [DecidableLT T] [DecidableEq T]

/-- Single value `remove`: /repo/src/sortedArrayManipulation.hpp 470-494. -/
def removeOne (c : Cfg) (t : Target σ T) (s : σ) (size : Nat) (value : T) : R (σ × Bool) := do
  let index ← find c less (t.read s) size value
  let found ← isAt (t.read s) size index value
  if found then do
    let s ← t.modify s (fun b p => arrayManipulation.erase c b p size index 1)
    let s ← t.remove s index
    .ok (s, true)
  else .ok (s, false)

/-- The search loops of the range `remove`, /repo/src/sortedArrayManipulation.hpp 527-542 and 557-576: advance through
the values until one is found in the range.  Returns its position and the values from it on; no values when none was
found. -/
def seek (c : Cfg) (read : Nat → R T) (size : Nat) : Nat → List T → R (Nat × List T)
  | pos, [] => .ok (pos, [])
  | pos, v :: vs => do
    let k ← find c less (fun i => read (pos + i)) (size - pos) v
    if pos + k = size then .ok (size, [])
    else do
      let x ← read (pos + k)
      if x = v then .ok (pos + k, v :: vs) else seek c read size (pos + k) vs

/-- The main loop of the range `remove`, /repo/src/sortedArrayManipulation.hpp 552-595.  Each round uses at least one of
the values, so the number of values bounds the rounds. -/
def removeLoop (c : Cfg) (t : Target σ T) (size : Nat) : Nat → σ → Nat → Nat → List T → R (σ × Nat)
  | _, s, _, nRemoved, [] => .ok (s, nRemoved)
  | 0, s, _, nRemoved, _ :: _ => .ok (s, nRemoved)
  | fuel + 1, s, pos, nRemoved, _ :: rest => do
    let (nextPos, next) ← seek c (t.read s) size pos rest
    let nextPos := if next.isEmpty then size else nextPos
    let nRemoved := nRemoved + 1
    let s ← t.modify s (fun b p => arrayManipulation.shiftDown c b p nextPos (pos + 1) nRemoved)
    let s ← t.removeMany s nRemoved pos nextPos
    if nextPos = size then .ok (s, nRemoved)
    else removeLoop c t size fuel s nextPos nRemoved next

/-- Range `remove`: /repo/src/sortedArrayManipulation.hpp 510-604. -/
def removeRange (c : Cfg) (t : Target σ T) (s : σ) (size : Nat) (vs : List T) : R (σ × Nat) := do
  assertRange c (t.read s) size (isSortedUnique less)
  errorIf (c.debug && !isSortedUnique less vs)
  let (pos, rest) ← seek c (t.read s) size 0 vs
  if rest.isEmpty then .ok (s, 0)
  else do
    let (s, nRemoved) ← removeLoop c t size vs.length s pos 0 rest
    let s ← t.modify s (fun b p => arrayManipulation.destroy c b (p + size - nRemoved) nRemoved)
    .ok (s, nRemoved)

/-- The position at which a single value is inserted, /repo/src/sortedArrayManipulation.hpp 626-640. -/
def insertPosition (c : Cfg) (read : Nat → R T) (size : Nat) (value : T) : R Nat :=
  if size = 0 then .ok 0
  else do
    let x0 ← read 0
    if value < x0 then .ok 0
    else do
      let x1 ← read (size - 1)
      if x1 < value then .ok size
      else find c less read size value

/-- Single value `insert`: /repo/src/sortedArrayManipulation.hpp 617-656. -/
def insertOne (c : Cfg) (t : Target σ T) (s : σ) (size : Nat) (value : T) : R (σ × Bool) := do
  assertRange c (t.read s) size (isSortedUnique less)
  let insertPos ← insertPosition c (t.read s) size value
  let present ← isAt (t.read s) size insertPos value
  if present then do
    let s ← t.incrementSize s 0
    .ok (s, false)
  else do
    let s ← t.incrementSize s 1
    let s ← t.modify s (fun b p => arrayManipulation.emplace c b p size insertPos value)
    let s ← t.insert s insertPos
    .ok (s, true)

/-- First pass of the range `insert`, /repo/src/sortedArrayManipulation.hpp 705-720: count the values that are not
present.  The argument lists the values from the last to the first. -/
def countLoop (c : Cfg) (read : Nat → R T) (size : Nat) : List T → Nat → Nat → R Nat
  | [], _, nToInsert => .ok nToInsert
  | v :: vs, upperBound, nToInsert => do
    let upperBound ← find c less read upperBound v
    let present ← isAt read size upperBound v
    countLoop c read size vs upperBound (if present then nToInsert else nToInsert + 1)

/-- Second pass of the range `insert`, /repo/src/sortedArrayManipulation.hpp 731-755.  The argument lists the values from
the last to the first; `currentIndex` is the number of values left, minus one. -/
def insertLoop (c : Cfg) (t : Target σ T) : List T → σ → Nat → Nat → R σ
  | [], s, _, _ => .ok s
  | v :: vs, s, upperBound, nLeft => do
    let pos ← find c less (t.read s) upperBound v
    let present ← isAt (t.read s) upperBound pos v
    if present then insertLoop c t vs s upperBound nLeft
    else do
      let s ← t.modify s (fun b p => arrayManipulation.shiftUp c b p upperBound pos nLeft)
      let s ← t.modify s (fun b p =>
        if pos + nLeft = 0 then .error (.ub .outOfBounds) else b.construct c (p + (pos + nLeft - 1)) v)
      let s ← t.insertMany s nLeft vs.length pos upperBound
      insertLoop c t vs s pos (nLeft - 1)

/-- Range `insert`: /repo/src/sortedArrayManipulation.hpp 673-758. -/
def insertRange [Inhabited T] (c : Cfg) (t : Target σ T) (s : σ) (size : Nat) (vs : List T) : R (σ × Nat) := do
  assertRange c (t.read s) size (isSortedUnique less)
  errorIf (c.debug && !isSortedUnique less vs)
  if size = 0 then do
    let s ← t.incrementSize s vs.length
    let s ← forUp vs.length 0 (fun i s => do
      let s ← t.modify s (fun b p => b.construct c (p + i) (vs.getD i default))
      t.set s i i) s
    .ok (s, vs.length)
  else do
    let nToInsert ← countLoop c (t.read s) size vs.reverse size 0
    let s ← t.incrementSize s nToInsert
    if nToInsert = 0 then .ok (s, 0)
    else do
      let s ← insertLoop c t vs.reverse s size nToInsert
      .ok (s, nToInsert)

end LvArray.sortedArrayManipulation

import Verif.AoS
import Verif.OwnRows
import Verif.SortedArray

/-!
# Functions of the set classes called with elements of the object itself

`set.remove( set[ k ] )`, `sets.insertIntoSet( i, sets[ j ].begin(), sets[ j ].end() )` and the like.  The functions of
/repo/src/sortedArrayManipulation.hpp take references and iterators and read through them whenever they need the value, also after
memory has been moved.  Here `val s k` is what the `k`-th position of the range reads in state `s`; a function reads its argument
once between two modifications of the memory, because searching and comparing do not change anything.  (`LVARRAY_RESTRICT` on the
pointer arguments is not modelled.)
-/

namespace LvArray.sortedArrayManipulation

variable {σ T : Type} [LT T] [DecidableLT T] [DecidableEq T]

/-- Single value `remove`, /repo/src/sortedArrayManipulation.hpp 470-494: the value is not read after `erase`. -/
def removeOneRef (c : Cfg) (t : Target σ T) (val : σ → R T) (s : σ) (size : Nat) : R (σ × Bool) := do
  let v ← val s
  removeOne c t s size v

/-- `isSortedUnique( first, last )` of a range of `n` positions, evaluated in debug builds only:
/repo/src/sortedArrayManipulation.hpp 519-521, 685-687. -/
def assertSource (c : Cfg) (val : Nat → R T) (n : Nat) : R Unit := assertRange c val n (isSortedUnique less)

/-- The search loops of the range `remove`, /repo/src/sortedArrayManipulation.hpp 527-542 and 557-576, for a range of `n` positions
of which the last `m` are left.  Returns how many are left at the end. -/
def seekRef (c : Cfg) (read : Nat → R T) (val : Nat → R T) (size n : Nat) : Nat → Nat → R (Nat × Nat)
  | pos, 0 => .ok (pos, 0)
  | pos, m + 1 => do
    let v ← val (n - (m + 1))
    let k ← find c less (fun i => read (pos + i)) (size - pos) v
    if pos + k = size then .ok (size, 0)
    else do
      let x ← read (pos + k)
      if x = v then .ok (pos + k, m + 1) else seekRef c read val size n (pos + k) m

/-- The main loop of the range `remove`, /repo/src/sortedArrayManipulation.hpp 552-595, with `m` positions left. -/
def removeLoopRef (c : Cfg) (t : Target σ T) (val : σ → Nat → R T) (size n : Nat) : Nat → σ → Nat → Nat → Nat → R (σ × Nat)
  | _, s, _, nRemoved, 0 => .ok (s, nRemoved)
  | 0, s, _, nRemoved, _ + 1 => .ok (s, nRemoved)
  | fuel + 1, s, pos, nRemoved, m + 1 => do
    let (nextPos, next) ← seekRef c (t.read s) (val s) size n pos m
    let nextPos := if next = 0 then size else nextPos
    let nRemoved := nRemoved + 1
    let s ← t.modify s (fun b p => arrayManipulation.shiftDown c b p nextPos (pos + 1) nRemoved)
    let s ← t.removeMany s nRemoved pos nextPos
    if nextPos = size then .ok (s, nRemoved)
    else removeLoopRef c t val size n fuel s nextPos nRemoved next

/-- Range `remove` of `n` positions: /repo/src/sortedArrayManipulation.hpp 510-604. -/
def removeRangeRef (c : Cfg) (t : Target σ T) (val : σ → Nat → R T) (s : σ) (size n : Nat) : R (σ × Nat) := do
  assertRange c (t.read s) size (isSortedUnique less)
  assertSource c (val s) n
  let (pos, rest) ← seekRef c (t.read s) (val s) size n 0 n
  if rest = 0 then .ok (s, 0)
  else do
    let (s, nRemoved) ← removeLoopRef c t val size n n s pos 0 rest
    let s ← t.modify s (fun b p => arrayManipulation.destroy c b (p + size - nRemoved) nRemoved)
    .ok (s, nRemoved)

/-- Single value `insert`, /repo/src/sortedArrayManipulation.hpp 617-656.  The last three statements of the second case are
`arrayManipulation::emplace`, /repo/src/arrayManipulation.hpp 474-487, which reads the value after the shift. -/
def insertOneRef (c : Cfg) (t : Target σ T) (val : σ → R T) (s : σ) (size : Nat) : R (σ × Bool) := do
  assertRange c (t.read s) size (isSortedUnique less)
  let v ← val s
  let insertPos ← insertPosition c (t.read s) size v
  let present ← isAt (t.read s) size insertPos v
  if present then do
    let s ← t.incrementSize s 0
    .ok (s, false)
  else do
    let s ← t.incrementSize s 1
    arrayManipulation.assertNonNull c (t.buf s) (t.ptr s)
    arrayManipulation.checkInsertBounds c size insertPos
    let s ← t.modify s (fun b p => arrayManipulation.shiftUp c b p size insertPos 1)
    let v ← val s
    let s ← t.modify s (fun b p => b.construct c (p + insertPos) v)
    let s ← t.insert s insertPos
    .ok (s, true)

/-- First pass of the range `insert`, /repo/src/sortedArrayManipulation.hpp 705-720, with `m` positions left. -/
def countLoopRef (c : Cfg) (read : Nat → R T) (val : Nat → R T) (size : Nat) : Nat → Nat → Nat → R Nat
  | 0, _, nToInsert => .ok nToInsert
  | m + 1, upperBound, nToInsert => do
    let v ← val m
    let upperBound ← find c less read upperBound v
    let present ← isAt read size upperBound v
    countLoopRef c read val size m upperBound (if present then nToInsert else nToInsert + 1)

/-- Second pass of the range `insert`, /repo/src/sortedArrayManipulation.hpp 731-755, with `m` positions left.  The value is read
again after the shift. -/
def insertLoopRef (c : Cfg) (t : Target σ T) (val : σ → Nat → R T) : Nat → σ → Nat → Nat → R σ
  | 0, s, _, _ => .ok s
  | m + 1, s, upperBound, nLeft => do
    let v ← val s m
    let pos ← find c less (t.read s) upperBound v
    let present ← isAt (t.read s) upperBound pos v
    if present then insertLoopRef c t val m s upperBound nLeft
    else do
      let s ← t.modify s (fun b p => arrayManipulation.shiftUp c b p upperBound pos nLeft)
      let v ← val s m
      let s ← t.modify s (fun b p =>
        if pos + nLeft = 0 then .error (.ub .outOfBounds) else b.construct c (p + (pos + nLeft - 1)) v)
      let s ← t.insertMany s nLeft m pos upperBound
      insertLoopRef c t val m s pos (nLeft - 1)

/-- Range `insert` of `n` positions: /repo/src/sortedArrayManipulation.hpp 673-758. -/
def insertRangeRef (c : Cfg) (t : Target σ T) (val : σ → Nat → R T) (s : σ) (size n : Nat) : R (σ × Nat) := do
  assertRange c (t.read s) size (isSortedUnique less)
  assertSource c (val s) n
  if size = 0 then do
    let s ← t.incrementSize s n
    let s ← forUp n 0 (fun i s => do
      let v ← val s i
      let s ← t.modify s (fun b p => b.construct c (p + i) v)
      t.set s i i) s
    .ok (s, n)
  else do
    let nToInsert ← countLoopRef c (t.read s) (val s) size n size 0
    let s ← t.incrementSize s nToInsert
    if nToInsert = 0 then .ok (s, 0)
    else do
      let s ← insertLoopRef c t val n s size nToInsert
      .ok (s, nToInsert)

end LvArray.sortedArrayManipulation

namespace LvArray

variable {T : Type}

/-- What a pointer to slot `p` of the values of a `SortedArray` taken when they were `old` reads when they are `b`.  The
allocation is replaced exactly when its capacity grows (/repo/src/bufferManipulation.hpp 252-260). -/
def SortedArr.readOwn (c : Cfg) (old b : Buf T) (p : Nat) : R T :=
  if old.cap < b.cap then .error (.ub .dangling) else Buf.readStale c old b p

/-- `&set[ k ]`, /repo/src/SortedArrayView.hpp 221-228. -/
def SortedArr.element (c : Cfg) (a : SortedArr T) (k : Nat) : R Nat := do
  errorIf (c.boundsCheck && decide (a.size ≤ k))
  .ok k

variable [LT T] [DecidableLT T] [DecidableEq T]

open sortedArrayManipulation

namespace SortedArr

/-- `set.insert( set[ k ] )`: /repo/src/SortedArray.hpp 222-230. -/
def insertOwn (c : Cfg) (a : SortedArr T) (k : Nat) : R (SortedArr T × Bool) := do
  let p ← element c a k
  let r ← insertOneRef c (target c a.size) (fun b => readOwn c a.buf b p) a.buf a.size
  .ok ({ buf := r.1, size := a.size + (if r.2 then 1 else 0) }, r.2)

/-- `set.insert( set.begin() + lo, set.begin() + lo + n )`: /repo/src/SortedArray.hpp 240-251. -/
def insertManyOwn (c : Cfg) (a : SortedArr T) (lo n : Nat) : R (SortedArr T × Nat) := do
  let r ← insertRangeRef c (target c a.size) (fun b k => readOwn c a.buf b (lo + k)) a.buf a.size n
  .ok ({ buf := r.1, size := a.size + r.2 }, r.2)

/-- `set.remove( set[ k ] )`: /repo/src/SortedArray.hpp 258-266. -/
def removeOwn (c : Cfg) (a : SortedArr T) (k : Nat) : R (SortedArr T × Bool) := do
  let p ← element c a k
  let r ← removeOneRef c (target c a.size) (fun b => readOwn c a.buf b p) a.buf a.size
  .ok ({ buf := r.1, size := a.size - (if r.2 then 1 else 0) }, r.2)

/-- `set.remove( set.begin() + lo, set.begin() + lo + n )`: /repo/src/SortedArray.hpp 276-287. -/
def removeManyOwn (c : Cfg) (a : SortedArr T) (lo n : Nat) : R (SortedArr T × Nat) := do
  let r ← removeRangeRef c (target c a.size) (fun b k => readOwn c a.buf b (lo + k)) a.buf a.size n
  .ok ({ buf := r.1, size := a.size - r.2 }, r.2)

end SortedArr

namespace AoS

/-- `sets.insertIntoSet( i, sets( j, k ) )`: /repo/src/ArrayOfSets.hpp 377-378, /repo/src/ArrayOfSetsView.hpp 362-373. -/
def insertOwn (c : Cfg) (inc : AoA T → Nat → R (AoA T)) (a : AoA T) (i j k : Nat) : R (AoA T × Bool) := do
  let q ← a.element c j k
  a.shape.checkBounds c i
  let n ← a.shape.sizeOfArray c i
  let _ ← a.ptr i
  let r ← insertOneRef c (target inc i) (fun s => a.readOwn c s.values q) a n
  let shape ← r.1.shape.setSize c i (n + (if r.2 then 1 else 0))
  .ok ({ r.1 with shape := shape }, r.2)

/-- `sets.insertIntoSet( i, sets[ j ].begin() + lo, sets[ j ].begin() + lo + m )`: /repo/src/ArrayOfSets.hpp 391-393,
/repo/src/ArrayOfSetsView.hpp 386-406. -/
def insertRangeOwn (c : Cfg) (inc : AoA T → Nat → R (AoA T)) (a : AoA T) (i j lo m : Nat) : R (AoA T × Nat) := do
  let q ← a.iterator c j lo
  a.shape.checkBounds c i
  let n ← a.shape.sizeOfArray c i
  let _ ← a.ptr i
  let r ← insertRangeRef c (target inc i) (fun s k => a.readOwn c s.values (q + k)) a n m
  let shape ← r.1.shape.setSize c i (n + r.2)
  .ok ({ r.1 with shape := shape }, r.2)

/-- `sets.removeFromSet( i, sets( j, k ) )`: /repo/src/ArrayOfSets.hpp 399-401, /repo/src/ArrayOfSetsView.hpp 416-427. -/
def removeOwn (c : Cfg) (a : AoA T) (i j k : Nat) : R (AoA T × Bool) := do
  let q ← a.element c j k
  a.shape.checkBounds c i
  let n ← a.shape.sizeOfArray c i
  let _ ← a.ptr i
  let r ← removeOneRef c (target (checking c i) i) (fun s => a.readOwn c s.values q) a n
  let shape ← r.1.shape.setSize c i (n - (if r.2 then 1 else 0))
  .ok ({ r.1 with shape := shape }, r.2)

/-- `sets.removeFromSet( i, sets[ j ].begin() + lo, sets[ j ].begin() + lo + m )`: /repo/src/ArrayOfSets.hpp 414-417,
/repo/src/ArrayOfSetsView.hpp 440-460. -/
def removeRangeOwn (c : Cfg) (a : AoA T) (i j lo m : Nat) : R (AoA T × Nat) := do
  let q ← a.iterator c j lo
  a.shape.checkBounds c i
  let n ← a.shape.sizeOfArray c i
  let _ ← a.ptr i
  let r ← removeRangeRef c (target (checking c i) i) (fun s k => a.readOwn c s.values (q + k)) a n m
  let shape ← r.1.shape.setSize c i (n - r.2)
  .ok ({ r.1 with shape := shape }, r.2)

end AoS

end LvArray

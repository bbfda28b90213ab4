import Verif.SortedArray
import Verif.AoA
import Verif.Sparse

/-!
# The same code with a counter of element operations

A second transcription of the functions whose cost the documentation states, in which every operation on an element (or on
an entry of `m_offsets` or `m_sizes`) adds one to a counter: a read together with the comparison or copy that uses it, an
assignment, the construction, move construction, move assignment or destruction of an object.  Reading or setting a member
(`m_size`, `m_numArrays`), arithmetic on indices, allocation and the release of storage are free.

`Verif/Props/Costs.lean` proves of each function both that it returns what the function of the model proper returns and how
far the counter advances, so a difference between the two transcriptions would make a theorem false.  Where the code skips a
loop for trivial types (destruction) or replaces it by `memcpy` the count is that of the loop.
-/

namespace LvArray

/-- A call that advances a counter.  Nothing in /repo counts; this is the model's own instrumentation. -/
abbrev Counted := StateT Nat R

namespace Counted

/-- One operation on an element. -/
def op {α : Type} (x : R α) : Counted α := fun n =>
  match x with
  | .ok a => .ok (a, n + 1)
  | .error e => .error e

/-- Something that touches no element. -/
def free {α : Type} (x : R α) : Counted α := fun n =>
  match x with
  | .ok a => .ok (a, n)
  | .error e => .error e

/-- `for( i = lo; i < lo + n; ++i ) f( i )`, as `LvArray.forUp`. -/
def forUp {σ : Type} : Nat → Nat → (Nat → σ → Counted σ) → σ → Counted σ
  | 0, _, _, s => pure s
  | n + 1, lo, f, s => f lo s >>= forUp n (lo + 1) f

/-- `for( i = lo + n - 1; i >= lo; --i ) f( i )`, as `LvArray.forDown`. -/
def forDown {σ : Type} : Nat → Nat → (Nat → σ → Counted σ) → σ → Counted σ
  | 0, _, _, s => pure s
  | n + 1, lo, f, s => f (lo + n) s >>= forDown n lo f

variable {T : Type}

/-! ## `arrayManipulation` -/

namespace arrayManipulation

/-- /repo/src/arrayManipulation.hpp 149-163. -/
def destroy (c : Cfg) (b : Buf T) (p n : Nat) : Counted (Buf T) :=
  forUp n p (fun i b => op (b.destroyAt c i)) b

/-- The construction loops of /repo/src/arrayManipulation.hpp 182-187, 304-307, 452-458, 514-518. -/
def constructRange (c : Cfg) (b : Buf T) (p n : Nat) (v : Nat → T) : Counted (Buf T) :=
  forUp n p (fun i b => op (b.construct c i (v (i - p)))) b

/-- /repo/src/arrayManipulation.hpp 223-240. -/
def uninitializedShiftDown (c : Cfg) (b : Buf T) (p size amount : Nat) : Counted (Buf T) :=
  if amount = 0 then pure b
  else forUp size p (fun j b => do
    if j < amount then free (.error (.ub .outOfBounds)) else
    let b ← op (b.moveConstruct c (j - amount) j)
    op (b.destroyAt c j)) b

/-- /repo/src/arrayManipulation.hpp 251-268. -/
def uninitializedShiftUp (c : Cfg) (b : Buf T) (p size amount : Nat) : Counted (Buf T) :=
  if amount = 0 then pure b
  else forDown size p (fun j b => do
    let b ← op (b.moveConstruct c (j + amount) j)
    op (b.destroyAt c j)) b

/-- /repo/src/arrayManipulation.hpp 281-309. -/
def resize (c : Cfg) (b : Buf T) (p size newSize : Nat) (v : T) : Counted (Buf T) := do
  let b ← destroy c b (p + newSize) (size - newSize)
  constructRange c b (p + size) (newSize - size) (fun _ => v)

/-- /repo/src/arrayManipulation.hpp 322-346. -/
def shiftUp (c : Cfg) (b : Buf T) (p size index n : Nat) : Counted (Buf T) := do
  free (LvArray.arrayManipulation.checkInsertBounds c size index)
  if n = 0 then pure b
  else
    let b ← forDown (size - index) (p + index) (fun cur b => op (b.moveConstruct c (cur + n) cur)) b
    let bounds := if index + n < size then index + n else size
    destroy c b (p + index) (bounds - index)

/-- /repo/src/arrayManipulation.hpp 359-379. -/
def shiftDown (c : Cfg) (b : Buf T) (p size index n : Nat) : Counted (Buf T) := do
  free (LvArray.arrayManipulation.checkInsertBounds c size index)
  free (errorIf (c.debug && decide (index < n)))
  if n = 0 then pure b
  else forUp (size - index) (p + index) (fun i b =>
    if i < n then free (.error (.ub .outOfBounds)) else op (b.moveAssign c (i - n) i)) b

/-- /repo/src/arrayManipulation.hpp 392-409. -/
def erase (c : Cfg) (b : Buf T) (p size index n : Nat) : Counted (Buf T) :=
  if n = 0 then pure b
  else do
    free (LvArray.arrayManipulation.checkBounds c size index)
    free (LvArray.arrayManipulation.checkBounds c size (index + n - 1))
    let b ← shiftDown c b p size (index + n) n
    destroy c b (p + size - n) n

/-- /repo/src/arrayManipulation.hpp 421-429. -/
def emplaceBack (c : Cfg) (b : Buf T) (p size : Nat) (v : T) : Counted (Buf T) := do
  free (LvArray.arrayManipulation.assertNonNull c b p)
  op (b.construct c (p + size) v)

/-- /repo/src/arrayManipulation.hpp 443-461. -/
def append [Inhabited T] (c : Cfg) (b : Buf T) (p size : Nat) (vs : List T) : Counted (Buf T) :=
  constructRange c b (p + size) vs.length (fun i => vs.getD i default)

/-- /repo/src/arrayManipulation.hpp 474-487. -/
def emplace (c : Cfg) (b : Buf T) (p size index : Nat) (v : T) : Counted (Buf T) := do
  free (LvArray.arrayManipulation.assertNonNull c b p)
  free (LvArray.arrayManipulation.checkInsertBounds c size index)
  let b ← shiftUp c b p size index 1
  op (b.construct c (p + index) v)

/-- /repo/src/arrayManipulation.hpp 501-519. -/
def insert [Inhabited T] (c : Cfg) (b : Buf T) (p size index : Nat) (vs : List T) : Counted (Buf T) := do
  free (LvArray.arrayManipulation.assertNonNull c b p)
  free (LvArray.arrayManipulation.checkInsertBounds c size index)
  let b ← shiftUp c b p size index vs.length
  constructRange c b (p + index) vs.length (fun i => vs.getD i default)

end arrayManipulation

/-! ## `bufferManipulation` -/

/-- `MallocBuffer::reallocate` /repo/src/MallocBuffer.hpp 128-142 and `StackBuffer::reallocate` /repo/src/StackBuffer.hpp 86-92. -/
def reallocate (c : Cfg) (b : Buf T) (size newCap : Nat) : Counted (Buf T) :=
  match b.kind with
  | .stack => do
    free (errorIf (decide (b.cap < newCap)))
    pure b
  | .malloc => do
    let fresh : Buf T := { kind := .malloc, cap := newCap, cell := fun _ => .raw,
                           lostLive := b.lostLive, lostMoved := b.lostMoved, moves := b.moves }
    let (nb, ob) ← forUp (min newCap size) 0 (fun i s => op (moveAcross c i s)) (fresh, b)
    let ob ← arrayManipulation.destroy c ob 0 size
    pure { nb with lostLive := nb.lostLive + ob.countL c ob.cap
                   lostMoved := nb.lostMoved + ob.countM c ob.cap }

namespace bufferManipulation

/-- /repo/src/bufferManipulation.hpp 214-218. -/
def setCapacity (c : Cfg) (b : Buf T) (size newCap : Nat) : Counted (Buf T) := do
  free (LvArray.bufferManipulation.check c b size)
  reallocate c b size newCap

/-- /repo/src/bufferManipulation.hpp 251-259. -/
def dynamicReserve (c : Cfg) (b : Buf T) (size newCap : Nat) : Counted (Buf T) := do
  free (LvArray.bufferManipulation.check c b size)
  if b.cap < newCap then setCapacity c b size (2 * newCap) else pure b

/-- /repo/src/bufferManipulation.hpp 297-303. -/
def emplaceBack (c : Cfg) (b : Buf T) (size : Nat) (v : T) : Counted (Buf T) := do
  free (LvArray.bufferManipulation.check c b size)
  let b ← dynamicReserve c b size (size + 1)
  arrayManipulation.emplaceBack c b 0 size v

/-- /repo/src/bufferManipulation.hpp 315-324. -/
def emplace (c : Cfg) (b : Buf T) (size pos : Nat) (v : T) : Counted (Buf T) := do
  free (LvArray.bufferManipulation.checkInsert c b size pos)
  let b ← dynamicReserve c b size (size + 1)
  arrayManipulation.emplace c b 0 size pos v

/-- /repo/src/bufferManipulation.hpp 373-379. -/
def erase (c : Cfg) (b : Buf T) (size pos : Nat) : Counted (Buf T) := do
  free (LvArray.bufferManipulation.check c b size)
  free (errorIf (decide (size ≤ pos)))
  arrayManipulation.erase c b 0 size pos 1

end bufferManipulation

/-! ## `sortedArrayManipulation` -/

namespace sortedArrayManipulation

open LvArray.sortedArrayManipulation (Target less isSorted isSortedUnique)

/-- The values `ptr[ 0 ], ..., ptr[ n - 1 ]`, as read by a debug assertion. -/
def readAll (read : Nat → R T) (n : Nat) : Counted (List T) := (List.range n).mapM (fun i => op (read i))

/-- A debug-only assertion about the values of a range. -/
def assertRange (c : Cfg) (read : Nat → R T) (n : Nat) (test : List T → Bool) : Counted Unit :=
  if c.debug then do
    let xs ← readAll read n
    free (errorIf (!test xs))
  else pure ()

/-- The loop of `find`, /repo/src/sortedArrayManipulation.hpp 421-434. -/
def findLoop (comp : T → T → Bool) (read : Nat → R T) (value : T) : Nat → Nat → Nat → Counted Nat
  | 0, lower, _ => pure lower
  | fuel + 1, lower, upper =>
    if lower = upper then pure lower
    else do
      let guess := (lower + upper) / 2
      let x ← op (read guess)
      if comp x value then findLoop comp read value fuel (guess + 1) upper
      else findLoop comp read value fuel lower guess

/-- /repo/src/sortedArrayManipulation.hpp 408-436. -/
def find (c : Cfg) (comp : T → T → Bool) (read : Nat → R T) (size : Nat) (value : T) : Counted Nat := do
  assertRange c read size (isSorted comp)
  findLoop comp read value size 0 size

/-- `( pos != size ) && ( ptr[ pos ] == value )`, /repo/src/sortedArrayManipulation.hpp 457, 482, 643, 714 and 740. -/
def isAt [DecidableEq T] (read : Nat → R T) (size pos : Nat) (value : T) : Counted Bool :=
  if pos = size then pure false else do
    let x ← op (read pos)
    pure (decide (x = value))

/-- /repo/src/sortedArrayManipulation.hpp 448-458. -/
def contains [DecidableEq T] (c : Cfg) (comp : T → T → Bool) (read : Nat → R T) (size : Nat) (value : T) :
    Counted Bool := do
  let pos ← find c comp read size value
  isAt read size pos value

variable {σ : Type}

/-- The call backs of `insert` and `remove`, counting (/repo/src/sortedArrayManipulation.hpp 71-158).  `plain` are the same call
backs without the counter. -/
structure CountedTarget (σ T : Type) where
  plain : Target σ T
  incrementSize : σ → Nat → Counted σ
  insert : σ → Nat → Counted σ
  set : σ → Nat → Nat → Counted σ
  insertMany : σ → Nat → Nat → Nat → Nat → Counted σ
  remove : σ → Nat → Counted σ
  removeMany : σ → Nat → Nat → Nat → Counted σ

/-- An operation of `arrayManipulation` on the range. -/
def CountedTarget.modify (t : CountedTarget σ T) (s : σ) (f : Buf T → Nat → Counted (Buf T)) : Counted σ := do
  let b ← f (t.plain.buf s) (t.plain.ptr s)
  pure (t.plain.put s b)

variable [LT T] [DecidableLT T] [DecidableEq T]

/-- Single value `remove`: /repo/src/sortedArrayManipulation.hpp 470-494. -/
def removeOne (c : Cfg) (t : CountedTarget σ T) (s : σ) (size : Nat) (value : T) : Counted (σ × Bool) := do
  let index ← find c less (t.plain.read s) size value
  let found ← isAt (t.plain.read s) size index value
  if found then do
    let s ← t.modify s (fun b p => arrayManipulation.erase c b p size index 1)
    let s ← t.remove s index
    pure (s, true)
  else pure (s, false)

/-- The search loops of the range `remove`, /repo/src/sortedArrayManipulation.hpp 527-542 and 557-576. -/
def seek (c : Cfg) (read : Nat → R T) (size : Nat) : Nat → List T → Counted (Nat × List T)
  | pos, [] => pure (pos, [])
  | pos, v :: vs => do
    let k ← find c less (fun i => read (pos + i)) (size - pos) v
    if pos + k = size then pure (size, [])
    else do
      let x ← op (read (pos + k))
      if x = v then pure (pos + k, v :: vs) else seek c read size (pos + k) vs

/-- The main loop of the range `remove`, /repo/src/sortedArrayManipulation.hpp 552-595. -/
def removeLoop (c : Cfg) (t : CountedTarget σ T) (size : Nat) : Nat → σ → Nat → Nat → List T → Counted (σ × Nat)
  | _, s, _, nRemoved, [] => pure (s, nRemoved)
  | 0, s, _, nRemoved, _ :: _ => pure (s, nRemoved)
  | fuel + 1, s, pos, nRemoved, _ :: rest => do
    let (nextPos, next) ← seek c (t.plain.read s) size pos rest
    let nextPos := if next.isEmpty then size else nextPos
    let nRemoved := nRemoved + 1
    let s ← t.modify s (fun b p => arrayManipulation.shiftDown c b p nextPos (pos + 1) nRemoved)
    let s ← t.removeMany s nRemoved pos nextPos
    if nextPos = size then pure (s, nRemoved)
    else removeLoop c t size fuel s nextPos nRemoved next

/-- Range `remove`: /repo/src/sortedArrayManipulation.hpp 510-604. -/
def removeRange (c : Cfg) (t : CountedTarget σ T) (s : σ) (size : Nat) (vs : List T) : Counted (σ × Nat) := do
  assertRange c (t.plain.read s) size (isSortedUnique less)
  free (errorIf (c.debug && !isSortedUnique less vs))
  let (pos, rest) ← seek c (t.plain.read s) size 0 vs
  if rest.isEmpty then pure (s, 0)
  else do
    let (s, nRemoved) ← removeLoop c t size vs.length s pos 0 rest
    let s ← t.modify s (fun b p => arrayManipulation.destroy c b (p + size - nRemoved) nRemoved)
    pure (s, nRemoved)

/-- The position at which a single value is inserted, /repo/src/sortedArrayManipulation.hpp 626-640. -/
def insertPosition (c : Cfg) (read : Nat → R T) (size : Nat) (value : T) : Counted Nat :=
  if size = 0 then pure 0
  else do
    let x0 ← op (read 0)
    if value < x0 then pure 0
    else do
      let x1 ← op (read (size - 1))
      if x1 < value then pure size
      else find c less read size value

/-- Single value `insert`: /repo/src/sortedArrayManipulation.hpp 617-656. -/
def insertOne (c : Cfg) (t : CountedTarget σ T) (s : σ) (size : Nat) (value : T) : Counted (σ × Bool) := do
  assertRange c (t.plain.read s) size (isSortedUnique less)
  let insertPos ← insertPosition c (t.plain.read s) size value
  let present ← isAt (t.plain.read s) size insertPos value
  if present then do
    let s ← t.incrementSize s 0
    pure (s, false)
  else do
    let s ← t.incrementSize s 1
    let s ← t.modify s (fun b p => arrayManipulation.emplace c b p size insertPos value)
    let s ← t.insert s insertPos
    pure (s, true)

/-- First pass of the range `insert`, /repo/src/sortedArrayManipulation.hpp 705-720. -/
def countLoop (c : Cfg) (read : Nat → R T) (size : Nat) : List T → Nat → Nat → Counted Nat
  | [], _, nToInsert => pure nToInsert
  | v :: vs, upperBound, nToInsert => do
    let upperBound ← find c less read upperBound v
    let present ← isAt read size upperBound v
    countLoop c read size vs upperBound (if present then nToInsert else nToInsert + 1)

/-- Second pass of the range `insert`, /repo/src/sortedArrayManipulation.hpp 731-755. -/
def insertLoop (c : Cfg) (t : CountedTarget σ T) : List T → σ → Nat → Nat → Counted σ
  | [], s, _, _ => pure s
  | v :: vs, s, upperBound, nLeft => do
    let pos ← find c less (t.plain.read s) upperBound v
    let present ← isAt (t.plain.read s) upperBound pos v
    if present then insertLoop c t vs s upperBound nLeft
    else do
      let s ← t.modify s (fun b p => arrayManipulation.shiftUp c b p upperBound pos nLeft)
      let s ← t.modify s (fun b p =>
        if pos + nLeft = 0 then free (.error (.ub .outOfBounds)) else op (b.construct c (p + (pos + nLeft - 1)) v))
      let s ← t.insertMany s nLeft vs.length pos upperBound
      insertLoop c t vs s pos (nLeft - 1)

/-- Range `insert`: /repo/src/sortedArrayManipulation.hpp 673-758. -/
def insertRange [Inhabited T] (c : Cfg) (t : CountedTarget σ T) (s : σ) (size : Nat) (vs : List T) : Counted (σ × Nat) := do
  assertRange c (t.plain.read s) size (isSortedUnique less)
  free (errorIf (c.debug && !isSortedUnique less vs))
  if size = 0 then do
    let s ← t.incrementSize s vs.length
    let s ← forUp vs.length 0 (fun i s => do
      let s ← t.modify s (fun b p => op (b.construct c (p + i) (vs.getD i default)))
      t.set s i i) s
    pure (s, vs.length)
  else do
    let nToInsert ← countLoop c (t.plain.read s) size vs.reverse size 0
    let s ← t.incrementSize s nToInsert
    if nToInsert = 0 then pure (s, 0)
    else do
      let s ← insertLoop c t vs.reverse s size nToInsert
      pure (s, nToInsert)

end sortedArrayManipulation

/-! ## `SortedArray` -/

namespace SortedArr

open LvArray.sortedArrayManipulation (less)

/-- `CallBacks( m_values, size() )`, /repo/src/SortedArray.hpp 346-383. -/
def target (c : Cfg) (size : Nat) : sortedArrayManipulation.CountedTarget (Buf T) T where
  plain := LvArray.SortedArr.target c size
  incrementSize := fun b n => bufferManipulation.dynamicReserve c b size (size + n)
  insert := fun b _ => pure b
  set := fun b _ _ => pure b
  insertMany := fun b _ _ _ _ => pure b
  remove := fun b _ => pure b
  removeMany := fun b _ _ _ => pure b

variable [LT T] [DecidableLT T] [DecidableEq T]

/-- `insert( value )`, /repo/src/SortedArray.hpp 222-230. -/
def insert (c : Cfg) (a : SortedArr T) (v : T) : Counted (SortedArr T × Bool) := do
  let r ← sortedArrayManipulation.insertOne c (target c a.size) a.buf a.size v
  pure ({ buf := r.1, size := a.size + (if r.2 then 1 else 0) }, r.2)

/-- `insert( first, last )`, /repo/src/SortedArray.hpp 240-251. -/
def insertMany [Inhabited T] (c : Cfg) (a : SortedArr T) (vs : List T) : Counted (SortedArr T × Nat) := do
  let r ← sortedArrayManipulation.insertRange c (target c a.size) a.buf a.size vs
  pure ({ buf := r.1, size := a.size + r.2 }, r.2)

/-- `remove( value )`, /repo/src/SortedArray.hpp 258-266. -/
def remove (c : Cfg) (a : SortedArr T) (v : T) : Counted (SortedArr T × Bool) := do
  let r ← sortedArrayManipulation.removeOne c (target c a.size) a.buf a.size v
  pure ({ buf := r.1, size := a.size - (if r.2 then 1 else 0) }, r.2)

/-- `remove( first, last )`, /repo/src/SortedArray.hpp 276-287. -/
def removeMany (c : Cfg) (a : SortedArr T) (vs : List T) : Counted (SortedArr T × Nat) := do
  let r ← sortedArrayManipulation.removeRange c (target c a.size) a.buf a.size vs
  pure ({ buf := r.1, size := a.size - r.2 }, r.2)

/-- `contains( value )` and `count( value )`, /repo/src/SortedArrayView.hpp 195-206. -/
def contains (c : Cfg) (a : SortedArr T) (v : T) : Counted Bool :=
  sortedArrayManipulation.contains c less (fun i => a.buf.read i) a.size v

end SortedArr

/-! ## The rows of an `ArrayOfArrays` -/

namespace Shape

/-- `sizeOfArray`: /repo/src/ArrayOfArraysView.hpp 328-332. -/
def sizeOfArray (c : Cfg) (s : Shape) (i : Nat) : Counted Nat := do
  free (s.checkBounds c i)
  op (s.sizes.read i)

/-- `capacityOfArray`: /repo/src/ArrayOfArraysView.hpp 380-385. -/
def capacityOfArray (c : Cfg) (s : Shape) (i : Nat) : Counted Nat := do
  free (s.checkBounds c i)
  let next ← op (s.offsets.read (i + 1))
  let off ← op (s.offsets.read i)
  pure (next - off)

/-- `ARRAYOFARRAYS_CHECK_BOUNDS2( i, j )`: /repo/src/ArrayOfArraysView.hpp 45-49, 114. -/
def checkBounds2 (c : Cfg) (s : Shape) (i j : Nat) : Counted Unit :=
  if c.boundsCheck then
    if s.numArrays ≤ i then free (.error .abort)
    else do
      let n ← op (s.sizes.read i)
      free (errorIf (decide (n ≤ j)))
  else pure ()

/-- `ARRAYOFARRAYS_CHECK_INSERT_BOUNDS2( i, j )`: /repo/src/ArrayOfArraysView.hpp 66-70, 129. -/
def checkInsertBounds2 (c : Cfg) (s : Shape) (i j : Nat) : Counted Unit :=
  if c.boundsCheck then
    if s.numArrays ≤ i then free (.error .abort)
    else do
      let n ← op (s.sizes.read i)
      free (errorIf (decide (n < j)))
  else pure ()

/-- `ARRAYOFARRAYS_CAPACITY_CHECK( i, increase )`: /repo/src/ArrayOfArraysView.hpp 78-82, 137. -/
def capacityCheck (c : Cfg) (s : Shape) (i increase : Nat) : Counted Unit :=
  if c.boundsCheck then do
    let n ← sizeOfArray c s i
    let m ← capacityOfArray c s i
    free (errorIf (decide (m < n + increase)))
  else pure ()

/-- `m_sizes[ i ] = n`. -/
def setSize (c : Cfg) (s : Shape) (i n : Nat) : Counted Shape := do
  let sizes ← op (s.sizes.write c.ix i n)
  pure { s with sizes := sizes }

variable {X : Type}

/-- The loop of `setCapacityOfArray` that shifts the later arrays up, /repo/src/ArrayOfArraysView.hpp 895-900. -/
def shiftRowsUp (c : Cfg) (s : Shape) (i amount : Nat) (b : Buf X) : Counted (Buf X) :=
  forDown (s.numArrays - 1 - i) (i + 1) (fun array b => do
    let n ← sizeOfArray c s array
    let off ← op (s.offsets.read array)
    arrayManipulation.uninitializedShiftUp c b off n amount) b

/-- What `setCapacityOfArray` does to a buffer when the capacity grows, /repo/src/ArrayOfArraysView.hpp 886-904. -/
def growRow (c : Cfg) (s : Shape) (i amount : Nat) (b : Buf X) : Counted (Buf X) := do
  let maxOffset ← op (s.offsets.read s.numArrays)
  let b ← bufferManipulation.dynamicReserve c b maxOffset (maxOffset + amount)
  shiftRowsUp c s i amount b

/-- The loop of `setCapacityOfArray` that shifts the later arrays down, /repo/src/ArrayOfArraysView.hpp 922-927. -/
def shiftRowsDown (c : Cfg) (s : Shape) (i amount : Nat) (b : Buf X) : Counted (Buf X) :=
  forUp (s.numArrays - (i + 1)) (i + 1) (fun array b => do
    let n ← sizeOfArray c s array
    let off ← op (s.offsets.read array)
    arrayManipulation.uninitializedShiftDown c b off n amount) b

/-- What `setCapacityOfArray` does to a buffer when the capacity shrinks, /repo/src/ArrayOfArraysView.hpp 914-930. -/
def shrinkRow (c : Cfg) (s : Shape) (i amount off newSize prevSize : Nat) (b : Buf X) : Counted (Buf X) := do
  let b ← arrayManipulation.destroy c b (off + newSize) (prevSize - newSize)
  shiftRowsDown c s i amount b

/-- The update of the offsets, /repo/src/ArrayOfArraysView.hpp 933-936. -/
def updateOffsets (c : Cfg) (s : Shape) (i : Nat) (f : Nat → Nat) : Counted Shape := do
  let offsets ← forUp (s.numArrays + 1 - (i + 1)) (i + 1) (fun array o => do
    let x ← op (Buf.read o array)
    op (o.write c.ix array (f x))) s.offsets
  pure { s with offsets := offsets }

/-- Append an array of capacity 0: /repo/src/ArrayOfArrays.hpp 273-276 and 288-291. -/
def appendRow (c : Cfg) (s : Shape) : Counted Shape := do
  let maxOffset ← op (s.offsets.read s.numArrays)
  let offsets ← bufferManipulation.emplaceBack c.ix s.offsets (s.numArrays + 1) maxOffset
  let sizes ← bufferManipulation.emplaceBack c.ix s.sizes s.numArrays 0
  pure { numArrays := s.numArrays + 1, offsets := offsets, sizes := sizes }

/-- Insert an array of capacity 0: /repo/src/ArrayOfArrays.hpp 307-313. -/
def insertRow (c : Cfg) (s : Shape) (i : Nat) : Counted Shape := do
  free (s.checkInsertBounds c i)
  let offset ← op (s.offsets.read i)
  let offsets ← bufferManipulation.emplace c.ix s.offsets (s.numArrays + 1) (i + 1) offset
  let sizes ← bufferManipulation.emplace c.ix s.sizes s.numArrays i 0
  pure { numArrays := s.numArrays + 1, offsets := offsets, sizes := sizes }

/-- Remove an array of capacity 0: /repo/src/ArrayOfArrays.hpp 329-331. -/
def eraseRow (c : Cfg) (s : Shape) (i : Nat) : Counted Shape := do
  let offsets ← bufferManipulation.erase c.ix s.offsets (s.numArrays + 1) (i + 1)
  let sizes ← bufferManipulation.erase c.ix s.sizes s.numArrays i
  pure { numArrays := s.numArrays - 1, offsets := offsets, sizes := sizes }

end Shape

/-! ## `ArrayOfArrays` -/

namespace AoA

/-- `m_values.data() + m_offsets[ i ]` as a position in the buffer. -/
def ptr (a : AoA T) (i : Nat) : Counted Nat := op (a.shape.offsets.read i)

/-- `emplaceBack`: /repo/src/ArrayOfArraysView.hpp 439-449. -/
def viewEmplaceBack (c : Cfg) (a : AoA T) (i : Nat) (v : T) : Counted (AoA T) := do
  free (a.shape.checkBounds c i)
  Shape.capacityCheck c a.shape i 1
  let p ← ptr a i
  let n ← Shape.sizeOfArray c a.shape i
  let values ← arrayManipulation.emplaceBack c a.values p n v
  let shape ← Shape.setSize c a.shape i (n + 1)
  pure { shape := shape, values := values }

/-- `appendToArray`: /repo/src/ArrayOfArraysView.hpp 482-492. -/
def viewAppendToArray [Inhabited T] (c : Cfg) (a : AoA T) (i : Nat) (vs : List T) : Counted (AoA T) := do
  free (a.shape.checkBounds c i)
  let p ← ptr a i
  let n ← Shape.sizeOfArray c a.shape i
  let values ← arrayManipulation.append c a.values p n vs
  Shape.capacityCheck c a.shape i vs.length
  let shape ← Shape.setSize c a.shape i (n + vs.length)
  pure { shape := shape, values := values }

/-- `emplace`: /repo/src/ArrayOfArraysView.hpp 503-513. -/
def viewEmplace (c : Cfg) (a : AoA T) (i j : Nat) (v : T) : Counted (AoA T) := do
  Shape.checkInsertBounds2 c a.shape i j
  Shape.capacityCheck c a.shape i 1
  let p ← ptr a i
  let n ← Shape.sizeOfArray c a.shape i
  let values ← arrayManipulation.emplace c a.values p n j v
  let shape ← Shape.setSize c a.shape i (n + 1)
  pure { shape := shape, values := values }

/-- `insertIntoArray`: /repo/src/ArrayOfArraysView.hpp 525-539. -/
def viewInsertIntoArray [Inhabited T] (c : Cfg) (a : AoA T) (i j : Nat) (vs : List T) : Counted (AoA T) := do
  Shape.checkInsertBounds2 c a.shape i j
  Shape.capacityCheck c a.shape i vs.length
  let p ← ptr a i
  let n ← Shape.sizeOfArray c a.shape i
  let values ← arrayManipulation.insert c a.values p n j vs
  let shape ← Shape.setSize c a.shape i (n + vs.length)
  pure { shape := shape, values := values }

/-- `eraseFromArray`: /repo/src/ArrayOfArraysView.hpp 547-555. -/
def eraseFromArray (c : Cfg) (a : AoA T) (i j n : Nat) : Counted (AoA T) := do
  Shape.checkBounds2 c a.shape i j
  let p ← ptr a i
  let size ← Shape.sizeOfArray c a.shape i
  let values ← arrayManipulation.erase c a.values p size j n
  let shape ← Shape.setSize c a.shape i (size - n)
  pure { shape := shape, values := values }

/-- `setCapacityOfArray`: /repo/src/ArrayOfArraysView.hpp 875-942. -/
def setCapacityOfArray (c : Cfg) (a : AoA T) (i newCapacity : Nat) : Counted (AoA T) := do
  free (a.shape.checkBounds c i)
  let cap ← Shape.capacityOfArray c a.shape i
  if newCapacity = cap then pure a
  else if cap < newCapacity then do
    let values ← Shape.growRow c a.shape i (newCapacity - cap) a.values
    let shape ← Shape.updateOffsets c a.shape i (· + (newCapacity - cap))
    pure { shape := shape, values := values }
  else do
    let off ← op (a.shape.offsets.read i)
    let prevSize ← Shape.sizeOfArray c a.shape i
    let shape ← Shape.setSize c a.shape i (min prevSize newCapacity)
    let values ← Shape.shrinkRow c shape i (cap - newCapacity) off (min prevSize newCapacity) prevSize a.values
    let shape ← Shape.updateOffsets c shape i (· - (cap - newCapacity))
    pure { shape := shape, values := values }

/-- `setCapacityOfArray( i, n )` if `grow`, nothing otherwise. -/
def growIf (c : Cfg) (grow : Bool) (a : AoA T) (i n : Nat) : Counted (AoA T) :=
  if grow then setCapacityOfArray c a i n else pure a

/-- `dynamicallyGrowArray`: /repo/src/ArrayOfArrays.hpp 474-483. -/
def dynamicallyGrowArray (c : Cfg) (a : AoA T) (i increase : Nat) : Counted (AoA T) := do
  let n ← Shape.sizeOfArray c a.shape i
  let cap ← Shape.capacityOfArray c a.shape i
  growIf c (decide (cap < n + increase)) a i (2 * (n + increase))

/-- `resizeArray`: /repo/src/ArrayOfArrays.hpp 410-425. -/
def resizeArray (c : Cfg) (a : AoA T) (i newSize : Nat) (v : T) : Counted (AoA T) := do
  free (a.shape.checkBounds c i)
  let cap ← Shape.capacityOfArray c a.shape i
  let a ← growIf c (decide (cap < newSize)) a i newSize
  let prevSize ← Shape.sizeOfArray c a.shape i
  free (a.shape.checkBounds c i)
  let p ← ptr a i
  let values ← arrayManipulation.resize c a.values p prevSize newSize v
  let shape ← Shape.setSize c a.shape i newSize
  pure { shape := shape, values := values }

/-- `emplaceBack`: /repo/src/ArrayOfArrays.hpp 347-352. -/
def emplaceBack (c : Cfg) (a : AoA T) (i : Nat) (v : T) : Counted (AoA T) := do
  let a ← dynamicallyGrowArray c a i 1
  viewEmplaceBack c a i v

/-- `appendToArray`: /repo/src/ArrayOfArrays.hpp 361-367. -/
def appendToArray [Inhabited T] (c : Cfg) (a : AoA T) (i : Nat) (vs : List T) : Counted (AoA T) := do
  let a ← dynamicallyGrowArray c a i vs.length
  viewAppendToArray c a i vs

/-- `emplace`: /repo/src/ArrayOfArrays.hpp 378-383. -/
def emplace (c : Cfg) (a : AoA T) (i j : Nat) (v : T) : Counted (AoA T) := do
  let a ← dynamicallyGrowArray c a i 1
  viewEmplace c a i j v

/-- `insertIntoArray`: /repo/src/ArrayOfArrays.hpp 393-399. -/
def insertIntoArray [Inhabited T] (c : Cfg) (a : AoA T) (i j : Nat) (vs : List T) : Counted (AoA T) := do
  let a ← dynamicallyGrowArray c a i vs.length
  viewInsertIntoArray c a i j vs

/-- `appendArray( n )`: /repo/src/ArrayOfArrays.hpp 269-279. -/
def appendArraySize [Inhabited T] (c : Cfg) (a : AoA T) (n : Nat) : Counted (AoA T) := do
  let shape ← Shape.appendRow c a.shape
  resizeArray c { a with shape := shape } (shape.numArrays - 1) n default

/-- `appendArray( first, last )`: /repo/src/ArrayOfArrays.hpp 286-296. -/
def appendArray [Inhabited T] (c : Cfg) (a : AoA T) (vs : List T) : Counted (AoA T) := do
  let shape ← Shape.appendRow c a.shape
  appendToArray c { a with shape := shape } (shape.numArrays - 1) vs

/-- `insertArray`: /repo/src/ArrayOfArrays.hpp 305-318. -/
def insertArray [Inhabited T] (c : Cfg) (a : AoA T) (i : Nat) (vs : List T) : Counted (AoA T) := do
  let shape ← Shape.insertRow c a.shape i
  appendToArray c { a with shape := shape } i vs

/-- `eraseArray`: /repo/src/ArrayOfArrays.hpp 324-332. -/
def eraseArray (c : Cfg) (a : AoA T) (i : Nat) : Counted (AoA T) := do
  free (a.shape.checkBounds c i)
  let a ← setCapacityOfArray c a i 0
  let shape ← Shape.eraseRow c a.shape i
  pure { a with shape := shape }

end AoA

/-! ## `CRSMatrix::addToRow` -/

namespace Crs

open LvArray.sortedArrayManipulation (less isSortedUnique)

variable {V : Type}

/-- `*acc += val`: /repo/src/CRSMatrixView.hpp 49-51. -/
def addAt [Add V] (c : Cfg) (m : Crs V) (row pos : Nat) (v : V) : Counted (Crs V) := do
  let x ← op (m.entries.read (m.rowPtr row + pos))
  let entries ← op (m.entries.write c (m.rowPtr row + pos) (x + v))
  pure { m with entries := entries }

/-- `columns[ pos ]`. -/
def column (m : Crs V) (row pos : Nat) : Counted Nat := op (m.column row pos)

/-- The assertions of /repo/src/CRSMatrixView.hpp 444-445, 518-519. -/
def assertColumn (c : Cfg) (m : Crs V) (row nnz pos col : Nat) : Counted Unit :=
  if c.debug then do
    free (errorIf (decide (nnz ≤ pos)))
    let x ← column m row pos
    free (errorIf (decide (x ≠ col)))
  else pure ()

/-- The loop of `addToRowBinarySearch`, /repo/src/CRSMatrixView.hpp 440-449. -/
def binaryLoop [Add V] (c : Cfg) (row nnz : Nat) : Crs V → Nat → List (Nat × V) → Counted (Crs V)
  | m, _, [] => pure m
  | m, curPos, (col, v) :: rest =>
    if nnz < curPos then free (.error (.ub .outOfBounds))
    else do
      let k ← sortedArrayManipulation.find c less (fun k => m.column row (curPos + k)) (nnz - curPos) col
      let pos := k + curPos
      assertColumn c m row nnz pos col
      let m ← addAt c m row pos v
      binaryLoop c row nnz m (pos + 1) rest

/-- `addToRowBinarySearch`: /repo/src/CRSMatrixView.hpp 427-450. -/
def addToRowBinarySearch [Add V] (c : Cfg) (m : Crs V) (row : Nat) (args : List (Nat × V)) : Counted (Crs V) := do
  free (errorIf (c.debug && !isSortedUnique less (args.map (·.1))))
  let nnz ← Shape.sizeOfArray c m.shape row
  free (m.shape.checkBounds c row)
  let _ ← op (m.shape.offsets.read row)
  binaryLoop c row nnz m 0 args

/-- The inner loop of `addToRowLinearSearch`, /repo/src/CRSMatrixView.hpp 480-487. -/
def linearScan (m : Crs V) (row curPos col : Nat) : Nat → Nat → Counted Nat
  | 0, _ => pure curPos
  | fuel + 1, j => do
    let x ← column m row j
    if x = col then pure j else linearScan m row curPos col fuel (j + 1)

/-- `LVARRAY_ASSERT_EQ( columns[ curPos ], cols[ i ] )`: /repo/src/CRSMatrixView.hpp 488. -/
def assertFound (c : Cfg) (m : Crs V) (row pos col : Nat) : Counted Unit :=
  if c.debug then do
    let x ← column m row pos
    free (errorIf (decide (x ≠ col)))
  else pure ()

/-- The loop of `addToRowLinearSearch`, /repo/src/CRSMatrixView.hpp 478-491. -/
def linearLoop [Add V] (c : Cfg) (row nnz : Nat) : Crs V → Nat → List (Nat × V) → Counted (Crs V)
  | m, _, [] => pure m
  | m, curPos, (col, v) :: rest => do
    let pos ← linearScan m row curPos col (nnz - curPos) curPos
    assertFound c m row pos col
    let m ← addAt c m row pos v
    linearLoop c row nnz m (pos + 1) rest

/-- `addToRowLinearSearch`: /repo/src/CRSMatrixView.hpp 464-492. -/
def addToRowLinearSearch [Add V] (c : Cfg) (m : Crs V) (row : Nat) (args : List (Nat × V)) : Counted (Crs V) := do
  free (errorIf (c.debug && !isSortedUnique less (args.map (·.1))))
  let nnz ← Shape.sizeOfArray c m.shape row
  free (m.shape.checkBounds c row)
  let _ ← op (m.shape.offsets.read row)
  linearLoop c row nnz m 0 args

/-- The loop of `addToRowBinarySearchUnsorted`, /repo/src/CRSMatrixView.hpp 515-523. -/
def unsortedLoop [Add V] (c : Cfg) (row nnz : Nat) : Crs V → List (Nat × V) → Counted (Crs V)
  | m, [] => pure m
  | m, (col, v) :: rest => do
    let pos ← sortedArrayManipulation.find c less (m.column row) nnz col
    assertColumn c m row nnz pos col
    let m ← addAt c m row pos v
    unsortedLoop c row nnz m rest

/-- `addToRowBinarySearchUnsorted`: /repo/src/CRSMatrixView.hpp 505-524. -/
def addToRowBinarySearchUnsorted [Add V] (c : Cfg) (m : Crs V) (row : Nat) (args : List (Nat × V)) : Counted (Crs V) := do
  let nnz ← Shape.sizeOfArray c m.shape row
  free (m.shape.checkBounds c row)
  let _ ← op (m.shape.offsets.read row)
  unsortedLoop c row nnz m args

/-- `addToRow`: /repo/src/CRSMatrixView.hpp 397-413. -/
def addToRow [Add V] (c : Cfg) (m : Crs V) (row : Nat) (args : List (Nat × V)) : Counted (Crs V) := do
  let nnz ← Shape.sizeOfArray c m.shape row
  if args.length < nnz / 4 ∧ 64 < nnz then addToRowBinarySearch c m row args else addToRowLinearSearch c m row args

end Crs

end Counted

end LvArray

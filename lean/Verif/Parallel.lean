import Verif.Concurrent

/-!
# Modifying different inner arrays from different threads

`ArrayOfArraysView`, `ArrayOfSetsView`, `SparsityPatternView` and `CRSMatrixView` are modified in parallel loops in which every
thread works on inner arrays (sets, rows) of its own (/repo/docs/sphinx/ArrayOfArrays.rst 212,
/repo/benchmarks/benchmarkArrayOfArraysNodeToElementMapConstructionKernels.cpp).  Here the member functions of the views are
written as programs: sequences of single accesses to memory, so that the accesses of several threads can be interleaved in
every order.  `ParallelLemmas.lean` and the files after it prove that a program that runs alone does exactly what the function
of the same name in the sequential model does.
-/

namespace LvArray

/-- Offsets, sizes, values (columns) and entries; an `ArrayOfArrays` has no entries: /repo/src/ArrayOfArraysView.hpp 957-975,
/repo/src/CRSMatrixView.hpp 573-574. -/
structure RowStore (T V : Type) where
  shape : Shape
  values : Buf T
  entries : Buf V

namespace Parallel

variable {T V X I α β : Type}

/-- An access to one slot of a buffer, `k` slots behind the pointer to the inner array.  (Constructing one object from another
and assigning one to another touch two slots of the same inner array; they are one access here.) -/
inductive BufAct (X : Type) where
  /-- `LVARRAY_ASSERT( ptr != nullptr )` -/
  | notNull
  /-- `new ( ptr + k ) T( v )` -/
  | construct (k : Nat) (v : X)
  /-- `new ( ptr + k + n ) T( std::move( ptr[ k ] ) )` -/
  | moveUp (k n : Nat)
  /-- `ptr[ k - n ] = std::move( ptr[ k ] )` -/
  | moveDown (k n : Nat)
  /-- `ptr[ k ].~T()` -/
  | destroy (k : Nat)
  /-- `ptr[ k ] = v` -/
  | assign (k : Nat) (v : X)

/-- Perform the access; `p` is the position of the pointer. -/
def BufAct.exec (c : Cfg) (p : Nat) (b : Buf X) : BufAct X → R (Buf X)
  | .notNull => arrayManipulation.assertNonNull c b p >>= fun _ => .ok b
  | .construct k v => b.construct c (p + k) v
  | .moveUp k n => b.moveConstruct c (p + k + n) (p + k)
  | .moveDown k n => if p + k < n then .error (.ub .outOfBounds) else b.moveAssign c (p + k - n) (p + k)
  | .destroy k => b.destroyAt c (p + k)
  | .assign k v => b.write c (p + k) v

/-- An access that returns nothing. -/
inductive Act (T V : Type) where
  /-- the bounds check `i < m_numArrays` -/
  | checkRow
  /-- reading `m_offsets[ i ]` to form the pointer -/
  | base
  /-- `m_sizes[ i ] = n` -/
  | setSize (n : Nat)
  /-- an access to a value -/
  | onValue (b : BufAct T)
  /-- an access to an entry -/
  | onEntry (b : BufAct V)

/-- An access that returns a number. -/
inductive Query where
  /-- `sizeOfArray( i )` -/
  | size
  /-- `capacityOfArray( i )` -/
  | capacity
  deriving DecidableEq

/-- Two configurations: of the values and of the entries.  (For a matrix the values are columns, which are integers.) -/
structure Cfgs where
  values : Cfg
  entries : Cfg

/-- Perform an access to inner array `i`. -/
def Act.exec (c : Cfgs) (i : Nat) (s : RowStore T V) : Act T V → R (RowStore T V)
  | .checkRow => s.shape.checkBounds c.values i >>= fun _ => .ok s
  | .base => s.shape.offsets.read i >>= fun _ => .ok s
  | .setSize n => s.shape.setSize c.values i n >>= fun shape => .ok { s with shape := shape }
  | .onValue b => do
    let p ← s.shape.offsets.read i
    let values ← b.exec c.values p s.values
    .ok { s with values := values }
  | .onEntry b => do
    let p ← s.shape.offsets.read i
    let entries ← b.exec c.entries p s.entries
    .ok { s with entries := entries }

/-- Perform an access that returns a number. -/
def Query.exec (c : Cfgs) (i : Nat) (s : RowStore T V) : Query → R Nat
  | .size => s.shape.sizeOfArray c.values i
  | .capacity => s.shape.capacityOfArray c.values i

/-- `ptr[ k ]`. -/
def readValue (i k : Nat) (s : RowStore T V) : R T := do
  let p ← s.shape.offsets.read i
  s.values.read (p + k)

/-- The entry behind the `k`-th column. -/
def readEntry (i k : Nat) (s : RowStore T V) : R V := do
  let p ← s.shape.offsets.read i
  s.entries.read (p + k)

/-- A program that returns an `α`.  Every access names the inner array it belongs to by an element of `I`. -/
inductive Prog (I T V α : Type) where
  | ret (x : α)
  | fail (e : Err)
  | act (i : I) (a : Act T V) (next : Prog I T V α)
  | num (i : I) (q : Query) (next : Nat → Prog I T V α)
  | val (i : I) (k : Nat) (next : T → Prog I T V α)
  | ent (i : I) (k : Nat) (next : V → Prog I T V α)

namespace Prog

/-- One program after the other. -/
def bind : Prog I T V α → (α → Prog I T V β) → Prog I T V β
  | ret x, f => f x
  | fail e, _ => fail e
  | act i a next, f => act i a (next.bind f)
  | num i q next, f => num i q (fun n => (next n).bind f)
  | val i k next, f => val i k (fun x => (next x).bind f)
  | ent i k next, f => ent i k (fun x => (next x).bind f)

instance : Monad (Prog I T V) where
  pure := ret
  bind := bind

/-- The same program for the inner arrays named by `f`. -/
def relabel {J : Type} (f : I → J) : Prog I T V α → Prog J T V α
  | ret x => ret x
  | fail e => fail e
  | act i a next => act (f i) a (next.relabel f)
  | num i q next => num (f i) q (fun n => (next n).relabel f)
  | val i k next => val (f i) k (fun x => (next x).relabel f)
  | ent i k next => ent (f i) k (fun x => (next x).relabel f)

/-- Run a program alone. -/
def run (c : Cfgs) (row : I → Nat) : Prog I T V α → RowStore T V → R (α × RowStore T V)
  | ret x, s => .ok (x, s)
  | fail e, _ => .error e
  | act i a next, s => a.exec c (row i) s >>= fun s => next.run c row s
  | num i q next, s => q.exec c (row i) s >>= fun n => (next n).run c row s
  | val i k next, s => readValue (row i) k s >>= fun x => (next x).run c row s
  | ent i k next, s => readEntry (row i) k s >>= fun x => (next x).run c row s

/-- One turn of a thread: its next access. -/
def turn (c : Cfgs) (s : RowStore T V) : Prog Nat T V α → R (RowStore T V × Prog Nat T V α)
  | ret x => .ok (s, ret x)
  | fail e => .error e
  | act i a next => a.exec c i s >>= fun s => .ok (s, next)
  | num i q next => q.exec c i s >>= fun n => .ok (s, next n)
  | val i k next => readValue i k s >>= fun x => .ok (s, next x)
  | ent i k next => readEntry i k s >>= fun x => .ok (s, next x)

end Prog

/-- A member function for one inner array, which is chosen when it is called. -/
abbrev Code (T V α : Type) := Prog Unit T V α

/-- The call for inner array `i`. -/
def Code.at (i : Nat) (p : Code T V α) : Prog Nat T V α := p.relabel fun _ => i

/-! ## The member functions as programs -/

/-- One access to a value. -/
def onValue (b : BufAct T) : Code T V Unit := .act () (.onValue b) (.ret ())
/-- One access to an entry. -/
def onEntry (b : BufAct V) : Code T V Unit := .act () (.onEntry b) (.ret ())
/-- `ARRAYOFARRAYS_CHECK_BOUNDS( i )`. -/
def checkRow : Code T V Unit := .act () .checkRow (.ret ())
/-- Form the pointer. -/
def base : Code T V Unit := .act () .base (.ret ())
/-- `m_sizes[ i ] = n`. -/
def setSize (n : Nat) : Code T V Unit := .act () (.setSize n) (.ret ())
/-- `sizeOfArray( i )`. -/
def size : Code T V Nat := .num () .size .ret
/-- `capacityOfArray( i )`. -/
def capacity : Code T V Nat := .num () .capacity .ret
/-- `ptr[ k ]`. -/
def value (k : Nat) : Code T V T := .val () k .ret
/-- `entries[ k ]`. -/
def entry (k : Nat) : Code T V V := .ent () k .ret
/-- `LVARRAY_ERROR_IF( cond )`. -/
def stopIf (cond : Bool) : Code T V Unit := if cond then .fail .abort else .ret ()

/-- `for( i = lo; i < lo + n; ++i ) f( i )`. -/
def up : Nat → Nat → (Nat → Code T V Unit) → Code T V Unit
  | 0, _, _ => .ret ()
  | n + 1, lo, f => do f lo; up n (lo + 1) f

/-- `for( i = lo + n - 1; i >= lo; --i ) f( i )`. -/
def down : Nat → Nat → (Nat → Code T V Unit) → Code T V Unit
  | 0, _, _ => .ret ()
  | n + 1, lo, f => do f (lo + n); down n lo f

/-- `ARRAYOFARRAYS_CHECK_INSERT_BOUNDS2( i, j )`: /repo/src/ArrayOfArraysView.hpp 66-70, 129. -/
def checkInsertBounds2 (c : Cfg) (j : Nat) : Code T V Unit :=
  if c.boundsCheck then do
    checkRow
    let n ← size
    stopIf (decide (n < j))
  else .ret ()

/-- `ARRAYOFARRAYS_CHECK_BOUNDS2( i, j )`: /repo/src/ArrayOfArraysView.hpp 45-49, 114. -/
def checkBounds2 (c : Cfg) (j : Nat) : Code T V Unit :=
  if c.boundsCheck then do
    checkRow
    let n ← size
    stopIf (decide (n ≤ j))
  else .ret ()

/-- `ARRAYOFARRAYS_CAPACITY_CHECK( i, increase )`: /repo/src/ArrayOfArraysView.hpp 78-82, 137. -/
def capacityCheck (c : Cfg) (increase : Nat) : Code T V Unit :=
  if c.boundsCheck then do
    let n ← size
    let m ← capacity
    stopIf (decide (m < n + increase))
  else .ret ()

section manipulation

/-! `on` is `onValue` or `onEntry`: which of the two buffers the function of `arrayManipulation` is called for. -/
variable (on : BufAct X → Code T V Unit)

/-- /repo/src/arrayManipulation.hpp 149-163. -/
def destroy (k n : Nat) : Code T V Unit := up n k fun i => on (.destroy i)

/-- The construction loops: /repo/src/arrayManipulation.hpp 452-458, 514-518. -/
def constructRange (k n : Nat) (v : Nat → X) : Code T V Unit := up n k fun i => on (.construct i (v (i - k)))

/-- /repo/src/arrayManipulation.hpp 322-346. -/
def shiftUp (c : Cfg) (size index n : Nat) : Code T V Unit := do
  stopIf (c.boundsCheck && decide (size < index))
  if n = 0 then .ret ()
  else do
    down (size - index) index fun cur => on (.moveUp cur n)
    destroy on index ((if index + n < size then index + n else size) - index)

/-- /repo/src/arrayManipulation.hpp 359-379. -/
def shiftDown (c : Cfg) (size index n : Nat) : Code T V Unit := do
  stopIf (c.boundsCheck && decide (size < index))
  stopIf (c.debug && decide (index < n))
  if n = 0 then .ret ()
  else up (size - index) index fun i => on (.moveDown i n)

/-- /repo/src/arrayManipulation.hpp 392-409. -/
def erase (c : Cfg) (size index n : Nat) : Code T V Unit :=
  if n = 0 then .ret ()
  else do
    stopIf (c.boundsCheck && decide (size ≤ index))
    stopIf (c.boundsCheck && decide (size ≤ index + n - 1))
    shiftDown on c size (index + n) n
    destroy on (size - n) n

/-- /repo/src/arrayManipulation.hpp 474-487. -/
def emplace (c : Cfg) (size index : Nat) (v : X) : Code T V Unit := do
  on .notNull
  stopIf (c.boundsCheck && decide (size < index))
  shiftUp on c size index 1
  on (.construct index v)

/-- /repo/src/arrayManipulation.hpp 501-519. -/
def insert [Inhabited X] (c : Cfg) (size index : Nat) (vs : List X) : Code T V Unit := do
  on .notNull
  stopIf (c.boundsCheck && decide (size < index))
  shiftUp on c size index vs.length
  constructRange on index vs.length (fun i => vs.getD i default)

end manipulation

/-! ### `ArrayOfArraysView` -/

/-- `emplaceBack( i, v )`: /repo/src/ArrayOfArraysView.hpp 439-449, /repo/src/arrayManipulation.hpp 421-429. -/
def viewEmplaceBack (c : Cfg) (v : T) : Code T V Unit := do
  checkRow
  capacityCheck c 1
  base
  let n ← size
  onValue .notNull
  onValue (.construct n v)
  setSize (n + 1)

/-- `appendToArray( i, first, last )`: /repo/src/ArrayOfArraysView.hpp 482-492, /repo/src/arrayManipulation.hpp 443-461. -/
def viewAppendToArray [Inhabited T] (c : Cfg) (vs : List T) : Code T V Unit := do
  checkRow
  base
  let n ← size
  constructRange onValue n vs.length (fun i => vs.getD i default)
  capacityCheck c vs.length
  setSize (n + vs.length)

/-- `emplace( i, j, v )`: /repo/src/ArrayOfArraysView.hpp 503-513. -/
def viewEmplace (c : Cfg) (j : Nat) (v : T) : Code T V Unit := do
  checkInsertBounds2 c j
  capacityCheck c 1
  base
  let n ← size
  emplace onValue c n j v
  setSize (n + 1)

/-- `insertIntoArray( i, j, first, last )`: /repo/src/ArrayOfArraysView.hpp 525-539. -/
def viewInsertIntoArray [Inhabited T] (c : Cfg) (j : Nat) (vs : List T) : Code T V Unit := do
  checkInsertBounds2 c j
  capacityCheck c vs.length
  base
  let n ← size
  insert onValue c n j vs
  setSize (n + vs.length)

/-- `eraseFromArray( i, j, n )`: /repo/src/ArrayOfArraysView.hpp 547-555. -/
def eraseFromArray (c : Cfg) (j n : Nat) : Code T V Unit := do
  checkBounds2 c j
  base
  let m ← size
  erase onValue c m j n
  setSize (m - n)

/-- `a( i, j ) = v`: /repo/src/ArrayOfArraysView.hpp 417-421. -/
def setValue (c : Cfg) (j : Nat) (v : T) : Code T V Unit := do
  checkBounds2 c j
  base
  onValue (.assign j v)

/-- Reading `a( i, j )`: /repo/src/ArrayOfArraysView.hpp 417-421. -/
def getValue (c : Cfg) (j : Nat) : Code T V T := do
  checkBounds2 c j
  base
  value j

/-! ### `sortedArrayManipulation` -/

section sorted

open sortedArrayManipulation (less isSorted isSortedUnique)

/-- The values `ptr[ lo ], ..., ptr[ lo + n - 1 ]` in this order. -/
def readAll : Nat → Nat → Code T V (List T)
  | 0, _ => .ret []
  | n + 1, lo => do
    let x ← value lo
    let xs ← readAll n (lo + 1)
    .ret (x :: xs)

/-- A debug-only assertion about `n` values from `lo` on. -/
def assertRange (c : Cfg) (lo n : Nat) (test : List T → Bool) : Code T V Unit :=
  if c.debug then do
    let xs ← readAll n lo
    stopIf (!test xs)
  else .ret ()

/-- The loop of `find`: /repo/src/sortedArrayManipulation.hpp 421-434, on the values from `lo` on. -/
def findLoop (comp : T → T → Bool) (lo : Nat) (v : T) : Nat → Nat → Nat → Code T V Nat
  | 0, lower, _ => .ret lower
  | fuel + 1, lower, upper =>
    if lower = upper then .ret lower
    else do
      let x ← value (lo + (lower + upper) / 2)
      if comp x v then findLoop comp lo v fuel ((lower + upper) / 2 + 1) upper
      else findLoop comp lo v fuel lower ((lower + upper) / 2)

/-- /repo/src/sortedArrayManipulation.hpp 408-436. -/
def find (c : Cfg) (comp : T → T → Bool) (lo size : Nat) (v : T) : Code T V Nat := do
  assertRange c lo size (isSorted comp)
  findLoop comp lo v size 0 size

variable [LT T] [DecidableLT T] [DecidableEq T]

/-- `( pos != size ) && ( ptr[ pos ] == value )`. -/
def isAt (size pos : Nat) (v : T) : Code T V Bool :=
  if pos = size then .ret false else do
    let x ← value pos
    .ret (decide (x = v))

/-- What the call backs do to the entries: /repo/src/sortedArrayManipulation.hpp 71-158.  `incrementSize` of a view only checks
the capacity. -/
structure Callbacks (T V : Type) where
  incrementSize : Nat → Code T V Unit
  insert : Nat → Code T V Unit
  set : Nat → Nat → Code T V Unit
  insertMany : Nat → Nat → Nat → Nat → Code T V Unit
  remove : Nat → Code T V Unit
  removeMany : Nat → Nat → Nat → Code T V Unit

variable (c : Cfg) (k : Callbacks T V)

/-- Single value `remove`: /repo/src/sortedArrayManipulation.hpp 470-494. -/
def removeOne (size : Nat) (v : T) : Code T V Bool := do
  let index ← find c less 0 size v
  let found ← isAt size index v
  if found then do
    erase onValue c size index 1
    k.remove index
    .ret true
  else .ret false

/-- The search loops of the range `remove`: /repo/src/sortedArrayManipulation.hpp 527-542, 557-576. -/
def seek (size : Nat) : Nat → List T → Code T V (Nat × List T)
  | pos, [] => .ret (pos, [])
  | pos, v :: vs => do
    let j ← find c less pos (size - pos) v
    if pos + j = size then .ret (size, [])
    else do
      let x ← value (pos + j)
      if x = v then .ret (pos + j, v :: vs) else seek size (pos + j) vs

/-- The main loop of the range `remove`: /repo/src/sortedArrayManipulation.hpp 552-595. -/
def removeLoop (size : Nat) : Nat → Nat → Nat → List T → Code T V Nat
  | _, _, nRemoved, [] => .ret nRemoved
  | 0, _, nRemoved, _ :: _ => .ret nRemoved
  | fuel + 1, pos, nRemoved, _ :: rest => do
    let r ← seek c size pos rest
    let nextPos := if r.2.isEmpty then size else r.1
    shiftDown onValue c nextPos (pos + 1) (nRemoved + 1)
    k.removeMany (nRemoved + 1) pos nextPos
    if nextPos = size then .ret (nRemoved + 1)
    else removeLoop size fuel nextPos (nRemoved + 1) r.2

/-- Range `remove`: /repo/src/sortedArrayManipulation.hpp 510-604. -/
def removeRange (size : Nat) (vs : List T) : Code T V Nat := do
  assertRange c 0 size (isSortedUnique less)
  stopIf (c.debug && !isSortedUnique less vs)
  let r ← seek c size 0 vs
  if r.2.isEmpty then .ret 0
  else do
    let nRemoved ← removeLoop c k size vs.length r.1 0 r.2
    destroy onValue (size - nRemoved) nRemoved
    .ret nRemoved

/-- The position at which a single value is inserted: /repo/src/sortedArrayManipulation.hpp 626-640. -/
def insertPosition (size : Nat) (v : T) : Code T V Nat :=
  if size = 0 then .ret 0
  else do
    let x0 ← value 0
    if v < x0 then .ret 0
    else do
      let x1 ← value (size - 1)
      if x1 < v then .ret size
      else find c less 0 size v

/-- Single value `insert`: /repo/src/sortedArrayManipulation.hpp 617-656. -/
def insertOne (size : Nat) (v : T) : Code T V Bool := do
  assertRange c 0 size (isSortedUnique less)
  let pos ← insertPosition c size v
  let present ← isAt size pos v
  if present then do
    k.incrementSize 0
    .ret false
  else do
    k.incrementSize 1
    emplace onValue c size pos v
    k.insert pos
    .ret true

/-- First pass of the range `insert`: /repo/src/sortedArrayManipulation.hpp 705-720. -/
def countLoop (size : Nat) : List T → Nat → Nat → Code T V Nat
  | [], _, nToInsert => .ret nToInsert
  | v :: vs, upperBound, nToInsert => do
    let upperBound ← find c less 0 upperBound v
    let present ← isAt size upperBound v
    countLoop size vs upperBound (if present then nToInsert else nToInsert + 1)

omit [LT T] [DecidableLT T] [DecidableEq T] in
/-- `new ( ptr + k - 1 ) T( v )`: /repo/src/sortedArrayManipulation.hpp 749. -/
def constructBefore (k : Nat) (v : T) : Code T V Unit :=
  if k = 0 then .fail (.ub .outOfBounds) else onValue (.construct (k - 1) v)

/-- Second pass of the range `insert`: /repo/src/sortedArrayManipulation.hpp 731-755. -/
def insertLoop : List T → Nat → Nat → Code T V Unit
  | [], _, _ => .ret ()
  | v :: vs, upperBound, nLeft => do
    let pos ← find c less 0 upperBound v
    let present ← isAt upperBound pos v
    if present then insertLoop vs upperBound nLeft
    else do
      shiftUp onValue c upperBound pos nLeft
      constructBefore (pos + nLeft) v
      k.insertMany nLeft vs.length pos upperBound
      insertLoop vs pos (nLeft - 1)

/-- Range `insert`: /repo/src/sortedArrayManipulation.hpp 673-758. -/
def insertRange [Inhabited T] (size : Nat) (vs : List T) : Code T V Nat := do
  assertRange c 0 size (isSortedUnique less)
  stopIf (c.debug && !isSortedUnique less vs)
  if size = 0 then do
    k.incrementSize vs.length
    up vs.length 0 fun i => do
      onValue (.construct i (vs.getD i default))
      k.set i i
    .ret vs.length
  else do
    let nToInsert ← countLoop c size vs.reverse size 0
    k.incrementSize nToInsert
    if nToInsert = 0 then .ret 0
    else do
      insertLoop c k vs.reverse size nToInsert
      .ret nToInsert

/-! ### `ArrayOfSetsView` -/

omit [LT T] [DecidableLT T] [DecidableEq T] in
/-- The call backs of a view of sets: /repo/src/ArrayOfSetsView.hpp 470-512, and the empty ones of
/repo/src/sortedArrayManipulation.hpp 71-158. -/
def setCallbacks : Callbacks T V where
  incrementSize := fun n => capacityCheck c n
  insert := fun _ => .ret ()
  set := fun _ _ => .ret ()
  insertMany := fun _ _ _ _ => .ret ()
  remove := fun _ => .ret ()
  removeMany := fun _ _ _ => .ret ()

/-- `insertIntoSet( i, value )`: /repo/src/ArrayOfSetsView.hpp 362-373. -/
def insertIntoSet (v : T) : Code T V Bool := do
  checkRow
  let n ← size
  base
  let r ← insertOne c (setCallbacks c) n v
  setSize (n + (if r then 1 else 0))
  .ret r

/-- `insertIntoSet( i, first, last )`: /repo/src/ArrayOfSetsView.hpp 386-406. -/
def insertRangeIntoSet [Inhabited T] (vs : List T) : Code T V Nat := do
  checkRow
  let n ← size
  base
  let r ← insertRange c (setCallbacks c) n vs
  setSize (n + r)
  .ret r

/-- `removeFromSet( i, value )`: /repo/src/ArrayOfSetsView.hpp 416-427. -/
def removeFromSet (v : T) : Code T V Bool := do
  checkRow
  let n ← size
  base
  let r ← removeOne c (setCallbacks c) n v
  setSize (n - (if r then 1 else 0))
  .ret r

/-- `removeFromSet( i, first, last )`: /repo/src/ArrayOfSetsView.hpp 440-460. -/
def removeRangeFromSet (vs : List T) : Code T V Nat := do
  checkRow
  let n ← size
  base
  let r ← removeRange c (setCallbacks c) n vs
  setSize (n - r)
  .ret r

/-- `contains( i, value )`: /repo/src/ArrayOfSetsView.hpp 191-200. -/
def contains (v : T) : Code T V Bool := do
  checkRow
  let n ← size
  base
  let pos ← find c less 0 n v
  isAt n pos v

end sorted

/-! ## Threads -/

/-- A thread makes its calls one after the other and keeps what they return. -/
def thread : List (Nat × Code T V α) → Prog Nat T V (List α)
  | [] => .ret []
  | (i, p) :: calls => do
    let x ← p.at i
    let xs ← thread calls
    .ret (x :: xs)

end Parallel

end LvArray

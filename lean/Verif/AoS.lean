import Verif.AoA
import Verif.SortedManip
import Verif.Sort

/-!
# `ArrayOfSetsView` and `ArrayOfSets`

/repo/src/ArrayOfSetsView.hpp and /repo/src/ArrayOfSets.hpp.  Both classes add no members to `ArrayOfArraysView`, so their
state is that of `AoA`; `sizeOfSet`, `capacityOfSet`, `setCapacityOfSet`, `reserve`, `reserveValues`, `compress`, `resize`
and `resizeFromCapacities` are the functions of the parent class.
-/

namespace LvArray

variable {T : Type}

/-- `getSetValues( i )` as a position in the buffer of values, /repo/src/ArrayOfSetsView.hpp 344-346.  Only used after the
offset has been read successfully. -/
def AoA.rowPtr (a : AoA T) (i : Nat) : Nat :=
  match a.shape.offsets.cell i with
  | .live p => p
  | _ => 0

namespace AoS

/-- The call backs for set `i`, apart from `incrementSize` the empty ones of /repo/src/sortedArrayManipulation.hpp 71-158. -/
def target (inc : AoA T → Nat → R (AoA T)) (i : Nat) : sortedArrayManipulation.Target (AoA T) T where
  buf := fun a => a.values
  ptr := fun a => a.rowPtr i
  put := fun a b => { a with values := b }
  incrementSize := inc
  insert := fun a _ => .ok a
  set := fun a _ _ => .ok a
  insertMany := fun a _ _ _ _ => .ok a
  remove := fun a _ => .ok a
  removeMany := fun a _ _ _ => .ok a

/-- `incrementSize` of the call backs of the owning class, /repo/src/ArrayOfSets.hpp 487-529: it grows the set exactly like
`ArrayOfArrays::dynamicallyGrowArray`. -/
def growing (c : Cfg) (i : Nat) (a : AoA T) (n : Nat) : R (AoA T) := a.dynamicallyGrowArray c i n

/-- `incrementSize` of the call backs of the view, /repo/src/ArrayOfSetsView.hpp 470-512: it checks the capacity. -/
def checking (c : Cfg) (i : Nat) (a : AoA T) (n : Nat) : R (AoA T) := a.shape.capacityCheck c i n >>= fun _ => .ok a

variable [LT T] [DecidableLT T] [DecidableEq T]

/-- `insertIntoSet( i, value )`: /repo/src/ArrayOfSets.hpp 377-378, /repo/src/ArrayOfSetsView.hpp 362-373. -/
def insertIntoSet (c : Cfg) (inc : AoA T → Nat → R (AoA T)) (a : AoA T) (i : Nat) (v : T) : R (AoA T × Bool) := do
  a.shape.checkBounds c i
  let n ← a.shape.sizeOfArray c i
  let _ ← a.ptr i
  let r ← sortedArrayManipulation.insertOne c (target inc i) a n v
  let shape ← r.1.shape.setSize c i (n + (if r.2 then 1 else 0))
  .ok ({ r.1 with shape := shape }, r.2)

/-- `insertIntoSet( i, first, last )`: /repo/src/ArrayOfSets.hpp 391-393, /repo/src/ArrayOfSetsView.hpp 386-406. -/
def insertRangeIntoSet [Inhabited T] (c : Cfg) (inc : AoA T → Nat → R (AoA T)) (a : AoA T) (i : Nat) (vs : List T) : R (AoA T × Nat) := do
  a.shape.checkBounds c i
  let n ← a.shape.sizeOfArray c i
  let _ ← a.ptr i
  let r ← sortedArrayManipulation.insertRange c (target inc i) a n vs
  let shape ← r.1.shape.setSize c i (n + r.2)
  .ok ({ r.1 with shape := shape }, r.2)

/-- `removeFromSet( i, value )`: /repo/src/ArrayOfSets.hpp 399-401, /repo/src/ArrayOfSetsView.hpp 416-427. -/
def removeFromSet (c : Cfg) (a : AoA T) (i : Nat) (v : T) : R (AoA T × Bool) := do
  a.shape.checkBounds c i
  let n ← a.shape.sizeOfArray c i
  let _ ← a.ptr i
  let r ← sortedArrayManipulation.removeOne c (target (checking c i) i) a n v
  let shape ← r.1.shape.setSize c i (n - (if r.2 then 1 else 0))
  .ok ({ r.1 with shape := shape }, r.2)

/-- `removeFromSet( i, first, last )`: /repo/src/ArrayOfSets.hpp 414-417, /repo/src/ArrayOfSetsView.hpp 440-460. -/
def removeRangeFromSet (c : Cfg) (a : AoA T) (i : Nat) (vs : List T) : R (AoA T × Nat) := do
  a.shape.checkBounds c i
  let n ← a.shape.sizeOfArray c i
  let _ ← a.ptr i
  let r ← sortedArrayManipulation.removeRange c (target (checking c i) i) a n vs
  let shape ← r.1.shape.setSize c i (n - r.2)
  .ok ({ r.1 with shape := shape }, r.2)

/-- `contains( i, value )`: /repo/src/ArrayOfSetsView.hpp 191-200. -/
def contains (c : Cfg) (a : AoA T) (i : Nat) (v : T) : R Bool := do
  a.shape.checkBounds c i
  let n ← a.shape.sizeOfArray c i
  let p ← a.ptr i
  sortedArrayManipulation.contains c sortedArrayManipulation.less (fun k => a.values.read (p + k)) n v

omit [LT T] [DecidableLT T] [DecidableEq T]

/-- `clearSet( i )`: /repo/src/ArrayOfSets.hpp 423-431. -/
def clearSet [Inhabited T] (c : Cfg) (a : AoA T) (i : Nat) : R (AoA T) := do
  a.shape.checkBounds c i
  let prevSize ← a.shape.sizeOfArray c i
  let p ← a.ptr i
  let values ← arrayManipulation.resize c a.values p prevSize 0 default
  let shape ← a.shape.setSize c i 0
  .ok { shape := shape, values := values }

/-- `reserveCapacityOfSet( i, n )`: /repo/src/ArrayOfSets.hpp 447-452. -/
def reserveCapacityOfSet (c : Cfg) (a : AoA T) (i n : Nat) : R (AoA T) := do
  a.shape.checkBounds c i
  let cap ← a.shape.capacityOfArray c i
  a.growIf c (decide (cap < n)) i n

/-- `appendSet( capacity )`: /repo/src/ArrayOfSets.hpp 317-326. -/
def appendSet (c : Cfg) (a : AoA T) (n : Nat) : R (AoA T) := do
  let shape ← a.shape.appendRow c
  AoA.setCapacityOfArray c { a with shape := shape } (shape.numArrays - 1) n

/-- `insertSet( i, capacity )`: /repo/src/ArrayOfSets.hpp 333-347. -/
def insertSet (c : Cfg) (a : AoA T) (i n : Nat) : R (AoA T) := do
  let shape ← a.shape.insertRow c i
  AoA.setCapacityOfArray c { a with shape := shape } i n

/-- `eraseSet( i )`, /repo/src/ArrayOfSets.hpp 353-362, is line for line `ArrayOfArrays::eraseArray`. -/
def eraseSet (c : Cfg) (a : AoA T) (i : Nat) : R (AoA T) := a.eraseArray c i

/-! ## `assimilate` -/

/-- `sortedArrayManipulation::Description`, /repo/src/sortedArrayManipulation.hpp 46-60. -/
inductive Description where
  | sortedUnique
  | unsortedNoDuplicates
  | sortedWithDuplicates
  | unsortedWithDuplicates
  deriving DecidableEq, Repr

/-- The range of `n` slots from `p` on as a buffer of its own: an access outside it is undefined behaviour, which is stricter
than the code needs (the neighbouring slots exist). -/
def sub (b : Buf T) (p n : Nat) : Buf T :=
  { kind := b.kind, cap := n, cell := fun k => if k < n then b.cell (p + k) else .raw, lostLive := b.lostLive,
    lostMoved := b.lostMoved, moves := b.moves }

/-- Put the slots of such a range back. -/
def putSub (b : Buf T) (p : Nat) (s : Buf T) : Buf T :=
  { b with cell := fun k => if p ≤ k ∧ k < p + s.cap then s.cell (k - p) else b.cell k
           lostLive := s.lostLive
           lostMoved := s.lostMoved
           moves := s.moves }

variable [LT T] [DecidableLT T]

/-- The body of one of the three loops of `assimilate` for set `i`, /repo/src/ArrayOfSets.hpp 136-141, 147-155 and 160-168:
`f` is the algorithm run on the values of the set; it returns the number of values to keep.  `std::sort` keeps all; the first
loop does not call `resize` and does not write the size, here both happen with the unchanged size, which has no effect. -/
def assimilateRow [Inhabited T] (c : Cfg) (f : Buf T → R (Nat × Buf T)) (i : Nat) (a : AoA T) : R (AoA T) := do
  let p ← a.ptr i
  let n ← a.shape.sizeOfArray c i
  let r ← f (sub a.values p n)
  let values := putSub a.values p r.2
  let values ← arrayManipulation.resize c values p n r.1 default
  let shape ← a.shape.setSize c i r.1
  .ok { shape := shape, values := values }

/-- `assimilate( ArrayOfArrays &&, desc )`: /repo/src/ArrayOfSets.hpp 128-173.  `sort` is `std::sort`.  `consistencyCheck()` is
compiled only if `ARRAY_BOUNDS_CHECK` is defined; no file of the project defines that macro (the configured one is
`LVARRAY_BOUNDS_CHECK`), so it is not part of the function.  Returns the object and the array it took over, afterwards. -/
def assimilate [Inhabited T] (c : Cfg) (sort : Buf T → R (Buf T)) (a src : AoA T) (desc : Description) :
    R (AoA T × AoA T) := do
  let _ ← a.free c
  let m := AoA.moveConstruct src
  let a := m.1
  let f : Option (Buf T → R (Nat × Buf T)) :=
    match desc with
    | .sortedUnique => none
    | .unsortedNoDuplicates => some (fun b => sort b >>= fun b' => .ok (b.cap, b'))
    | .sortedWithDuplicates => some (sortedArrayManipulation.removeDuplicates c sortedArrayManipulation.less)
    | .unsortedWithDuplicates => some (sortedArrayManipulation.makeSortedUnique c sortedArrayManipulation.less sort)
  let a ← match f with
    | none => .ok a
    | some f => forUp a.shape.numArrays 0 (fun i a => assimilateRow c f i a) a
  .ok (a, m.2)

end AoS

/-- Calls on an `ArrayOfSets`. -/
inductive AoSOp (T : Type) where
  | insert (i : Nat) (v : T)
  | insertMany (i : Nat) (vs : List T)
  | remove (i : Nat) (v : T)
  | removeMany (i : Nat) (vs : List T)
  | contains (i : Nat) (v : T)
  | get (i j : Nat)
  | clearSet (i : Nat)
  | setCapacityOfSet (i n : Nat)
  | reserveCapacityOfSet (i n : Nat)
  | appendSet (capacity : Nat)
  | insertSet (i capacity : Nat)
  | eraseSet (i : Nat)
  | resize (numSets defaultCapacity : Nat)
  | resizeFromCapacities (capacities : List Nat)
  | reserve (n : Nat)
  | reserveValues (n : Nat)
  | compress
  deriving Repr

/-- What a call on an `ArrayOfSets` returns. -/
inductive AoSOut (T : Type) where
  | unit
  | bool (b : Bool)
  | num (n : Nat)
  | val (v : T)
  deriving Repr, DecidableEq

variable [LT T] [DecidableLT T] [DecidableEq T]

/-- One call (dispatch only, no code of its own in /repo). -/
def AoS.step [Inhabited T] (c : Cfg) (a : AoA T) : AoSOp T → R (AoA T × AoSOut T)
  | .insert i v => do let r ← AoS.insertIntoSet c (AoS.growing c i) a i v; .ok (r.1, .bool r.2)
  | .insertMany i vs => do let r ← AoS.insertRangeIntoSet c (AoS.growing c i) a i vs; .ok (r.1, .num r.2)
  | .remove i v => do let r ← AoS.removeFromSet c a i v; .ok (r.1, .bool r.2)
  | .removeMany i vs => do let r ← AoS.removeRangeFromSet c a i vs; .ok (r.1, .num r.2)
  | .contains i v => do let r ← AoS.contains c a i v; .ok (a, .bool r)
  | .get i j => do let r ← a.get c i j; .ok (a, .val r)
  | .clearSet i => do let a ← AoS.clearSet c a i; .ok (a, .unit)
  | .setCapacityOfSet i n => do let a ← a.setCapacityOfArray c i n; .ok (a, .unit)
  | .reserveCapacityOfSet i n => do let a ← AoS.reserveCapacityOfSet c a i n; .ok (a, .unit)
  | .appendSet n => do let a ← AoS.appendSet c a n; .ok (a, .unit)
  | .insertSet i n => do let a ← AoS.insertSet c a i n; .ok (a, .unit)
  | .eraseSet i => do let a ← AoS.eraseSet c a i; .ok (a, .unit)
  | .resize n d => do let a ← a.resize c n d; .ok (a, .unit)
  | .resizeFromCapacities cs => do let a ← a.resizeFromCapacities c cs; .ok (a, .unit)
  | .reserve n => do let a ← a.reserve c n; .ok (a, .unit)
  | .reserveValues n => do let a ← a.reserveValues c n; .ok (a, .unit)
  | .compress => do let a ← a.compress c; .ok (a, .unit)

/-- A history of calls with the values they return. -/
def AoS.run [Inhabited T] (c : Cfg) : AoA T → List (AoSOp T) → R (AoA T × List (AoSOut T))
  | a, [] => .ok (a, [])
  | a, op :: ops => do
    let r ← AoS.step c a op
    let r' ← AoS.run c r.1 ops
    .ok (r'.1, r.2 :: r'.2)

end LvArray

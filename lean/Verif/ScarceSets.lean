import Verif.Scarce
import Verif.SortedArray

/-!
# `SortedArray` when memory runs out

The calls of `SortedArray.lean` on the buffer of `Scarce.lean`.  The assertions `ptr != nullptr` of `arrayManipulation` are those of
`ArrayManip.lean`: a buffer whose request was refused has room for nothing, and one whose request was granted has room for something as long
as the number of bytes did not wrap around, which the theorems assume.
-/

namespace LvArray

variable {T : Type}

/-- `m_values` and `m_size`: /repo/src/SortedArrayView.hpp 285-300. -/
structure HeldSet (T : Type) where
  held : Held T
  size : Nat

namespace HeldSet

/-- Default construction, /repo/src/SortedArray.hpp 66-68. -/
def init (T : Type) : HeldSet T := { held := Held.init T, size := 0 }

/-- `CallBacks( m_values, size() )`, /repo/src/SortedArray.hpp 346-383; the other call backs are the empty ones of
/repo/src/sortedArrayManipulation.hpp 71-158. -/
def target (c : Cfg) (s : Supply) (size : Nat) : sortedArrayManipulation.Target (Held T) T where
  buf := fun h => h.buf
  ptr := fun _ => 0
  put := fun h b => { h with buf := b }
  incrementSize := fun h n => h.dynamicReserve c s size (size + n)
  insert := fun h _ => .ok h
  set := fun h _ _ => .ok h
  insertMany := fun h _ _ _ _ => .ok h
  remove := fun h _ => .ok h
  removeMany := fun h _ _ _ => .ok h

variable [LT T] [DecidableLT T] [DecidableEq T]

/-- `insert( value )`, /repo/src/SortedArray.hpp 222-230. -/
def insert (c : Cfg) (s : Supply) (a : HeldSet T) (v : T) : R (HeldSet T × Bool) := do
  let r ← sortedArrayManipulation.insertOne c (target c s a.size) a.held a.size v
  .ok ({ held := r.1, size := a.size + (if r.2 then 1 else 0) }, r.2)

/-- `insert( first, last )`, /repo/src/SortedArray.hpp 240-251. -/
def insertMany [Inhabited T] (c : Cfg) (s : Supply) (a : HeldSet T) (vs : List T) : R (HeldSet T × Nat) := do
  let r ← sortedArrayManipulation.insertRange c (target c s a.size) a.held a.size vs
  .ok ({ held := r.1, size := a.size + r.2 }, r.2)

/-- `remove( value )`, /repo/src/SortedArray.hpp 258-266. -/
def remove (c : Cfg) (s : Supply) (a : HeldSet T) (v : T) : R (HeldSet T × Bool) := do
  let r ← sortedArrayManipulation.removeOne c (target c s a.size) a.held a.size v
  .ok ({ held := r.1, size := a.size - (if r.2 then 1 else 0) }, r.2)

/-- `remove( first, last )`, /repo/src/SortedArray.hpp 276-287. -/
def removeMany (c : Cfg) (s : Supply) (a : HeldSet T) (vs : List T) : R (HeldSet T × Nat) := do
  let r ← sortedArrayManipulation.removeRange c (target c s a.size) a.held a.size vs
  .ok ({ held := r.1, size := a.size - r.2 }, r.2)

omit [LT T] [DecidableLT T] [DecidableEq T] in
/-- `clear()`, /repo/src/SortedArray.hpp 299-304. -/
def clear [Inhabited T] (c : Cfg) (s : Supply) (a : HeldSet T) : R (HeldSet T) := do
  let h ← a.held.resize c s a.size 0 default
  .ok { held := h, size := 0 }

omit [LT T] [DecidableLT T] [DecidableEq T] in
/-- `reserve( n )`, /repo/src/SortedArray.hpp 311-313. -/
def reserve (c : Cfg) (s : Supply) (a : HeldSet T) (n : Int) : R (HeldSet T) := do
  let h ← a.held.reserve c s a.size n.toNat
  .ok { a with held := h }

/-- `contains( value )` and `count( value )`, /repo/src/SortedArrayView.hpp 195-206. -/
def contains (c : Cfg) (a : HeldSet T) (v : T) : R Bool :=
  ({ buf := a.held.buf, size := a.size } : SortedArr T).contains c v

omit [LT T] [DecidableLT T] [DecidableEq T] in
/-- `operator[]` and `operator()`, /repo/src/SortedArrayView.hpp 219-235. -/
def get (c : Cfg) (a : HeldSet T) (i : Int) : R T := ({ buf := a.held.buf, size := a.size } : SortedArr T).get c i

/-- One call (dispatch only, no code of its own in /repo). -/
def step [Inhabited T] (c : Cfg) (s : Supply) (a : HeldSet T) : SetOp T → R (HeldSet T × SetOut T)
  | .insert v => do let r ← a.insert c s v; .ok (r.1, .bool r.2)
  | .insertMany vs => do let r ← a.insertMany c s vs; .ok (r.1, .num r.2)
  | .remove v => do let r ← a.remove c s v; .ok (r.1, .bool r.2)
  | .removeMany vs => do let r ← a.removeMany c s vs; .ok (r.1, .num r.2)
  | .contains v => do let r ← a.contains c v; .ok (a, .bool r)
  | .get i => do let r ← a.get c i; .ok (a, .val r)
  | .reserve n => do let a ← a.reserve c s n; .ok (a, .unit)
  | .clear => do let a ← a.clear c s; .ok (a, .unit)

/-- A history of calls with the values they return. -/
def run [Inhabited T] (c : Cfg) (s : Supply) : HeldSet T → List (SetOp T) → R (HeldSet T × List (SetOut T))
  | a, [] => .ok (a, [])
  | a, op :: ops => do
    let r ← a.step c s op
    let r' ← run c s r.1 ops
    .ok (r'.1, r.2 :: r'.2)

end HeldSet

end LvArray

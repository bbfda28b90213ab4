import Verif.Spec.OrderedSet

/-!
# Specification: threads that work on different rows

A container is a list of rows; a call changes one row and returns something.  The specification of a parallel loop makes the calls
of the first thread, then those of the second, and so on.
-/

namespace LvArray.Spec

variable {ρ κ ω : Type}

/-- The calls of one thread, one after the other.  `step` is the effect of one call on its row and what the call returns; `none`
if the call is not allowed. -/
def rowRun (step : κ → ρ → Option (ρ × ω)) : List ρ → List (Nat × κ) → Option (List ρ × List ω)
  | rows, [] => some (rows, [])
  | rows, (i, call) :: calls =>
    match rows[i]? with
    | none => none
    | some r =>
      match step call r with
      | none => none
      | some (r', out) => (rowRun step (rows.set i r') calls).map fun q => (q.1, out :: q.2)

/-- The threads one after the other, with what the calls of each thread return. -/
def threadsRun (step : κ → ρ → Option (ρ × ω)) : List ρ → List (List (Nat × κ)) → Option (List ρ × List (List ω))
  | rows, [] => some (rows, [])
  | rows, calls :: work =>
    match rowRun step rows calls with
    | none => none
    | some (rows', outs) => (threadsRun step rows' work).map fun q => (q.1, outs :: q.2)

/-- No row is used by two threads. -/
def Apart (work : List (List (Nat × κ))) : Prop :=
  ∀ (t u : Nat) (ct cu : List (Nat × κ)), work[t]? = some ct → work[u]? = some cu → t ≠ u →
    ∀ q ∈ ct, ∀ r ∈ cu, q.1 ≠ r.1

variable {T : Type}

/-- Calls on one inner array of an `ArrayOfArraysView`. -/
inductive RowCall (T : Type) where
  | emplaceBack (v : T)
  | appendToArray (vs : List T)
  | emplace (j : Nat) (v : T)
  | insertIntoArray (j : Nat) (vs : List T)
  | eraseFromArray (j n : Nat)
  | set (j : Nat) (v : T)
  | get (j : Nat)
  | size
  deriving Repr

/-- What such calls return. -/
inductive RowOut (T : Type) where
  | unit
  | val (v : T)
  | num (n : Nat)
  | bool (b : Bool)
  deriving DecidableEq, Repr

/-- A row with its capacity; a view cannot grow it.  Inserting nothing into a row without capacity is left out: with
`LVARRAY_BOUNDS_CHECK` the code aborts on a null pointer there, if no row has capacity. -/
def RowCall.step : RowCall T → List T × Nat → Option ((List T × Nat) × RowOut T)
  | .emplaceBack v, (xs, cap) => if xs.length + 1 ≤ cap then some ((xs ++ [v], cap), .unit) else none
  | .appendToArray vs, (xs, cap) => if xs.length + vs.length ≤ cap then some ((xs ++ vs, cap), .unit) else none
  | .emplace j v, (xs, cap) =>
    if j ≤ xs.length ∧ xs.length + 1 ≤ cap then some ((xs.take j ++ v :: xs.drop j, cap), .unit) else none
  | .insertIntoArray j vs, (xs, cap) =>
    if j ≤ xs.length ∧ xs.length + vs.length ≤ cap ∧ (vs ≠ [] ∨ 0 < cap) then
      some ((xs.take j ++ vs ++ xs.drop j, cap), .unit)
    else none
  | .eraseFromArray j n, (xs, cap) =>
    if j < xs.length ∧ j + n ≤ xs.length then some ((xs.take j ++ xs.drop (j + n), cap), .unit) else none
  | .set j v, (xs, cap) => if j < xs.length then some ((xs.set j v, cap), .unit) else none
  | .get j, (xs, cap) => xs[j]?.map fun v => ((xs, cap), .val v)
  | .size, (xs, cap) => some ((xs, cap), .num xs.length)

/-- Calls on one set of an `ArrayOfSetsView`. -/
inductive SetCall (T : Type) where
  | insert (v : T)
  | insertMany (vs : List T)
  | remove (v : T)
  | removeMany (vs : List T)
  | contains (v : T)
  | get (j : Nat)
  | size
  deriving Repr

/-- A set with its capacity, which a view cannot grow.  Ranges have to be strictly increasing. -/
def SetCall.step [LinearOrder T] : SetCall T → Finset T × Nat → Option ((Finset T × Nat) × RowOut T)
  | .insert v, (S, cap) =>
    if (Insert.insert v S).card ≤ cap then some ((Insert.insert v S, cap), .bool (decide (v ∉ S))) else none
  | .insertMany vs, (S, cap) =>
    if sortedUnique vs ∧ (S ∪ vs.toFinset).card ≤ cap then some ((S ∪ vs.toFinset, cap), .num (vs.toFinset \ S).card) else none
  | .remove v, (S, cap) => some ((S.erase v, cap), .bool (decide (v ∈ S)))
  | .removeMany vs, (S, cap) =>
    if sortedUnique vs then some ((S \ vs.toFinset, cap), .num (S ∩ vs.toFinset).card) else none
  | .contains v, (S, cap) => some ((S, cap), .bool (decide (v ∈ S)))
  | .get j, (S, cap) => (S.sort (· ≤ ·))[j]?.map fun v => ((S, cap), .val v)
  | .size, (S, cap) => some ((S, cap), .num S.card)

/-- Calls on one row of a `SparsityPatternView`. -/
inductive PatCall where
  | insert (col : Nat)
  | insertMany (cols : List Nat)
  | remove (col : Nat)
  | removeMany (cols : List Nat)
  | isEmpty (col : Nat)
  | getColumn (j : Nat)
  | size
  deriving Repr

/-- A row with `n` columns, given as a set, and its capacity, which a view cannot grow.  Ranges have to be strictly increasing. -/
def PatCall.step (n : Nat) : PatCall → Finset Nat × Nat → Option ((Finset Nat × Nat) × RowOut Nat)
  | .insert k, (S, cap) =>
    if k < n ∧ (Insert.insert k S).card ≤ cap then some ((Insert.insert k S, cap), .bool (decide (k ∉ S))) else none
  | .insertMany ks, (S, cap) =>
    if (∀ k ∈ ks, k < n) ∧ sortedUnique ks ∧ (S ∪ ks.toFinset).card ≤ cap then
      some ((S ∪ ks.toFinset, cap), .num (ks.toFinset \ S).card)
    else none
  | .remove k, (S, cap) => if k < n then some ((S.erase k, cap), .bool (decide (k ∈ S))) else none
  | .removeMany ks, (S, cap) =>
    if (∀ k ∈ ks, k < n) ∧ sortedUnique ks then some ((S \ ks.toFinset, cap), .num (S ∩ ks.toFinset).card) else none
  | .isEmpty k, (S, cap) => some ((S, cap), .bool (decide (k ∉ S)))
  | .getColumn j, (S, cap) => (S.sort (· ≤ ·))[j]?.map fun k => ((S, cap), .val k)
  | .size, (S, cap) => some ((S, cap), .num S.card)

end LvArray.Spec

import Verif.Spec.Parallel
import Verif.Spec.Sparse

/-!
# Specification: threads that work on different rows of a sparse matrix
-/

namespace LvArray.Spec

variable {V : Type}

/-- Calls on one row of a `CRSMatrixView`. -/
inductive MatCall (V : Type) where
  | insert (col : Nat) (v : V)
  | insertMany (args : List (Nat × V))
  | remove (col : Nat)
  | removeMany (cols : List Nat)
  | isEmpty (col : Nat)
  | size
  | getColumn (k : Nat)
  | getEntry (k : Nat)
  /-- assign to the entry of the `k`-th non zero -/
  | setEntry (k : Nat) (v : V)
  /-- assign to all entries of the row -/
  | fill (v : V)
  | addToRow (how : AddVariant) (args : List (Nat × V))

/-- A row with `n` columns, given as a partial function, and its capacity, which a view cannot grow. -/
def MatCall.step [Add V] (n : Nat) :
    MatCall V → (Nat → Option V) × Nat → Option (((Nat → Option V) × Nat) × RowOut (Nat ⊕ V))
  | .insert k v, (f, cap) =>
    let f' : Nat → Option V := fun j => if j = k then (f j).or (some v) else f j
    if k < n ∧ (columnsOf n f').length ≤ cap then some ((f', cap), .bool (f k).isNone) else none
  -- entries that exist keep their value
  | .insertMany args, (f, cap) =>
    let f' : Nat → Option V := fun j => (f j).or (args.lookup j)
    if sortedUnique (args.map (·.1)) ∧ (∀ a ∈ args, a.1 < n) ∧ (columnsOf n f').length ≤ cap then
      some ((f', cap), .num (args.countP fun a => (f a.1).isNone))
    else none
  | .remove k, (f, cap) => some ((fun j => if j = k then none else f j, cap), .bool (f k).isSome)
  | .removeMany ks, (f, cap) =>
    if sortedUnique ks then
      some ((fun j => if j ∈ ks then none else f j, cap), .num (ks.countP fun k => (f k).isSome))
    else none
  | .isEmpty k, (f, cap) => some ((f, cap), .bool (f k).isNone)
  | .size, (f, cap) => some ((f, cap), .num (columnsOf n f).length)
  | .getColumn k, (f, cap) => (columnsOf n f)[k]?.map fun j => ((f, cap), .val (.inl j))
  | .getEntry k, (f, cap) => (columnsOf n f)[k]?.bind fun j => (f j).map fun v => ((f, cap), .val (.inr v))
  | .setEntry k v, (f, cap) =>
    (columnsOf n f)[k]?.map fun j => ((fun i => if i = j then some v else f i, cap), .unit)
  | .fill v, (f, cap) => some ((fun j => (f j).map fun _ => v, cap), .unit)
  | .addToRow how args, (f, cap) =>
    if orderOk how (args.map (·.1)) ∧ ∀ a ∈ args, (f a.1).isSome then some ((args.foldl addEntry f, cap), .unit) else none

end LvArray.Spec

/-!
# Specification: `std::vector< std::vector< T > >`

What each operation of `ArrayOfArrays` does to a vector of vectors, independently of any memory.  `none` means the call
violates the documented precondition (position outside the container).
-/

namespace LvArray

/-- The operations of `ArrayOfArrays` (/repo/src/ArrayOfArrays.hpp, /repo/src/ArrayOfArraysView.hpp). -/
inductive AoAOp (T : Type) where
  | resize (numArrays defaultCapacity : Nat)
  | reserve (n : Nat)
  | reserveValues (n : Nat)
  | compress
  | appendArraySize (n : Nat)
  | appendArray (vs : List T)
  | insertArray (i : Nat) (vs : List T)
  | eraseArray (i : Nat)
  | emplaceBack (i : Nat) (v : T)
  | appendToArray (i : Nat) (vs : List T)
  | emplace (i j : Nat) (v : T)
  | insertIntoArray (i j : Nat) (vs : List T)
  | eraseFromArray (i j n : Nat)
  | resizeArray (i n : Nat) (v : T)
  | clearArray (i : Nat)
  | setCapacityOfArray (i n : Nat)
  | set (i j : Nat) (v : T)
  | resizeFromCapacities (capacities : List Nat)

namespace Spec

variable {T : Type}

/-- Apply `f` to row `i`, which has to exist and to satisfy `ok`. -/
def onRow (rows : List (List T)) (i : Nat) (ok : List T → Bool) (f : List T → List T) : Option (List (List T)) :=
  match rows[i]? with
  | some r => if ok r then some (rows.set i (f r)) else none
  | none => none

/-- Effect of one operation. -/
def vvStep [Inhabited T] (rows : List (List T)) : AoAOp T → Option (List (List T))
  | .resize n _ => some (rows.take n ++ List.replicate (n - rows.length) [])
  | .reserve _ => some rows
  | .reserveValues _ => some rows
  | .compress => some rows
  | .appendArraySize n => some (rows ++ [List.replicate n default])
  | .appendArray vs => some (rows ++ [vs])
  | .insertArray i vs => if i ≤ rows.length then some (rows.take i ++ vs :: rows.drop i) else none
  | .eraseArray i => if i < rows.length then some (rows.eraseIdx i) else none
  | .emplaceBack i v => onRow rows i (fun _ => true) (· ++ [v])
  | .appendToArray i vs => onRow rows i (fun _ => true) (· ++ vs)
  | .emplace i j v => onRow rows i (fun r => decide (j ≤ r.length)) (fun r => r.take j ++ v :: r.drop j)
  | .insertIntoArray i j vs => onRow rows i (fun r => decide (j ≤ r.length)) (fun r => r.take j ++ vs ++ r.drop j)
  | .eraseFromArray i j n =>
    onRow rows i (fun r => decide (j < r.length ∧ j + n ≤ r.length)) (fun r => r.take j ++ r.drop (j + n))
  | .resizeArray i n v => onRow rows i (fun _ => true) (fun r => r.take n ++ List.replicate (n - r.length) v)
  | .clearArray i => onRow rows i (fun _ => true) (fun _ => [])
  | .setCapacityOfArray i n => onRow rows i (fun _ => true) (·.take n)
  | .set i j v => onRow rows i (fun r => decide (j < r.length)) (·.set j v)
  | .resizeFromCapacities cs => some (List.replicate cs.length [])

/-- Effect of a history. -/
def vvRun [Inhabited T] : List (List T) → List (AoAOp T) → Option (List (List T))
  | rows, [] => some rows
  | rows, op :: ops => vvStep rows op >>= fun rows => vvRun rows ops

/-! ## With capacities

The same with the capacity of every array: `(elements, capacity)`. -/

/-- The capacity of an array with capacity `cap` that grows to `n` elements: twice what is needed if that does not fit
(/repo/src/ArrayOfArrays.hpp 474-483). -/
def grown (cap n : Nat) : Nat := if cap < n then 2 * n else cap

/-- Apply `f` to row `i`, which has to exist and to satisfy `ok`. -/
def onRowC (L : List (List T × Nat)) (i : Nat) (ok : List T → Bool) (f : List T × Nat → List T × Nat) :
    Option (List (List T × Nat)) :=
  match L[i]? with
  | some r => if ok r.1 then some (L.set i (f r)) else none
  | none => none

/-- Effect of one operation on elements and capacities. -/
def vvcStep [Inhabited T] (L : List (List T × Nat)) : AoAOp T → Option (List (List T × Nat))
  | .resize n d => some (L.take n ++ List.replicate (n - L.length) ([], d))
  | .reserve _ => some L
  | .reserveValues _ => some L
  | .compress => some (L.map fun r => (r.1, r.1.length))
  | .appendArraySize n => some (L ++ [(List.replicate n default, n)])
  | .appendArray vs => some (L ++ [(vs, grown 0 vs.length)])
  | .insertArray i vs => if i ≤ L.length then some (L.take i ++ (vs, grown 0 vs.length) :: L.drop i) else none
  | .eraseArray i => if i < L.length then some (L.eraseIdx i) else none
  | .emplaceBack i v => onRowC L i (fun _ => true) fun r => (r.1 ++ [v], grown r.2 (r.1.length + 1))
  | .appendToArray i vs => onRowC L i (fun _ => true) fun r => (r.1 ++ vs, grown r.2 (r.1.length + vs.length))
  | .emplace i j v => onRowC L i (fun r => decide (j ≤ r.length))
      fun r => (r.1.take j ++ v :: r.1.drop j, grown r.2 (r.1.length + 1))
  | .insertIntoArray i j vs => onRowC L i (fun r => decide (j ≤ r.length))
      fun r => (r.1.take j ++ vs ++ r.1.drop j, grown r.2 (r.1.length + vs.length))
  | .eraseFromArray i j n => onRowC L i (fun r => decide (j < r.length ∧ j + n ≤ r.length))
      fun r => (r.1.take j ++ r.1.drop (j + n), r.2)
  | .resizeArray i n v => onRowC L i (fun _ => true)
      fun r => (r.1.take n ++ List.replicate (n - r.1.length) v, max r.2 n)
  | .clearArray i => onRowC L i (fun _ => true) fun r => ([], r.2)
  | .setCapacityOfArray i n => onRowC L i (fun _ => true) fun r => (r.1.take n, n)
  | .set i j v => onRowC L i (fun r => decide (j < r.length)) fun r => (r.1.set j v, r.2)
  | .resizeFromCapacities cs => some (cs.map fun n => ([], n))

/-- Effect of a history on elements and capacities. -/
def vvcRun [Inhabited T] : List (List T × Nat) → List (AoAOp T) → Option (List (List T × Nat))
  | L, [] => some L
  | L, op :: ops => vvcStep L op >>= fun L => vvcRun L ops

/-- How many elements the allocation has to be able to hold for the operation that leads to the rows `L`. -/
def needed (op : AoAOp T) (L : List (List T × Nat)) : Nat :=
  match op with
  | .reserveValues n => n
  | .resizeFromCapacities _ => 0
  | _ => (L.map (·.2)).sum

end Spec

end LvArray

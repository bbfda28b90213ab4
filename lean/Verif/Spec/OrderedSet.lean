import Mathlib.Data.Finset.Sort
import Verif.Spec.Vector
import Verif.SortedArray
/-!
# Specification: a finite ordered set

What each call on a `SortedArray` does to a finite set and what it returns.  `none` means the call is not allowed: a range
that is not strictly increasing, an index outside the set, more elements than a limited capacity holds.
-/

namespace LvArray.Spec

variable {T : Type} [LinearOrder T]

/-- The documented requirement on ranges: sorted and unique. -/
def sortedUnique (vs : List T) : Prop := vs.Pairwise (· < ·)

instance (vs : List T) : Decidable (sortedUnique vs) := inferInstanceAs (Decidable (vs.Pairwise (· < ·)))

/-- One call on the set `S`. -/
def setStep (limit : Option Nat) (S : Finset T) : SetOp T → Option (Finset T × SetOut T)
  | .insert v => if fits limit (insert v S).card then some (insert v S, .bool (decide (v ∉ S))) else none
  | .insertMany vs =>
    if sortedUnique vs ∧ fits limit (S ∪ vs.toFinset).card
    then some (S ∪ vs.toFinset, .num (vs.toFinset \ S).card) else none
  | .remove v => some (S.erase v, .bool (decide (v ∈ S)))
  | .removeMany vs => if sortedUnique vs then some (S \ vs.toFinset, .num (S ∩ vs.toFinset).card) else none
  | .contains v => some (S, .bool (decide (v ∈ S)))
  | .get i =>
    if 0 ≤ i ∧ i < S.card then (S.sort (· ≤ ·))[i.toNat]?.map (fun v => (S, .val v)) else none
  | .reserve n => if fits limit n.toNat then some (S, .unit) else none
  | .clear => some (∅, .unit)

/-- A history of calls, with what they return. -/
def setRun (limit : Option Nat) : Finset T → List (SetOp T) → Option (Finset T × List (SetOut T))
  | S, [] => some (S, [])
  | S, op :: ops =>
    (setStep limit S op).bind fun r => (setRun limit r.1 ops).map fun r' => (r'.1, r.2 :: r'.2)

end LvArray.Spec

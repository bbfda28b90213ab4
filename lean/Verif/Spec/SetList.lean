import Verif.Spec.OrderedSet
import Verif.AoS

/-!
# Specification: a list of finite ordered sets

What each call on an `ArrayOfSets` does to a list of finite sets and what it returns.  `none` means the call is not allowed:
a set that does not exist, a position outside a set, a range that is not strictly increasing.
-/

namespace LvArray.Spec

variable {T : Type} [LinearOrder T]

/-- Apply `f` to the set with index `i`, which has to exist. -/
def onSet (sets : List (Finset T)) (i : Nat) (f : Finset T → Finset T) (out : Finset T → AoSOut T) :
    Option (List (Finset T) × AoSOut T) :=
  sets[i]?.map fun S => (sets.set i (f S), out S)

/-- One call. -/
def aosStep (sets : List (Finset T)) : AoSOp T → Option (List (Finset T) × AoSOut T)
  | .insert i v => onSet sets i (insert v ·) fun S => .bool (decide (v ∉ S))
  | .insertMany i vs =>
    if sortedUnique vs then onSet sets i (· ∪ vs.toFinset) fun S => .num (vs.toFinset \ S).card else none
  | .remove i v => onSet sets i (·.erase v) fun S => .bool (decide (v ∈ S))
  | .removeMany i vs =>
    if sortedUnique vs then onSet sets i (· \ vs.toFinset) fun S => .num (S ∩ vs.toFinset).card else none
  | .contains i v => onSet sets i id fun S => .bool (decide (v ∈ S))
  | .get i j => sets[i]?.bind fun S => (S.sort (· ≤ ·))[j]?.map fun v => (sets, .val v)
  | .clearSet i => onSet sets i (fun _ => ∅) fun _ => .unit
  -- the smallest `n` values stay
  | .setCapacityOfSet i n => onSet sets i (fun S => ((S.sort (· ≤ ·)).take n).toFinset) fun _ => .unit
  | .reserveCapacityOfSet i _ => onSet sets i id fun _ => .unit
  | .appendSet _ => some (sets ++ [∅], .unit)
  | .insertSet i _ => if i ≤ sets.length then some (sets.take i ++ ∅ :: sets.drop i, .unit) else none
  | .eraseSet i => if i < sets.length then some (sets.eraseIdx i, .unit) else none
  | .resize n _ => some (sets.take n ++ List.replicate (n - sets.length) ∅, .unit)
  | .resizeFromCapacities cs => some (List.replicate cs.length ∅, .unit)
  | .reserve _ => some (sets, .unit)
  | .reserveValues _ => some (sets, .unit)
  | .compress => some (sets, .unit)

/-- A history of calls, with what they return. -/
def aosRun : List (Finset T) → List (AoSOp T) → Option (List (Finset T) × List (AoSOut T))
  | sets, [] => some (sets, [])
  | sets, op :: ops => (aosStep sets op).bind fun r => (aosRun r.1 ops).map fun r' => (r'.1, r.2 :: r'.2)

end LvArray.Spec

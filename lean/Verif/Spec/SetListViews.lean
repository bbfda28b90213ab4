import Verif.Spec.SetList
import Verif.Spec.RowViews

/-!
# Specification: views of an `ArrayOfSets`

An `ArrayOfSetsView` shares the values with the object it was taken from.  It goes on doing so until the object replaces the storage
it keeps them in, which it does only when the storage is too small.  The specification says how many values every set has room for,
how much room the three storages have (sizes, offsets, values), and counts how often each has been replaced.
-/

namespace LvArray

variable {T : Type}

/-- The calls that a view offers as well: /repo/src/ArrayOfSetsView.hpp 191-460. -/
def AoSOp.onView : AoSOp T → Bool
  | .insert _ _ | .insertMany _ _ | .remove _ _ | .removeMany _ _ | .contains _ _ | .get _ _ => true
  | _ => false

/-- The statements of a program with one `ArrayOfSets` and any number of views of it. -/
inductive SetsStmt (T : Type) where
  /-- a member function of the object -/
  | call (op : AoSOp T)
  /-- `view[ v ] = sets.toView()` -/
  | take (v : Nat)
  /-- `view[ v ] = view[ u ]` -/
  | dup (v u : Nat)
  /-- a member function of a view -/
  | via (v : Nat) (op : AoSOp T)
  /-- `view[ v ].size()` -/
  | size (v : Nat)

namespace Spec

/-- How many values the set with index `i` has. -/
def cardAt (sets : List (Finset T)) (i : Nat) : Nat := (sets[i]?.map Finset.card).getD 0

/-- How many values the sets have room for after a call that leads to `sets'`. -/
def setCaps (sets' : List (Finset T)) (caps : List Nat) : AoSOp T → List Nat
  | .insert i _ | .insertMany i _ => caps.modify i fun cap => if cap < cardAt sets' i then 2 * cardAt sets' i else cap
  | .setCapacityOfSet i n => caps.modify i fun _ => n
  | .reserveCapacityOfSet i n => caps.modify i fun cap => max cap n
  | .appendSet n => caps ++ [n]
  | .insertSet i n => caps.take i ++ n :: caps.drop i
  | .eraseSet i => caps.eraseIdx i
  | .resize n d => caps.take n ++ List.replicate (n - caps.length) d
  | .resizeFromCapacities cs => cs
  | .compress => sets'.map Finset.card
  | _ => caps

/-- How much room a call needs in the storages, when it leaves the sets with room for `caps`. -/
def setNeeds (op : AoSOp T) (caps : List Nat) : Three Nat :=
  match op with
  | .resize _ _ | .resizeFromCapacities _ | .appendSet _ | .insertSet _ _ => ⟨caps.length, caps.length + 1, caps.sum⟩
  | .reserve n => ⟨n, n + 1, 0⟩
  | .reserveValues n => ⟨0, 0, n⟩
  | _ => ⟨0, 0, caps.sum⟩

/-- How much room a storage gets when it is replaced: what is needed if the call names the size of everything, twice that
otherwise. -/
def setGrowth (op : AoSOp T) (need : Nat) : Nat :=
  match op with
  | .resize _ _ | .resizeFromCapacities _ | .reserve _ | .reserveValues _ => need
  | _ => 2 * need

/-- The room after a call. -/
def setRoom (op : AoSOp T) (room need : Nat) : Nat := if tooSmall room need then setGrowth op need else room

/-- The sets, how many values they have room for, how much room the storages have, how often each was replaced, and the views: how
many sets a view takes there to be, and how often each storage had been replaced when it was taken. -/
structure SetsShelf (T : Type) where
  sets : List (Finset T)
  caps : List Nat
  room : Three Nat
  replaced : Three Nat
  views : Nat → Option (Nat × Three Nat)

/-- `ArrayOfSets( n, d )`, and no views. -/
def SetsShelf.init (T : Type) (n d : Nat) : SetsShelf T :=
  { sets := List.replicate n ∅
    caps := List.replicate n d
    room := ⟨n, n + 1, n * d⟩
    replaced := ⟨0, 0, 0⟩
    views := fun _ => none }

variable [LinearOrder T]

/-- One statement; `none` if it is not legal.  Through a view a call is legal if the view takes the set to be there, the storages
are the ones there were when the view was taken, and the call needs no more room. -/
def setsStep (s : SetsShelf T) : SetsStmt T → Option (SetsShelf T × Option (AoSOut T))
  | .call op =>
    (aosStep s.sets op).map fun r =>
      let caps := setCaps r.1 s.caps op
      let n := setNeeds op caps
      ({ s with
          sets := r.1
          caps := caps
          room := ⟨setRoom op s.room.sizes n.sizes, setRoom op s.room.offsets n.offsets, setRoom op s.room.values n.values⟩
          replaced := ⟨s.replaced.sizes + (tooSmall s.room.sizes n.sizes).toNat,
            s.replaced.offsets + (tooSmall s.room.offsets n.offsets).toNat,
            s.replaced.values + (tooSmall s.room.values n.values).toNat⟩ },
        some r.2)
  | .take v => some ({ s with views := fun k => if k = v then some (s.sets.length, s.replaced) else s.views k }, none)
  | .dup v u => (s.views u).map fun w => ({ s with views := fun k => if k = v then some w else s.views k }, none)
  | .via v op =>
    (s.views v).bind fun w =>
      if w = (s.sets.length, s.replaced) ∧ op.onView = true then
        (aosStep s.sets op).bind fun r =>
          if setCaps r.1 s.caps op = s.caps then some ({ s with sets := r.1 }, some r.2) else none
      else none
  | .size v => (s.views v).map fun w => (s, some (.num w.1))

/-- A program, and the answers it got. -/
def setsRun : SetsShelf T → List (SetsStmt T) → Option (SetsShelf T × List (AoSOut T))
  | s, [] => some (s, [])
  | s, st :: sts => (setsStep s st).bind fun r => (setsRun r.1 sts).map fun q => (q.1, r.2.toList ++ q.2)

/-- Calls that are legal one after the other, keep the number of sets, and never need more than the room there is. -/
def fitSets (room : Three Nat) : List (Finset T) → List Nat → List (AoSOp T) → Prop
  | _, _, [] => True
  | sets, caps, op :: ops =>
    ∃ sets' out, aosStep sets op = some (sets', out) ∧ sets'.length = sets.length ∧
      (setNeeds op (setCaps sets' caps op)).sizes ≤ room.sizes ∧ (setNeeds op (setCaps sets' caps op)).offsets ≤ room.offsets ∧
      (setNeeds op (setCaps sets' caps op)).values ≤ room.values ∧ fitSets room sets' (setCaps sets' caps op) ops

omit [LinearOrder T]

/-- The set a call that views offer is about. -/
def setOf : AoSOp T → Option Nat
  | .insert i _ | .insertMany i _ | .remove i _ | .removeMany i _ | .contains i _ | .get i _ => some i
  | _ => none

/-- Something that a call through a view looks at was replaced since the view was taken; `sets`: the sets there are.  Values are
looked at where there are any. -/
def setsGone (checks : Bool) (sets : List (Finset T)) (seen now : Three Nat) : AoSOp T → Prop
  | .get _ _ => seen.offsets ≠ now.offsets ∨ seen.values ≠ now.values ∨ checks = true ∧ seen.sizes ≠ now.sizes
  | .insert i _ | .remove i _ | .contains i _ =>
    seen.sizes ≠ now.sizes ∨ seen.offsets ≠ now.offsets ∨ seen.values ≠ now.values ∧ cardAt sets i ≠ 0
  | .insertMany i vs | .removeMany i vs =>
    seen.sizes ≠ now.sizes ∨ seen.offsets ≠ now.offsets ∨ seen.values ≠ now.values ∧ cardAt sets i ≠ 0 ∧ vs ≠ []
  | _ => False

end Spec

end LvArray

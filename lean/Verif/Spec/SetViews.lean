import Verif.Spec.OrderedSet

/-!
# Specification: views of a `SortedArray`

A `SortedArrayView` cannot change the set.  It shares the storage with it and remembers how many values there were when it was taken.
It goes on looking at that many values, from the smallest, whatever is in the storage, until the set has to replace its storage because it
is too small.
-/

namespace LvArray

/-- What one can ask a view: /repo/src/SortedArrayView.hpp 171-235. -/
inductive SetQuery (T : Type) where
  | size
  | empty
  | contains (x : T)
  | get (i : Int)
  deriving DecidableEq, Repr

/-- The statements of a program with one `SortedArray` and any number of views of it. -/
inductive SetStmt (T : Type) where
  /-- a member function of the set -/
  | call (op : SetOp T)
  /-- `view[ v ] = set.toView()` -/
  | take (v : Nat)
  /-- `view[ v ] = view[ u ]` -/
  | dup (v u : Nat)
  /-- ask a view -/
  | ask (v : Nat) (q : SetQuery T)
  deriving Repr

namespace Spec

variable {T : Type} [LinearOrder T]

/-- The set, how many values its storage has room for, how often the storage was replaced, and the views: how many values a view takes
there to be, and how often the storage had been replaced when it was taken. -/
structure SetShelf (T : Type) where
  set : Finset T
  room : Nat
  replaced : Nat
  views : Nat → Option (Nat × Nat)

/-- An empty set, and no views. -/
def SetShelf.init (T : Type) : SetShelf T := { set := ∅, room := 0, replaced := 0, views := fun _ => none }

/-- How much room a call needs, given the set afterwards, and how much there is then if there was less: twice that when values are
inserted, what was asked for when room is asked for. -/
def roomNeeded (op : SetOp T) (S' : Finset T) : Nat × Nat :=
  match op with
  | .insert _ | .insertMany _ => (S'.card, 2 * S'.card)
  | .reserve n => (n.toNat, n.toNat)
  | _ => (0, 0)

/-- The `n` smallest values. -/
def smallest (n : Nat) (S : Finset T) : List T := (S.sort (· ≤ ·)).take n

/-- What a view that takes there to be `n` values sees, if the storage is still `there`. -/
def viewAnswer (S : Finset T) (n : Nat) (there : Bool) : SetQuery T → Option (SetOut T)
  | .size => some (.num n)
  | .empty => some (.bool (decide (n = 0)))
  | .contains x => if n = 0 ∨ there ∧ n ≤ S.card then some (.bool (decide (x ∈ smallest n S))) else none
  | .get i => if there ∧ 0 ≤ i then (smallest n S)[i.toNat]?.map .val else none

/-- One statement; `none` if it is not legal. -/
def setViewStep (s : SetShelf T) : SetStmt T → Option (SetShelf T × Option (SetOut T))
  | .call op =>
    (setStep none s.set op).map fun r =>
      let need := roomNeeded op r.1
      if s.room < need.1 then ({ s with set := r.1, room := need.2, replaced := s.replaced + 1 }, some r.2)
      else ({ s with set := r.1 }, some r.2)
  | .take v => some ({ s with views := fun k => if k = v then some (s.set.card, s.replaced) else s.views k }, none)
  | .dup v u => (s.views u).map fun w => ({ s with views := fun k => if k = v then some w else s.views k }, none)
  | .ask v q => (s.views v).bind fun w => (viewAnswer s.set w.1 (decide (w.2 = s.replaced)) q).map fun x => (s, some x)

/-- A program, and the answers it got. -/
def setViewRun : SetShelf T → List (SetStmt T) → Option (SetShelf T × List (SetOut T))
  | s, [] => some (s, [])
  | s, st :: sts => (setViewStep s st).bind fun r => (setViewRun r.1 sts).map fun q => (q.1, r.2.toList ++ q.2)

/-- Calls one after the other, starting with the set `S`, that are legal and never need more than room for `n` values. -/
def fitInto (n : Nat) (S : Finset T) : List (SetOp T) → Prop
  | [] => True
  | op :: ops => ∃ S' o, setStep none S op = some (S', o) ∧ (roomNeeded op S').1 ≤ n ∧ fitInto n S' ops

end Spec

end LvArray

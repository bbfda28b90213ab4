import Verif.Spec.SetViews
import Verif.Mem

/-!
# Specification: a set whose requests for memory may be refused

What really happens, call by call, to a set of values with room for `cap` of them.  `real` is false if the room was asked for, refused, and
nobody noticed.
-/

namespace LvArray.Spec

/-- The set, the room it takes itself to have, whether it has it, and how many requests were made. -/
structure ScarceSet (T : Type) where
  set : Finset T
  cap : Nat
  real : Bool
  asked : Nat

variable {T : Type} [LinearOrder T]

/-- At the start. -/
def ScarceSet.init (T : Type) : ScarceSet T := { set := ∅, cap := 0, real := true, asked := 0 }

/-- How a call ends that puts values where there is no memory.  The insertion of a single value is preceded by an assertion, which a debug
build checks. -/
def noMemory (debug : Bool) : SetOp T → Err
  | .insertMany _ => .ub .outOfBounds
  | _ => if debug then .abort else .ub .outOfBounds

/-- A legal call that leaves the set `S'` and returns `o`.  `grants k n` says whether the request number `k`, for room for `n` values, is
granted. -/
def scarceStep (debug : Bool) (grants : Nat → Nat → Bool) (z : ScarceSet T) (op : SetOp T) (S' : Finset T) (o : SetOut T) :
    Except Err (ScarceSet T × SetOut T) :=
  if z.cap < (roomNeeded op S').1 then
    -- it asks for memory
    if grants z.asked (roomNeeded op S').2 then
      .ok ({ set := S', cap := (roomNeeded op S').2, real := true, asked := z.asked + 1 }, o)
    else if z.set.card ≠ 0 then
      -- the values there are cannot be moved
      .error (if debug then .abort else .ub .outOfBounds)
    else if S'.card = 0 then
      -- `reserve` of an empty set: nobody notices
      .ok ({ set := S', cap := (roomNeeded op S').2, real := false, asked := z.asked + 1 }, o)
    else .error (noMemory debug op)
  else if z.real ∨ S'.card = 0 then .ok ({ z with set := S' }, o)
  else .error (noMemory debug op)

/-- A history of legal calls. -/
def scarceRun (debug : Bool) (grants : Nat → Nat → Bool) : ScarceSet T → List (SetOp T) → Except Err (ScarceSet T × List (SetOut T))
  | z, [] => .ok (z, [])
  | z, op :: ops =>
    match setStep none z.set op with
    | none => .error .abort  -- not legal
    | some (S', o) => do
      let r ← scarceStep debug grants z op S' o
      let r' ← scarceRun debug grants r.1 ops
      .ok (r'.1, r.2 :: r'.2)

/-- A history, starting with the set `S`, that never needs room for more than `N` values. -/
def modestSets (N : Nat) (S : Finset T) : List (SetOp T) → Prop
  | [] => True
  | op :: ops => ∃ S' o, setStep none S op = some (S', o) ∧ (roomNeeded op S').2 ≤ N ∧ modestSets N S' ops

end LvArray.Spec

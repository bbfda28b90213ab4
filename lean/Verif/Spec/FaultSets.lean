import Verif.Spec.OrderedSet
import Verif.FaultSets
/-!
# Specification: calls on a set that fail have no effect

What the set is after a history of calls of which some ended in an exception.
-/

namespace LvArray.Spec.FaultSets

open LvArray.FaultySet (Outcome)

variable {T : Type} [LinearOrder T]

/-- The set after one call, given how the call ended; `none` if it should not have ended that way.  A call that returns has its
documented effect and result, a call that throws had a valid precondition and no effect, and the calls that are refused are
those that violate their precondition. -/
def after (limit : Option Nat) (S : Finset T) (op : SetOp T) : Outcome T → Option (Finset T)
  | .returned o => (setStep limit S op).bind fun r => if r.2 = o then some r.1 else none
  | .threw => if (setStep limit S op).isSome then some S else none
  | .refused => if (setStep limit S op).isSome then none else some S
  | .undefined _ => none

/-- The set after a history. -/
def follow (limit : Option Nat) : Finset T → List (SetOp T) → List (Outcome T) → Option (Finset T)
  | S, [], [] => some S
  | S, op :: ops, out :: outs => (after limit S op out).bind fun S' => follow limit S' ops outs
  | _, _, _ => none

/-- The calls for which the code meets the specification if an element throws: the insertion of a value
above all others, alone or in a range all other values of which are present. -/
def harmlessThrow (S : Finset T) : SetOp T → Prop
  | .insert v => ∀ x ∈ S, x < v
  | .insertMany vs => ∃ v, vs.toFinset \ S = {v} ∧ ∀ x ∈ S, x < v
  | _ => False

/-- Of the calls that threw each was one of those above; and unless the checks are compiled in (`checked`), the preconditions
were met. -/
def OnlyHarmless (checked : Prop) (limit : Option Nat) : Finset T → List (SetOp T) → List (Outcome T) → Prop
  | S, op :: ops, out :: outs =>
    (checked ∨ (setStep limit S op).isSome = true) ∧ (out = .threw → harmlessThrow S op) ∧
      ∀ S', after limit S op out = some S' → OnlyHarmless checked limit S' ops outs
  | _, _, _ => True

end LvArray.Spec.FaultSets

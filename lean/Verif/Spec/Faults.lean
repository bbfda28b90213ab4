import Verif.Spec.Vector
import Verif.Faults
/-!
# Specification: calls that fail have no effect

What the sequence of elements is after a history of calls of which some ended in an exception.
-/

namespace LvArray.Spec.Faults

open LvArray.Faulty (Outcome)

variable {T : Type} [Inhabited T]

/-- The sequence after one call, given how the call ended; `none` if it should not have ended that way.  A call that returns
has its documented effect, a call that throws had a valid precondition and no effect, and the calls that are refused are
those that violate their precondition. -/
def after (limit : Option Nat) (xs : List T) (op : VecOp T) : Outcome → Option (List T)
  | .returned => vecStep limit xs op
  | .threw => if (vecStep limit xs op).isSome then some xs else none
  | .refused => if (vecStep limit xs op).isSome then none else some xs
  | .undefined _ => none

/-- The sequence after a history. -/
def follow (limit : Option Nat) : List T → List (VecOp T) → List Outcome → Option (List T)
  | xs, [], [] => some xs
  | xs, op :: ops, out :: outs => after limit xs op out >>= fun ys => follow limit ys ops outs
  | _, _, _ => none

/-- The calls for which the code meets the specification if an element throws: those that construct or assign one element
and shift none. -/
def harmlessThrow (xs : List T) : VecOp T → Prop
  | .emplace pos _ => pos = xs.length
  | .insert pos vs => pos = xs.length ∧ vs.length = 1
  | .resize _ => False
  | .resizeDefault _ _ => False
  | _ => True

/-- The calls for which the code meets the specification if the error handler throws: all but a `resize` beyond the capacity
of a stack buffer. -/
def harmlessRefusal : VecOp T → Prop
  | .resize n => n < 0
  | .resizeDefault n _ => n < 0
  | _ => True

/-- Of the calls that failed each was one of those above; and unless the checks are compiled in (`checked`), the
preconditions were met. -/
def OnlyHarmless (checked : Prop) (limit : Option Nat) : List T → List (VecOp T) → List Outcome → Prop
  | xs, op :: ops, out :: outs =>
    (checked ∨ (vecStep limit xs op).isSome = true) ∧ (out = .threw → harmlessThrow xs op) ∧
      (out = .refused → harmlessRefusal op) ∧
      ∀ ys, after limit xs op out = some ys → OnlyHarmless checked limit ys ops outs
  | _, _, _ => True

end LvArray.Spec.Faults

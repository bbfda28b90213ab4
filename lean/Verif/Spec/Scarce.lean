import Verif.Spec.Vector

/-!
# Specification: how much memory a history of calls on an array asks for
-/

namespace LvArray.Spec

variable {T : Type} [Inhabited T]

/-- The capacity a call asks for, if it asks for memory: the array has `len` elements and room for `cap`. -/
def asks (op : VecOp T) (len cap : Nat) : Option Nat :=
  match op with
  | .emplaceBack _ | .emplace _ _ => if cap < len + 1 then some (2 * (len + 1)) else none
  | .insert _ vs => if cap < len + vs.length then some (2 * (len + vs.length)) else none
  | .resize n | .resizeDefault n _ | .reserve n => if cap < n.toNat then some n.toNat else none
  | _ => none

/-- A history, starting with the elements `xs`, in which the array never has more than half of `N` elements and `reserve` never asks for
more than `N`. -/
def modest (N : Nat) (xs : List T) : List (VecOp T) → Prop
  | [] => True
  | op :: ops => (∀ n, op = .reserve n → n.toNat ≤ N) ∧ ∀ ys, vecStep none xs op = some ys → 2 * ys.length ≤ N ∧ modest N ys ops

end LvArray.Spec

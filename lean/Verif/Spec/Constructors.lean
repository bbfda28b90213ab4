/-!
# How a constructor can end, specification

Independent of the model of the code.
-/

namespace LvArray.Spec

/-- How a constructor of a container ends. -/
inductive Built (σ : Type) where
  /-- it returned, and this is the object -/
  | made (object : σ)
  /-- it threw: so many of the values that it constructed are never destroyed, and memory for so many values is never
  released -/
  | threw (values memory : Nat)
  /-- `std::terminate` was called -/
  | terminated
  | undefined
  deriving DecidableEq, Repr

/-- A constructor that throws leaves nothing behind. -/
def Built.clean {σ : Type} : Built σ → Prop
  | .made _ => True
  | .threw values memory => values = 0 ∧ memory = 0
  | .terminated | .undefined => False

end LvArray.Spec

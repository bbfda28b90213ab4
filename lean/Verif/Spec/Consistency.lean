import Mathlib.Order.Defs.LinearOrder

/-!
# Specification: what is left of a range described wrongly as sorted
-/

namespace LvArray.Spec

variable {T : Type} [LinearOrder T]

/-- The values that are greater than every value kept before them. -/
def records (xs : List T) : List T := xs.foldl (fun kept x => if ∀ y ∈ kept, y < x then kept ++ [x] else kept) []

end LvArray.Spec

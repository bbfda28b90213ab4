import Verif.AoS

/-!
# `ArrayOfSetsView::consistencyCheck`
-/

namespace LvArray.AoS

variable {T : Type} [LT T] [DecidableLT T]

/-- One turn of the loop of `consistencyCheck()`: /repo/src/ArrayOfSetsView.hpp 210-218.  `isSortedUnique` stops reading at the
first pair out of order; here all values are read first, which only reads more. -/
def consistentSet (c : Cfg) (a : AoA T) (i : Nat) : R Unit := do
  let size ← a.shape.sizeOfArray c i
  let capacity ← a.shape.capacityOfArray c i
  errorIf (decide (capacity < size))
  let p ← a.ptr i
  let numValues ← a.shape.sizeOfArray c i
  let values ← sortedArrayManipulation.readAll (fun k => a.values.read (p + k)) numValues
  errorIf (!sortedArrayManipulation.isSortedUnique sortedArrayManipulation.less values)

/-- `consistencyCheck()`: /repo/src/ArrayOfSetsView.hpp 207-219.  `LVARRAY_ERROR_IF` is active in every build. -/
def consistencyCheck (c : Cfg) (a : AoA T) : R Unit :=
  forUp a.shape.numArrays 0 (fun i _ => consistentSet c a i) ()

end LvArray.AoS

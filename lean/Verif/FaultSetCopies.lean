import Verif.FaultSets
/-!
# Copy assignment of a `SortedArray` that ends in an exception
-/

namespace LvArray.FaultySet

variable {T : Type}

/-- `operator=( SortedArray const & )`, /repo/src/SortedArray.hpp 100-106, with `copyInto`, /repo/src/bufferManipulation.hpp
393-413.  The same steps as the copy assignment of a one-dimensional `Array`; the size is set last. -/
def copyAssign [Inhabited T] (c : Cfg) (throws : Nat → Bool) (src : SortedArr T) : FProg T Unit :=
  Faulty.copyAssign c throws { buf := src.buf, size := src.size }

end LvArray.FaultySet

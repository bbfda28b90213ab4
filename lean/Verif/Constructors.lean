import Verif.FaultSetCopies
import Verif.Spec.Constructors
/-!
# Constructors that end in an exception

The constructors of the heap `Array` of one dimension and of `SortedArray` that construct values.  If such a constructor throws
there is no object; what has become of the values and the memory depends on whether the destructor runs.  C++ runs it if the
constructor that threw had delegated to another constructor of the same class, which had returned, and does not run it otherwise.
The base classes, /repo/src/ArrayView.hpp 205 and /repo/src/SortedArrayView.hpp, and the buffers have destructors that do nothing.

The simplifications are those of `Faults.lean`.
-/

namespace LvArray.Constructors

open Faulty Spec

variable {T : Type}

/-- The end of a constructor that has delegated to the default constructor of its class: if the body throws, the destructor runs. An
exception that comes out of the destructor calls `std::terminate`. -/
def delegating (c : Cfg) : EStateM.Result Fault (Faulty T) Unit → Built (Faulty T)
  | .ok () s => .made s
  | .error (.ub _) _ => .undefined
  | .error _ s =>
    match Faulty.dtor c s with
    | .ok () s => .threw s.buf.lostLive s.buf.cap
    | .error (.ub _) _ => .undefined
    | .error _ _ => .terminated

/-- The end of a constructor that has not delegated: if the body throws, the destructor does not run, and the buffer is lost with
the values in it. -/
def nonDelegating (c : Cfg) : EStateM.Result Fault (Faulty T) Unit → Built (Faulty T)
  | .ok () s => .made s
  | .error (.ub _) _ => .undefined
  | .error _ s => .threw (s.buf.lostLive + s.buf.countL c s.buf.cap) s.buf.cap

/-- `Array( DIMS const ... dims )` with one dimension: /repo/src/Array.hpp 106-112.  It delegates to `Array()`.  Simplification:
the dimension is not negative. -/
def sized [Inhabited T] (c : Cfg) (throws : Nat → Bool) (n : Nat) : Built (Faulty T) :=
  delegating c (Faulty.resizeDims c throws n default (Faulty.init T none))

/-- `Array( Array const & source )`: /repo/src/Array.hpp 138-140.  It delegates to `Array()`. -/
def copied [Inhabited T] (c : Cfg) (throws : Nat → Bool) (source : Array1 T) : Built (Faulty T) :=
  delegating c (Faulty.copyAssign c throws source (Faulty.init T none))

/-- `SortedArray( SortedArray const & src )`: /repo/src/SortedArray.hpp 76-79.  It constructs the base class and does not
delegate. -/
def copiedSet [Inhabited T] (c : Cfg) (throws : Nat → Bool) (src : SortedArr T) : Built (Faulty T) :=
  nonDelegating c (FaultySet.copyAssign c throws src (Faulty.init T none))

end LvArray.Constructors

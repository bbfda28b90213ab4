import Verif.Parallel
import Verif.AoA
import Verif.Spec.Parallel

/-!
# The calls of parallel loops

Which program of `Parallel.lean` each call of the specification is.
-/

namespace LvArray

open Spec

variable {T V : Type}

/-- The store that threads with views of one `ArrayOfArrays` or `ArrayOfSets` share.  These containers have no entries; their
functions never touch the third buffer. -/
def AoA.shared (a : AoA T) : RowStore T Unit :=
  { shape := a.shape, values := a.values, entries := { (Buf.empty : Buf Unit) with cap := a.values.cap } }

/-- What the owner sees. -/
def RowStore.array (s : RowStore T V) : AoA T := ⟨s.shape, s.values⟩

namespace Parallel

/-- A call on an inner array: /repo/src/ArrayOfArraysView.hpp 328-332, 417-421, 439-449, 482-555. -/
def rowCode [Inhabited T] (c : Cfg) : RowCall T → Code T V (RowOut T)
  | .emplaceBack v => viewEmplaceBack c v >>= fun _ => pure .unit
  | .appendToArray vs => viewAppendToArray c vs >>= fun _ => pure .unit
  | .emplace j v => viewEmplace c j v >>= fun _ => pure .unit
  | .insertIntoArray j vs => viewInsertIntoArray c j vs >>= fun _ => pure .unit
  | .eraseFromArray j n => eraseFromArray c j n >>= fun _ => pure .unit
  | .set j v => setValue c j v >>= fun _ => pure .unit
  | .get j => getValue c j >>= fun v => pure (.val v)
  | .size => size >>= fun n => pure (.num n)

/-- A call on a set: /repo/src/ArrayOfSetsView.hpp 191-200, 362-460, /repo/src/ArrayOfArraysView.hpp 328-332, 417-421. -/
def setCode [Inhabited T] [LT T] [DecidableLT T] [DecidableEq T] (c : Cfg) : SetCall T → Code T V (RowOut T)
  | .insert v => insertIntoSet c v >>= fun b => pure (.bool b)
  | .insertMany vs => insertRangeIntoSet c vs >>= fun n => pure (.num n)
  | .remove v => removeFromSet c v >>= fun b => pure (.bool b)
  | .removeMany vs => removeRangeFromSet c vs >>= fun n => pure (.num n)
  | .contains v => contains c v >>= fun b => pure (.bool b)
  | .get j => getValue c j >>= fun v => pure (.val v)
  | .size => size >>= fun n => pure (.num n)

/-- `ARRAYOFARRAYS_CHECK_BOUNDS( row )` and `SPARSITYPATTERN_COLUMN_CHECK` of the columns, then the function of the parent class:
/repo/src/SparsityPatternView.hpp 27-41, 319-320, 336-341, 356-357, 374-379. -/
def withColumns {α : Type} (c : Cfg) (numCols : Nat) (cols : List Nat) (p : Code Nat V α) : Code Nat V α := do
  checkRow
  stopIf (c.boundsCheck && cols.any (fun col => decide (numCols ≤ col)))
  p

/-- A call on a row of a pattern with `numCols` columns: /repo/src/SparsityPatternView.hpp 224-226, 264-279, 316-385. -/
def patternCode (c : Cfg) (numCols : Nat) : PatCall → Code Nat V (RowOut Nat)
  | .insert k => withColumns c numCols [k] (insertIntoSet c k) >>= fun b => pure (.bool b)
  | .insertMany ks => withColumns c numCols ks (insertRangeIntoSet c ks) >>= fun n => pure (.num n)
  | .remove k => withColumns c numCols [k] (removeFromSet c k) >>= fun b => pure (.bool b)
  | .removeMany ks => withColumns c numCols ks (removeRangeFromSet c ks) >>= fun n => pure (.num n)
  | .isEmpty k => contains c k >>= fun b => pure (.bool !b)
  | .getColumn j => getValue c j >>= fun v => pure (.val v)
  | .size => size >>= fun n => pure (.num n)

/-- The threads of a parallel loop: the calls of each, one after the other.  A call is a number of an inner array and what to do
with it. -/
def threads {κ ω : Type} (code : κ → Code T V ω) (work : List (List (Nat × κ))) : List (Prog Nat T V (List ω)) :=
  work.map fun calls => thread (calls.map fun q => (q.1, code q.2))

end Parallel

end LvArray

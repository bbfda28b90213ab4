import Verif.PyRefs

/-!
# Specification: exact reference counts

Independent of the functions under test: only the objects, their counts and the references they store.
-/

namespace LvArray.PyRefs

/-- References owned by running code (local variables of C or C++ functions, the interpreter's stack, static
variables), per object. -/
abbrev Owned := Nat → Nat

/-- The references to `i` that objects store. -/
def holders (h : Heap) (i : Nat) : Nat := (h.map fun o => o.holds.count i).sum

/-- Every count is the number of references there are: the stored ones and the owned ones.  A count that is
larger is a leak, one that is smaller lets an object be freed while it is referred to. -/
def Exact (h : Heap) (owned : Owned) : Prop := ∀ i : Nat, h.count i = holders h i + owned i

/-- One more owned reference (none for a null pointer). -/
def Owned.plus (owned : Owned) (r : Option Nat) : Owned := fun i => owned i + if r = some i then 1 else 0

/-- Several more owned references. -/
def Owned.plusAll (owned : Owned) (rs : List (Option Nat)) : Owned := fun i => owned i + rs.count (some i)

/-- The caller owns a reference to each of these objects, so that it can lend them. -/
def Lends (owned : Owned) (objs : List Nat) : Prop := ∀ i ∈ objs, 0 < owned i

/-- A function that returns a Python object obeys the rules of the C API when its arguments are `args`: for
every state with exact counts and no exception set, whatever the API answers, nothing undefined happens,
the counts are exact again with one more reference owned by the caller (to the returned object), and an
exception is set if and only if null is returned. -/
def Obeys (f : State → R (Option Nat × State)) (args : List Nat) : Prop :=
  ∀ (s : State) (owned : Owned), Exact s.heap owned → Lends owned args → s.err = false →
    ∃ r s', f s = .ok (r, s') ∧ Exact s'.heap (owned.plus r) ∧ (r = none ↔ s'.err = true)

/-- The same for a function that returns a status: the caller owns what it owned before. -/
def ObeysStatus (f : State → R (Bool × State)) (args : List Nat) : Prop :=
  ∀ (s : State) (owned : Owned), Exact s.heap owned → Lends owned args → s.err = false →
    ∃ ok s', f s = .ok (ok, s') ∧ Exact s'.heap owned ∧ (ok = false ↔ s'.err = true)

end LvArray.PyRefs

import Verif.Spec.VecVec

/-!
# Specification: calls whose arguments are elements of the object itself

`a.appendToArray( i, a[ j ].begin(), a[ j ].end() )` and the like.  For a vector of vectors the effect is that of the same call
with a copy of the values.  What an implementation that first makes room and then reads its arguments from where they were finds
there depends on where the rows are at that time: `slots` and `opened` say where.
-/

namespace LvArray

/-- A member function of `ArrayOfArrays` called with elements of the same object: element `( j, k )`, or the `n` elements from
`( j, lo )` on. -/
inductive OwnCall where
  | emplaceBack (i j k : Nat)
  | appendToArray (i j lo n : Nat)
  | emplace (i pos j k : Nat)
  | insertIntoArray (i pos j lo n : Nat)
  | appendArray (j lo n : Nat)
  | insertArray (i j lo n : Nat)

namespace OwnCall

variable {T : Type}

/-- The row the argument is in. -/
def row : OwnCall → Nat
  | emplaceBack _ j _ | appendToArray _ j _ _ | emplace _ _ j _ | insertIntoArray _ _ j _ _ | appendArray j _ _
  | insertArray _ j _ _ => j

/-- The position of its first element in that row. -/
def first : OwnCall → Nat
  | emplaceBack _ _ k | emplace _ _ _ k => k
  | appendToArray _ _ lo _ | insertIntoArray _ _ _ lo _ | appendArray _ lo _ | insertArray _ _ lo _ => lo

/-- How many elements. -/
def count : OwnCall → Nat
  | emplaceBack _ _ _ | emplace _ _ _ _ => 1
  | appendToArray _ _ _ n | insertIntoArray _ _ _ _ n | appendArray _ _ n | insertArray _ _ _ n => n

/-- The same call with given values instead. -/
def withValues [Inhabited T] (call : OwnCall) (vs : List T) : AoAOp T :=
  match call with
  | emplaceBack i _ _ => .emplaceBack i (vs.headD default)
  | appendToArray i _ _ _ => .appendToArray i vs
  | emplace i pos _ _ => .emplace i pos (vs.headD default)
  | insertIntoArray i pos _ _ _ => .insertIntoArray i pos vs
  | appendArray _ _ _ => .appendArray vs
  | insertArray i _ _ _ => .insertArray i vs

/-- The values of the argument. -/
def values (call : OwnCall) (rows : List (List T)) : List T := ((rows.getD call.row []).drop call.first).take call.count

/-- The argument exists. -/
def sourceExists (call : OwnCall) (rows : List (List T)) : Prop :=
  ∃ r, rows[call.row]? = some r ∧ call.first + call.count ≤ r.length

/-- The target exists. -/
def targetExists (call : OwnCall) (rows : List (List T)) : Prop :=
  match call with
  | emplaceBack i _ _ | appendToArray i _ _ _ => i < rows.length
  | emplace i pos _ _ | insertIntoArray i pos _ _ _ => ∃ r, rows[i]? = some r ∧ pos ≤ r.length
  | appendArray _ _ _ => True
  | insertArray i _ _ _ => i ≤ rows.length

/-- The elements of the argument stay where they are while room is made: the target has room, or the argument is in front of it. -/
def undisturbed (call : OwnCall) (L : List (List T × Nat)) : Prop :=
  match call with
  | emplaceBack i j _ => j ≤ i ∨ ∃ r, L[i]? = some r ∧ r.1.length + 1 ≤ r.2
  | appendToArray i j _ n => j ≤ i ∨ ∃ r, L[i]? = some r ∧ r.1.length + n ≤ r.2
  | emplace i pos j k => j < i ∨ (j = i ∧ k < pos) ∨ (i < j ∧ ∃ r, L[i]? = some r ∧ r.1.length + 1 ≤ r.2)
  | insertIntoArray i pos j lo n =>
    0 < n ∧ (j < i ∨ (j = i ∧ lo + n ≤ pos) ∨ (i < j ∧ ∃ r, L[i]? = some r ∧ r.1.length + n ≤ r.2))
  | appendArray _ _ _ => True
  | insertArray i j _ n => j < i ∨ n = 0

end OwnCall

namespace Spec

variable {T : Type}

/-- The rows as they are stored: `some v` for an element, `none` for an unused position. -/
def stored (L : List (List T × Nat)) : List (List (Option T) × Nat) := L.map fun r => (r.1.map some, r.2)

/-- The memory with the rows one after another, each with its capacity. -/
def slots (S : List (List (Option T) × Nat)) : List (Option T) :=
  S.flatMap fun r => r.1 ++ List.replicate (r.2 - r.1.length) none

/-- How many positions the rows take. -/
def extent (S : List (List (Option T) × Nat)) : Nat := (S.map (·.2)).sum

/-- The rows once there is room for the new elements, which are not there yet. -/
def opened (L : List (List T × Nat)) : OwnCall → List (List (Option T) × Nat)
  | .emplaceBack i _ _ => (stored L).modify i fun r => (r.1, grown r.2 (r.1.length + 1))
  | .appendToArray i _ _ n => (stored L).modify i fun r => (r.1, grown r.2 (r.1.length + n))
  | .emplace i pos _ _ => (stored L).modify i fun r => (r.1.take pos ++ [none] ++ r.1.drop pos, grown r.2 (r.1.length + 1))
  | .insertIntoArray i pos _ _ n =>
    (stored L).modify i fun r => (r.1.take pos ++ List.replicate n none ++ r.1.drop pos, grown r.2 (r.1.length + n))
  | .appendArray _ _ n => stored L ++ [([], grown 0 n)]
  | .insertArray i _ _ n => (stored L).take i ++ ([], grown 0 n) :: (stored L).drop i

/-- What is found where element `k` of the argument was, once there is room for the new elements: the element that is there
now; the old value if nothing is there and elements leave their bytes behind (`bytesStay`). -/
def found (bytesStay : Bool) (L : List (List T × Nat)) (call : OwnCall) (k : Nat) : Option T :=
  let p := ((L.take call.row).map (·.2)).sum + call.first + k
  match (slots (opened L call))[p]?.join with
  | some v => some v
  | none => if bytesStay then (slots (stored L))[p]?.join else none

end Spec

end LvArray

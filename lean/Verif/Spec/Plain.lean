import Verif.Spec.Vector
import Verif.Spec.Containers

/-!
# Arrays of plain data that may be resized without initialisation

The one-dimensional array as a sequence of optional values and the multi-dimensional one as a box; `none` is an element
nobody has given a value.
-/

namespace LvArray

variable {T : Type}

/-- Calls on a one-dimensional array of plain data. -/
inductive PlainOp (T : Type) where
  | op (o : VecOp T)
  /-- `resizeWithoutInitializationOrDestruction( n )` -/
  | uninit (n : Int)

/-- Calls on an array of plain data with any number of dimensions. -/
inductive PlainBoxOp (T : Type) where
  | op (o : BoxOp T)
  /-- `resizeWithoutInitializationOrDestruction( dims... )` -/
  | uninit (dims : List Int)

namespace Spec

/-- The effect of one call on the values of a sequence: the new elements of `uninit` have no specified value, all others move
along with their positions. -/
def plainStep [Inhabited T] (limit : Option Nat) (xs : List (Option T)) : PlainOp T → Option (List (Option T))
  | .op (.emplaceBack v) => if fits limit (xs.length + 1) then some (xs ++ [some v]) else none
  | .op (.emplace pos v) =>
    if 0 ≤ pos ∧ pos ≤ xs.length ∧ fits limit (xs.length + 1)
    then some (xs.take pos.toNat ++ some v :: xs.drop pos.toNat) else none
  | .op (.insert pos vs) =>
    if 0 ≤ pos ∧ pos ≤ xs.length ∧ fits limit (xs.length + vs.length)
    then some (xs.take pos.toNat ++ vs.map some ++ xs.drop pos.toNat) else none
  | .op .popBack => if xs = [] then none else some xs.dropLast
  | .op (.erase pos) => if 0 ≤ pos ∧ pos < xs.length then some (xs.eraseIdx pos.toNat) else none
  | .op (.resize n) =>
    if 0 ≤ n ∧ fits limit n.toNat
    then some (xs.take n.toNat ++ List.replicate (n.toNat - xs.length) (some default)) else none
  | .op (.resizeDefault n v) =>
    if 0 ≤ n ∧ fits limit n.toNat
    then some (xs.take n.toNat ++ List.replicate (n.toNat - xs.length) (some v)) else none
  | .op (.reserve n) => if fits limit n.toNat then some xs else none
  | .op .clear => some []
  | .op (.set i v) => if 0 ≤ i ∧ i < xs.length then some (xs.set i.toNat (some v)) else none
  | .uninit n =>
    if 0 ≤ n ∧ fits limit n.toNat
    then some (xs.take n.toNat ++ List.replicate (n.toNat - xs.length) none) else none

/-- The effect of a history. -/
def plainRun [Inhabited T] (limit : Option Nat) : List (Option T) → List (PlainOp T) → Option (List (Option T))
  | xs, [] => some xs
  | xs, op :: ops => (plainStep limit xs op).bind fun xs => plainRun limit xs ops

/-- The effect of one call on a box: `uninit` keeps the values only of a one-dimensional array (documented at
/repo/src/Array.hpp 345). -/
def plainBoxCall [Inhabited T] (s : Box T) : PlainBoxOp T → Option (Box T × Option T)
  | .op o => boxCall s o
  | .uninit dims =>
    if dims.length = s.dims.length ∧ ∀ d ∈ dims, 0 ≤ d then
      some ({ s with dims := dims.map Int.toNat
                     elem := fun idx => if s.dims.length = 1 ∧ InBounds s.dims idx then s.elem idx else none }, none)
    else none

/-- The effect of a history on a box and what the calls return. -/
def plainBoxRun [Inhabited T] : Box T → List (PlainBoxOp T) → Option (Box T × List (Option T))
  | s, [] => some (s, [])
  | s, op :: ops => (plainBoxCall s op).bind fun r => (plainBoxRun r.1 ops).map fun q => (q.1, r.2 :: q.2)

end Spec

end LvArray

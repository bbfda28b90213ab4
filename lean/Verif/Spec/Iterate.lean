import Verif.Spec.Index

/-!
# The order in which the elements of an array are met
-/

namespace LvArray.Spec

/-- `idxs` lists every multi-index of the box `dims` once, in the order of a loop nest whose outermost loop is over
dimension `perm[ 0 ]` and whose innermost loop is over the last entry of `perm`. -/
def InOrder (perm dims : List Nat) (idxs : List (List Int)) : Prop :=
  (∀ idx, idx ∈ idxs ↔ InBounds dims idx) ∧ idxs.Pairwise (fun i j => reorder perm i < reorder perm j)

/-- The multi-index of all zeros. -/
def lowest (dims : List Nat) : List Int := dims.map (fun (_ : Nat) => 0)

/-- The multi-index with the largest entry in each dimension. -/
def highest (dims : List Nat) : List Int := dims.map (fun (d : Nat) => (d : Int) - 1)

end LvArray.Spec

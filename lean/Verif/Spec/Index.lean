import Mathlib.Algebra.BigOperators.Group.List.Basic

/-!
# Vocabulary for statements about multi-indices

Nothing here mentions how LvArray computes anything.
-/

namespace LvArray.Spec

/-- `idx` is a multi-index of a box with side lengths `dims`: same number of entries, and each entry is between
0 and its side length. -/
def InBounds : List Nat → List Int → Prop
  | [], [] => True
  | d :: ds, i :: is => (0 ≤ i ∧ i < d) ∧ InBounds ds is
  | _, _ => False

instance decInBounds : (dims : List Nat) → (idx : List Int) → Decidable (InBounds dims idx)
  | [], [] => isTrue trivial
  | [], _ :: _ => isFalse id
  | _ :: _, [] => isFalse id
  | d :: ds, i :: is => by
      unfold InBounds
      have := decInBounds ds is
      infer_instance

/-- `p` lists every dimension `0, ..., n - 1` exactly once. -/
def IsPermutation (p : List Nat) (n : Nat) : Prop := p.Perm (List.range n)

/-- The entries of `xs` listed in the order given by `p`. -/
def reorder {α : Type} [Inhabited α] (p : List Nat) (xs : List α) : List α := p.map (fun k => xs.getD k default)

/-- The multi-indices of a box in lexicographic order (rightmost index fastest). -/
def enumerate : List Nat → List (List Int)
  | [] => [[]]
  | d :: ds => (List.range d).flatMap (fun (i : Nat) => (enumerate ds).map (fun is => (i : Int) :: is))

end LvArray.Spec

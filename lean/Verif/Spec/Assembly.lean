import Verif.Spec.Mesh
import Mathlib.Algebra.BigOperators.Group.Finset.Basic

/-!
# Specification: finite element assembly

Every node carries `ndim` degrees of freedom (dofs), the rows and columns of the matrix.
-/

namespace LvArray.Spec

/-- The dofs of an element in the order of its nodes. -/
def dofsOf (ndim : Nat) (nodes : List Nat) : List Nat := nodes.flatMap fun n => (List.range ndim).map fun dim => ndim * n + dim

/-- Two dofs belong to a common element. -/
def Coupled (mesh : Mesh) (ndim r s : Nat) : Prop := ∃ nodes ∈ mesh, r ∈ dofsOf ndim nodes ∧ s ∈ dofsOf ndim nodes

instance (mesh : Mesh) (ndim r s : Nat) : Decidable (Coupled mesh ndim r s) := by unfold Coupled; infer_instance

/-- What the elements contribute to entry `( r, s )`: for all elements `e` and local dofs `i`, `j` of `e` that are the dofs `r` and
`s`, the entry `( i, j )` of the matrix of the element. -/
def contributionsTo {V : Type} (mesh : Mesh) (ndim : Nat) (elementMatrix : Nat → Nat → Nat → V) (r s : Nat) : List V :=
  (List.range mesh.length).flatMap fun e =>
    let dofs := dofsOf ndim (mesh.getD e [])
    (List.range dofs.length).flatMap fun i => (List.range dofs.length).flatMap fun j =>
      if dofs[i]? = some r ∧ dofs[j]? = some s then [elementMatrix e i j] else []

/-- Entry `( r, s )` of the assembled matrix: the sum of these. -/
def assembledEntry {V : Type} [AddCommMonoid V] (mesh : Mesh) (ndim : Nat) (elementMatrix : Nat → Nat → Nat → V) (r s : Nat) : V :=
  ∑ e ∈ Finset.range mesh.length,
    let dofs := dofsOf ndim (mesh.getD e [])
    ∑ i ∈ Finset.range dofs.length, ∑ j ∈ Finset.range dofs.length,
      if dofs[i]? = some r ∧ dofs[j]? = some s then elementMatrix e i j else 0

end LvArray.Spec

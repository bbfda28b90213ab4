/-!
# Specification: the elements around a node

A mesh is given by the nodes of each of its elements.
-/

namespace LvArray.Spec

/-- A mesh: `mesh[ e ]` lists the nodes of element `e`. -/
abbrev Mesh := List (List Nat)

/-- The elements node `n` belongs to in increasing order, an element as often as it names the node. -/
def elementsOf (mesh : Mesh) (n : Nat) : List Nat :=
  (List.range mesh.length).flatMap fun e => List.replicate ((mesh.getD e []).count n) e

/-- All elements consist of nodes below `numNodes`. -/
def OnNodes (mesh : Mesh) (numNodes : Nat) : Prop := ∀ nodes ∈ mesh, ∀ n ∈ nodes, n < numNodes

end LvArray.Spec

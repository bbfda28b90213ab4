import Verif.Concurrent
import Verif.Array1D

/-!
# Programs of the documentation: the elements around the nodes of a mesh

The three constructions of a node to element map that docs/sphinx/ArrayOfArrays.rst presents, from
/repo/benchmarks/benchmarkArrayOfArraysNodeToElementMapConstructionKernels.cpp.  `elementToNodeMap[ elementIndex ]` is the list
`mesh[ elementIndex ]`; the code has the same number of nodes in every element, the model does not need this.  `RAJA::forall`
runs one thread per element, in any interleaving; it returns when all threads have finished, which the theorems about programs
with more than one kernel require of the schedule of the first.
-/

namespace LvArray.Mesh

open Concurrent

/-- The loop over the nodes of one element:
/repo/benchmarks/benchmarkArrayOfArraysNodeToElementMapConstructionKernels.cpp 44-47. -/
def naiveElement (c : Cfg) (elementIndex : Nat) : AoA Nat → List Nat → R (AoA Nat)
  | a, [] => .ok a
  | a, nodeIndex :: nodes => do
    let a ← a.emplaceBack c nodeIndex elementIndex
    naiveElement c elementIndex a nodes

/-- The loop over the elements from `elementIndex` on:
/repo/benchmarks/benchmarkArrayOfArraysNodeToElementMapConstructionKernels.cpp 42-48. -/
def naiveLoop (c : Cfg) : Nat → AoA Nat → List (List Nat) → R (AoA Nat)
  | _, a, [] => .ok a
  | elementIndex, a, nodes :: mesh => do
    let a ← naiveElement c elementIndex a nodes
    naiveLoop c (elementIndex + 1) a mesh

/-- `naive`: /repo/benchmarks/benchmarkArrayOfArraysNodeToElementMapConstructionKernels.cpp 35-49. -/
def naive (c : Cfg) (a : AoA Nat) (mesh : List (List Nat)) (numNodes : Nat) : R (AoA Nat) := do
  let a ← a.resize c numNodes 0
  naiveLoop c 0 a mesh

/-- The calls `emplaceBackAtomic( nodeIndex, elementIndex )` of the thread of one element:
/repo/benchmarks/benchmarkArrayOfArraysNodeToElementMapConstructionKernels.cpp 72-78, 117-123. -/
def callsOf (elementIndex : Nat) (nodes : List Nat) : List (Nat × Nat) := nodes.map fun nodeIndex => (nodeIndex, elementIndex)

/-- The kernel that fills the map: /repo/benchmarks/benchmarkArrayOfArraysNodeToElementMapConstructionKernels.cpp 70-79,
115-123. -/
def fill (c : Cfg) (a : AoA Nat) (mesh : List (List Nat)) (sched : List Nat) : R (Shared Nat × List (Appender Nat)) :=
  interleave (appendTurn c) ⟨a, []⟩ (appenders (mesh.mapIdx callsOf)) sched

/-- `overAllocation`: /repo/benchmarks/benchmarkArrayOfArraysNodeToElementMapConstructionKernels.cpp 53-80. -/
def overAllocation (c : Cfg) (a : AoA Nat) (mesh : List (List Nat)) (numNodes maxNodeElements : Nat) (sched : List Nat) :
    R (Shared Nat × List (Appender Nat)) := do
  let a ← a.resize c numNodes maxNodeElements
  fill c a mesh sched

/-- One turn of a thread that counts: `RAJA::atomicInc< ATOMIC_POLICY >( &elementsPerNode[ nodeIndex ] )` for the first of the
nodes it has left: /repo/benchmarks/benchmarkArrayOfArraysNodeToElementMapConstructionKernels.cpp 100-103. -/
def countTurn (c : Cfg) (elementsPerNode : Array1 Nat) (nodes : List Nat) : R (Array1 Nat × List Nat) :=
  match nodes with
  | [] => .ok (elementsPerNode, [])
  | nodeIndex :: rest => do
    let n ← elementsPerNode.get c nodeIndex
    let elementsPerNode ← elementsPerNode.set c nodeIndex (n + 1)
    .ok (elementsPerNode, rest)

/-- The array `elementsPerNode` and the kernel that counts:
/repo/benchmarks/benchmarkArrayOfArraysNodeToElementMapConstructionKernels.cpp 93-105. -/
def countElements (c : Cfg) (mesh : List (List Nat)) (numNodes : Nat) (sched : List Nat) : R (Array1 Nat × List (List Nat)) := do
  let elementsPerNode ← (Array1.init Nat none).resizeDefault c numNodes 0
  interleave (countTurn c) elementsPerNode mesh sched

/-- The values `resizeFromCapacities( elementsPerNode.size(), elementsPerNode.data() )` reads, from position `i` on. -/
def capacitiesFrom (elementsPerNode : Array1 Nat) : Nat → Nat → R (List Nat)
  | _, 0 => .ok []
  | i, k + 1 => do
    let n ← elementsPerNode.buf.read i
    let ns ← capacitiesFrom elementsPerNode (i + 1) k
    .ok (n :: ns)

/-- `resizeFromCapacities`: /repo/benchmarks/benchmarkArrayOfArraysNodeToElementMapConstructionKernels.cpp 84-124, with the
schedules of the two kernels.  Returns what the threads of the first kernel have left as well. -/
def resizeFromCapacities (c : Cfg) (a : AoA Nat) (mesh : List (List Nat)) (numNodes : Nat) (sched₁ sched₂ : List Nat) :
    R (List (List Nat) × Shared Nat × List (Appender Nat)) := do
  let (elementsPerNode, left) ← countElements c mesh numNodes sched₁
  let capacities ← capacitiesFrom elementsPerNode 0 elementsPerNode.size
  let a ← a.resizeFromCapacities c capacities
  let (s, ts) ← fill c a mesh sched₂
  .ok (left, s, ts)

end LvArray.Mesh

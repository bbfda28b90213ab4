import Verif.Concurrent
import Verif.ParallelCalls
import Verif.Sort
import Verif.Sparse

/-!
# Programs of the documentation: finite element assembly

The generation of a sparsity pattern and the assembly of a matrix from a mesh, /repo/benchmarks/benchmarkSparsityGenerationKernels.cpp,
put together as docs/sphinx/SparsityPatternAndCRSMatrix.rst (lines 94) says: generate the pattern once, assimilate it, then in every
time step add in parallel, and set all entries to zero before the next.  `elemToNodeMap( elemID, localNode )` is
`mesh[ elemID ][ localNode ]`; the code has `NODES_PER_ELEM` nodes in every element and `NDIM = 3`, the model any numbers.  Arrays on
the stack of a function are lists.
-/

namespace LvArray.Assembly

open Concurrent

/-- The loop that fills `dofNumbers`: /repo/benchmarks/benchmarkSparsityGenerationKernels.cpp 105-111, 204-209. -/
def dofNumbers (ndim : Nat) : List Nat → List Nat
  | [] => []
  | node :: nodes => (List.range ndim).map (fun dim => ndim * node + dim) ++ dofNumbers ndim nodes

/-- The loop over the rows of one element or node: `sparsity.insertNonZeros( row, cols )` for every `row`:
/repo/benchmarks/benchmarkSparsityGenerationKernels.cpp 61-64, 115-121.  `insert` is the member function of the class of `sparsity`. -/
def insertRows (insert : Sp → Nat → List Nat → R (Sp × Nat)) (cols : List Nat) : Sp → List Nat → R Sp
  | s, [] => .ok s
  | s, row :: rows => do
    let r ← insert s row cols
    insertRows insert cols r.1 rows

/-- `generateElemLoop`: /repo/benchmarks/benchmarkSparsityGenerationKernels.cpp 99-123.  `makeSorted` is `std::sort` on the host, for
which `mergeSort` stands. -/
def generateElemLoop (insert : Sp → Nat → List Nat → R (Sp × Nat)) (ndim : Nat) : Sp → List (List Nat) → R Sp
  | s, [] => .ok s
  | s, nodes :: mesh => do
    let dofs := (dofNumbers ndim nodes).mergeSort (fun a b => decide (a ≤ b))
    let s ← insertRows insert dofs s dofs
    generateElemLoop insert ndim s mesh

/-- The calls `generateElemLoop` makes, which the code calls with a view: /repo/benchmarks/benchmarkSparsityGenerationKernels.cpp 99-123. -/
def elemLoopCalls (ndim : Nat) : List (List Nat) → List (Nat × Spec.PatCall)
  | [] => []
  | nodes :: mesh =>
    let dofs := (dofNumbers ndim nodes).mergeSort (fun a b => decide (a ≤ b))
    dofs.map (fun row => (row, .insertMany dofs)) ++ elemLoopCalls ndim mesh

/-- An array on the stack with the given values. -/
def onStack (xs : List Nat) : Buf Nat :=
  { kind := .malloc, cap := xs.length, cell := fun k => match xs[k]? with | some v => .live v | none => .raw,
    lostLive := 0, lostMoved := 0, moves := 0 }

/-- The two loops of `getNeighborNodes`: /repo/benchmarks/benchmarkSparsityGenerationKernels.cpp 27-35. -/
def nodesOfElems (mesh : List (List Nat)) : List Nat → R (List Nat)
  | [] => .ok []
  | elem :: nodeElems =>
    match mesh[elem]? with
    | none => .error (.ub .outOfBounds)
    | some nodes => do
      let rest ← nodesOfElems mesh nodeElems
      .ok (nodes ++ rest)

/-- `getNeighborNodes`: /repo/benchmarks/benchmarkSparsityGenerationKernels.cpp 22-38.  `maxNeighbors` is the length of the array
`neighborNodes`; the part that is used is returned.  `sort` is `makeSorted`. -/
def getNeighborNodes (c : Cfg) (sort : Buf Nat → R (Buf Nat)) (maxNeighbors : Nat) (mesh : List (List Nat)) (nodeElems : List Nat) :
    R (List Nat) := do
  let xs ← nodesOfElems mesh nodeElems
  if maxNeighbors < xs.length then .error (.ub .outOfBounds)
  else do
    let r ← sortedArrayManipulation.makeSortedUnique c sortedArrayManipulation.less sort (onStack xs)
    sortedArrayManipulation.readAll r.2.read r.1

/-- The calls of `insertEntriesForNode`: /repo/benchmarks/benchmarkSparsityGenerationKernels.cpp 41-65.  `maxColumns` is the length of the
array `dofNumbers`.  All else it reads is not changed in the meantime, so that the calls are known when the thread starts. -/
def nodeCalls (ndim maxColumns node : Nat) (neighbors : List Nat) : R (List (Nat × Spec.PatCall)) :=
  if maxColumns < ndim * neighbors.length then .error (.ub .outOfBounds)
  else .ok ((List.range ndim).map fun dim => (ndim * node + dim, .insertMany (dofNumbers ndim neighbors)))

/-- What the threads of `generateNodeLoop` do, one for every node from `node` on:
/repo/benchmarks/benchmarkSparsityGenerationKernels.cpp 187-190. -/
def nodeWork (c : Cfg) (sort : Buf Nat → R (Buf Nat)) (maxNeighbors maxColumns ndim : Nat) (mesh : List (List Nat)) :
    Nat → List (List Nat) → R (List (List (Nat × Spec.PatCall)))
  | _, [] => .ok []
  | node, nodeElems :: nodeToElem => do
    let neighbors ← getNeighborNodes c sort maxNeighbors mesh nodeElems
    let calls ← nodeCalls ndim maxColumns node neighbors
    let rest ← nodeWork c sort maxNeighbors maxColumns ndim mesh (node + 1) nodeToElem
    .ok (calls :: rest)

/-- `nnzPerRow`: /repo/benchmarks/benchmarkSparsityGenerationKernels.cpp 76-86. -/
def nnzPerRow (c : Cfg) (sort : Buf Nat → R (Buf Nat)) (maxNeighbors ndim : Nat) (mesh : List (List Nat)) : List (List Nat) → R (List Nat)
  | [] => .ok []
  | nodeElems :: nodeToElem => do
    let neighbors ← getNeighborNodes c sort maxNeighbors mesh nodeElems
    let rest ← nnzPerRow c sort maxNeighbors ndim mesh nodeToElem
    .ok (List.replicate ndim (ndim * neighbors.length) ++ rest)

/-- `resizeExact` and `resizeFromNNZPerRow`: /repo/benchmarks/benchmarkSparsityGenerationKernels.cpp 74-97. -/
def resizeExact (c : Cfg) (sort : Buf Nat → R (Buf Nat)) (colMax maxNeighbors ndim numNodes : Nat) (mesh nodeToElem : List (List Nat)) :
    R Sp := do
  let nnz ← nnzPerRow c sort maxNeighbors ndim mesh nodeToElem
  let s ← Sp.mk' c colMax 0 0 0
  s.resizeFromRowCapacities c colMax (ndim * numNodes) nnz

/-- `generateNodeLoop` with a parallel policy: /repo/benchmarks/benchmarkSparsityGenerationKernels.cpp 165-191.  With one thread that makes
the calls `elemLoopCalls`, this is `generateElemLoop`, 99-123. -/
def generateWithView (c : Cfg) (s : Sp) (work : List (List (Nat × Spec.PatCall))) (sched : List Nat) :
    R (RowStore Nat Unit × List (Parallel.Prog Nat Nat Unit (List (Spec.RowOut Nat)))) :=
  interleave (Parallel.Prog.turn ⟨c, c⟩) s.sets.shared (Parallel.threads (Parallel.patternCode c s.numCols) work) sched

/-- The calls `addToRowBinarySearchUnsorted( dofNumbers[ i ], dofNumbers, additions[ i ], n )` of the thread of one element, with
`additions` given as a function: /repo/benchmarks/benchmarkSparsityGenerationKernels.cpp 200-231.  (There it is the difference of the
dofs.) -/
def elementCalls {V : Type} (dofs : List Nat) (additions : Nat → Nat → V) : List (AddVariant × Nat × List (Nat × V)) :=
  dofs.mapIdx fun i row => (.unsorted, row, dofs.mapIdx fun j col => (col, additions i j))

/-- `addKernel`: /repo/benchmarks/benchmarkSparsityGenerationKernels.cpp 193-232, with an atomic policy and one thread per element. -/
def addKernel {V : Type} [Add V] (c : Cfg) (m : Crs V) (ndim : Nat) (mesh : List (List Nat)) (additions : Nat → Nat → Nat → V)
    (sched : List Nat) : R (Crs V × List (Adder V)) :=
  interleave (addTurn c) m (adders (mesh.mapIdx fun e nodes => elementCalls (dofNumbers ndim nodes) (additions e))) sched

/-- The time steps: an assembly in each, with a schedule of its own, and `setValues( 0 )` in between:
docs/sphinx/SparsityPatternAndCRSMatrix.rst 94. -/
def timeSteps {V : Type} [Add V] (c : Cfg) (zero : V) (ndim : Nat) (mesh : List (List Nat)) :
    Crs V → List ((Nat → Nat → Nat → V) × List Nat) → R (Crs V)
  | m, [] => .ok m
  | m, (additions, sched) :: steps => do
    let (m, _) ← addKernel c m ndim mesh additions sched
    if steps.isEmpty then .ok m
    else do
      let m ← m.setValues c zero
      timeSteps c zero ndim mesh m steps

/-- The whole program: `SparsityPattern sparsity( n, n, capacity )`, its generation, `matrix.assimilate( sparsity )`, the time
steps.  (The matrix is default constructed.) -/
def simulate {V : Type} [Add V] [Inhabited V] (c : Cfg) (colMax : Nat) (zero : V) (ndim numNodes capacity : Nat) (mesh : List (List Nat))
    (steps : List ((Nat → Nat → Nat → V) × List Nat)) : R (Crs V) := do
  let s ← Sp.mk' c.ix colMax (ndim * numNodes) (ndim * numNodes) capacity
  let s ← generateElemLoop (Sp.insertNonZeros c.ix) ndim s mesh
  let m ← Crs.mk' c colMax 0 0 0
  let (m, _) ← m.assimilate c s
  timeSteps c zero ndim mesh m steps

end LvArray.Assembly

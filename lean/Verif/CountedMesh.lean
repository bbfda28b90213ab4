import Verif.Counted
import Verif.Mesh

/-!
# The programs of the documentation with a counter of element operations

`Verif/Mesh.lean` once more, with the counter of `Verif/Counted.lean`.
-/

namespace LvArray.Counted

variable {T X : Type}

namespace bufferManipulation

/-- /repo/src/bufferManipulation.hpp 230-238. -/
def reserve (c : Cfg) (b : Buf T) (size newCap : Nat) : Counted (Buf T) := do
  free (LvArray.bufferManipulation.check c b size)
  if b.cap < newCap then setCapacity c b size newCap else pure b

/-- /repo/src/bufferManipulation.hpp 272-286. -/
def resize (c : Cfg) (b : Buf T) (size newSize : Nat) (v : T) : Counted (Buf T) := do
  free (LvArray.bufferManipulation.check c b size)
  let b ← reserve c b size newSize
  arrayManipulation.resize c b 0 size newSize v

end bufferManipulation

namespace Shape

/-- `destroyValues`: /repo/src/ArrayOfArraysView.hpp 985-1010. -/
def destroyValues (c : Cfg) (s : Shape) (first last : Nat) (b : Buf X) : Counted (Buf X) := do
  free (s.checkInsertBounds c first)
  free (s.checkInsertBounds c last)
  forUp (last - first) first (fun i b => do
    let off ← op (s.offsets.read i)
    let n ← sizeOfArray c s i
    arrayManipulation.destroy c b off n) b

/-- /repo/src/ArrayOfArraysView.hpp 765-767. -/
def dropRows (c : Cfg) (s : Shape) (newSize : Nat) : Counted Shape := do
  let offsets ← bufferManipulation.resize c.ix s.offsets s.offsetsSize (newSize + 1) 0
  let sizes ← bufferManipulation.resize c.ix s.sizes s.numArrays newSize 0
  pure { s with offsets := offsets, sizes := sizes }

/-- /repo/src/ArrayOfArraysView.hpp 773. -/
def lastOffset (s : Shape) : Counted Nat := if s.numArrays = 0 then pure 0 else op (s.offsets.read s.numArrays)

/-- /repo/src/ArrayOfArraysView.hpp 779-782. -/
def spreadOffsets (c : Cfg) (s : Shape) (newSize original defaultCapacity : Nat) : Counted Shape := do
  let offsets ← forUp (newSize + 1 - s.numArrays - 1) 1 (fun i o =>
    op (Buf.write c.ix o (s.numArrays + i) (original + i * defaultCapacity))) s.offsets
  pure { s with offsets := offsets }

/-- /repo/src/ArrayOfArraysView.hpp 771-783. -/
def addRows (c : Cfg) (s : Shape) (newSize defaultCapacity : Nat) : Counted Shape := do
  let original ← lastOffset s
  let offsets ← bufferManipulation.resize c.ix s.offsets s.offsetsSize (newSize + 1) original
  let sizes ← bufferManipulation.resize c.ix s.sizes s.numArrays newSize 0
  let s : Shape := { s with offsets := offsets, sizes := sizes }
  if 0 < defaultCapacity then spreadOffsets c s newSize original defaultCapacity else pure s

/-- /repo/src/ArrayOfArraysView.hpp 784-790. -/
def addRowsReserve (c : Cfg) (s : Shape) (newSize defaultCapacity : Nat) (b : Buf X) : Counted (Buf X) :=
  if 0 < defaultCapacity then do
    let totalSize ← op (s.offsets.read newSize)
    let maxOffset ← op (s.offsets.read s.numArrays)
    bufferManipulation.reserve c b maxOffset totalSize
  else pure b

/-- `RAJA::inclusive_scan`: /repo/src/ArrayOfArraysView.hpp 722-724; the sum so far is at hand, so an offset is one write. -/
def scanOffsets (c : Cfg) (capacities : List Nat) (offsets : Buf Nat) : Counted (Buf Nat) := do
  let offsets ← op (offsets.write c.ix 0 0)
  forUp capacities.length 0 (fun i o => op (Buf.write c.ix o (i + 1) (capacities.take (i + 1)).sum)) offsets

/-- /repo/src/ArrayOfArraysView.hpp 697-728. -/
def fromCapacities (c : Cfg) (s : Shape) (capacities : List Nat) : Counted Shape := do
  let sizes ← bufferManipulation.reserve c.ix s.sizes s.numArrays capacities.length
  let sizes ← arrayManipulation.destroy c.ix sizes 0 s.numArrays
  let sizes ← forUp capacities.length 0 (fun i o => op (Buf.write c.ix o i 0)) sizes
  let offsets ← bufferManipulation.reserve c.ix s.offsets s.offsetsSize (capacities.length + 1)
  let offsets ← arrayManipulation.destroy c.ix offsets 0 (s.numArrays + 1)
  let offsets ← scanOffsets c capacities offsets
  pure { numArrays := capacities.length, offsets := offsets, sizes := sizes }

/-- /repo/src/ArrayOfArraysView.hpp 730-734. -/
def fromCapacitiesReserve (c : Cfg) (s : Shape) (b : Buf X) : Counted (Buf X) := do
  let maxOffset ← op (s.offsets.read s.numArrays)
  bufferManipulation.reserve c b 0 maxOffset

end Shape

namespace AoA

/-- `resizeImpl`: /repo/src/ArrayOfArraysView.hpp 757-796. -/
def resize (c : Cfg) (a : AoA T) (newSize defaultCapacity : Nat) : Counted (AoA T) :=
  if newSize < a.shape.numArrays then do
    let values ← Shape.destroyValues c a.shape newSize a.shape.numArrays a.values
    let shape ← Shape.dropRows c a.shape newSize
    pure { shape := { shape with numArrays := newSize }, values := values }
  else do
    let shape ← Shape.addRows c a.shape newSize defaultCapacity
    let values ← Shape.addRowsReserve c shape newSize defaultCapacity a.values
    pure { shape := { shape with numArrays := newSize }, values := values }

/-- `resizeFromCapacities`: /repo/src/ArrayOfArraysView.hpp 697-735. -/
def resizeFromCapacities (c : Cfg) (a : AoA T) (capacities : List Nat) : Counted (AoA T) := do
  let values ← Shape.destroyValues c a.shape 0 a.shape.numArrays a.values
  let shape ← Shape.fromCapacities c a.shape capacities
  let values ← Shape.fromCapacitiesReserve c shape values
  pure { shape := shape, values := values }

end AoA

/-- Threads taking turns, as `LvArray.interleave`. -/
def interleave {σ τ : Type} (step : σ → τ → Counted (σ × τ)) : σ → List τ → List Nat → Counted (σ × List τ)
  | s, ts, [] => pure (s, ts)
  | s, ts, k :: ks =>
    match ts[k]? with
    | none => interleave step s ts ks
    | some t => do
      let r ← step s t
      interleave step r.1 (ts.set k r.2) ks

open LvArray.Concurrent

/-- One turn of a thread inside `emplaceBackAtomic`: /repo/src/ArrayOfArraysView.hpp 460-471.  `atomicInc` reads and writes. -/
def appendTurn (c : Cfg) (s : Shared T) (t : Appender T) : Counted (Shared T × Appender T) :=
  match t.calls with
  | [] => pure (s, t)
  | (i, v) :: rest =>
    match t.pc with
    | .start => do
      free (s.view.shape.checkBounds c i)
      let p ← AoA.ptr s.view i
      pure (s, { t with pc := .addressed p })
    | .addressed p => do
      let n ← op (s.view.shape.sizes.read i)
      let shape ← Shape.setSize c s.view.shape i (n + 1)
      pure ({ s with view := { s.view with shape := shape } }, { t with pc := .claimed p n })
    | .claimed p n =>
      if c.boundsCheck then do
        let cap ← Shape.capacityOfArray c s.view.shape i
        free (errorIf (decide (cap < n + 1)))
        pure (s, { t with pc := .checked p n })
      else pure (s, { t with pc := .checked p n })
    | .checked p n => do
      let values ← arrayManipulation.emplaceBack c s.view.values p n v
      pure ({ view := { s.view with values := values }, writes := (p + n) :: s.writes }, { calls := rest, pc := .start })

namespace Mesh

/-- /repo/benchmarks/benchmarkArrayOfArraysNodeToElementMapConstructionKernels.cpp 44-47. -/
def naiveElement (c : Cfg) (elementIndex : Nat) : AoA Nat → List Nat → Counted (AoA Nat)
  | a, [] => pure a
  | a, nodeIndex :: nodes => do
    let a ← AoA.emplaceBack c a nodeIndex elementIndex
    naiveElement c elementIndex a nodes

/-- /repo/benchmarks/benchmarkArrayOfArraysNodeToElementMapConstructionKernels.cpp 42-48. -/
def naiveLoop (c : Cfg) : Nat → AoA Nat → List (List Nat) → Counted (AoA Nat)
  | _, a, [] => pure a
  | elementIndex, a, nodes :: mesh => do
    let a ← naiveElement c elementIndex a nodes
    naiveLoop c (elementIndex + 1) a mesh

/-- /repo/benchmarks/benchmarkArrayOfArraysNodeToElementMapConstructionKernels.cpp 35-49. -/
def naive (c : Cfg) (a : AoA Nat) (mesh : List (List Nat)) (numNodes : Nat) : Counted (AoA Nat) := do
  let a ← AoA.resize c a numNodes 0
  naiveLoop c 0 a mesh

/-- /repo/benchmarks/benchmarkArrayOfArraysNodeToElementMapConstructionKernels.cpp 70-79, 115-123. -/
def fill (c : Cfg) (a : AoA Nat) (mesh : List (List Nat)) (sched : List Nat) : Counted (Shared Nat × List (Appender Nat)) :=
  interleave (appendTurn c) ⟨a, []⟩ (appenders (mesh.mapIdx LvArray.Mesh.callsOf)) sched

/-- /repo/benchmarks/benchmarkArrayOfArraysNodeToElementMapConstructionKernels.cpp 53-80. -/
def overAllocation (c : Cfg) (a : AoA Nat) (mesh : List (List Nat)) (numNodes maxNodeElements : Nat) (sched : List Nat) :
    Counted (Shared Nat × List (Appender Nat)) := do
  let a ← AoA.resize c a numNodes maxNodeElements
  fill c a mesh sched

/-- /repo/benchmarks/benchmarkArrayOfArraysNodeToElementMapConstructionKernels.cpp 100-103. -/
def countTurn (c : Cfg) (elementsPerNode : Array1 Nat) (nodes : List Nat) : Counted (Array1 Nat × List Nat) :=
  match nodes with
  | [] => pure (elementsPerNode, [])
  | nodeIndex :: rest => do
    let n ← op (elementsPerNode.get c nodeIndex)
    let elementsPerNode ← op (elementsPerNode.set c nodeIndex (n + 1))
    pure (elementsPerNode, rest)

/-- `Array( n )` for the array of counters: /repo/src/Array.hpp 106-112, 319-345. -/
def counters (c : Cfg) (n : Nat) : Counted (Array1 Nat) := do
  free (errorIf (decide ((n : Int) < 0)))
  let b ← bufferManipulation.resize c (Array1.init Nat none).buf (Array1.init Nat none).size (n : Int).toNat 0
  pure { buf := b, size := (n : Int).toNat }

/-- /repo/benchmarks/benchmarkArrayOfArraysNodeToElementMapConstructionKernels.cpp 93-105. -/
def countElements (c : Cfg) (mesh : List (List Nat)) (numNodes : Nat) (sched : List Nat) : Counted (Array1 Nat × List (List Nat)) := do
  let elementsPerNode ← counters c numNodes
  interleave (countTurn c) elementsPerNode mesh sched

/-- The values `resizeFromCapacities( elementsPerNode.size(), elementsPerNode.data() )` reads. -/
def capacitiesFrom (elementsPerNode : Array1 Nat) : Nat → Nat → Counted (List Nat)
  | _, 0 => pure []
  | i, k + 1 => do
    let n ← op (elementsPerNode.buf.read i)
    let ns ← capacitiesFrom elementsPerNode (i + 1) k
    pure (n :: ns)

/-- /repo/benchmarks/benchmarkArrayOfArraysNodeToElementMapConstructionKernels.cpp 84-124. -/
def resizeFromCapacities (c : Cfg) (a : AoA Nat) (mesh : List (List Nat)) (numNodes : Nat) (sched₁ sched₂ : List Nat) :
    Counted (List (List Nat) × Shared Nat × List (Appender Nat)) := do
  let (elementsPerNode, left) ← countElements c mesh numNodes sched₁
  let capacities ← capacitiesFrom elementsPerNode 0 elementsPerNode.size
  let a ← AoA.resizeFromCapacities c a capacities
  let (s, ts) ← fill c a mesh sched₂
  pure (left, s, ts)

end Mesh

end LvArray.Counted

import Verif.Chai
import Verif.ParallelCalls

/-!
# Containers with several buffers in several memory spaces

`ArrayOfArrays`, `ArrayOfSets`, `SparsityPattern` and `CRSMatrix` keep their data in three or four `ChaiBuffer`s, each with a record of
its own (`Chai.lean`).  Here the object, its views, and kernels that run on views in one of the spaces.
-/

namespace LvArray

/-- The buffers of a container: /repo/src/ArrayOfArraysView.hpp 957-975, /repo/src/CRSMatrixView.hpp 573-574. -/
inductive Part where
  | offsets
  | sizes
  | values
  | entries
  deriving DecidableEq, Repr

namespace Placed

open Chai (Space Record Heap Buffer put)

variable {T V X : Type}

/-- A view of a container (or the container itself): the number of inner arrays and the buffers.  Containers without entries have a
buffer without record in their place: /repo/src/ArrayOfArraysView.hpp 957-975, /repo/src/CRSMatrixView.hpp 573-574. -/
structure View where
  numArrays : Nat
  offsets : Buffer
  sizes : Buffer
  values : Buffer
  entries : Buffer

/-- The records of all buffers, and the views; view 0 is the container. -/
structure State (T V : Type) where
  offsets : Heap (Buf Nat)
  sizes : Heap (Buf Nat)
  values : Heap (Buf T)
  entries : Heap (Buf V)
  views : List View

/-- A new allocation of `cap` slots: /repo/src/ChaiBuffer.hpp 281-313. -/
def freshBuf (cap : Nat) : Buf X := { (Buf.empty : Buf X) with cap := cap }

/-- `ChaiBuffer::move` on one of the buffers: /repo/src/ChaiBuffer.hpp 398-417. -/
def moveBuf (h : Heap (Buf X)) (b : Buffer) (space : Option Space) (touch : Bool) : R (Heap (Buf X) × Buffer) :=
  Chai.move (freshBuf b.cap) h b space touch

/-- What code in space `s` finds in a buffer; an allocation of size zero holds nothing:
/repo/src/ChaiBuffer.hpp 398-417, 453-480. -/
def content (h : Heap (Buf X)) (b : Buffer) (s : Space) : R (Buf X) :=
  if b.cap = 0 then .ok Buf.empty else Chai.deref h b s

/-- Code in space `s` has left `x` in the buffer.  Nothing can be written through a buffer of `const` values:
/repo/src/ChaiBuffer.hpp 453-480. -/
def writeBack (h : Heap (Buf X)) (b : Buffer) (s : Space) (x : Buf X) : R (Heap (Buf X)) :=
  if b.cap = 0 ∨ b.isConst then .ok h
  else
    match b.record with
    | none => .error (.ub .dangling)
    | some id =>
      match h.get id with
      | none => .error (.ub .dangling)
      | some r => .ok (h.set id (some { r with copy := put r.copy s (some x) }))

/-- The entries that code in space `s` finds.  Containers without entries: the functions never touch the fourth buffer
(/repo/src/ArrayOfArraysView.hpp 957-975). -/
def View.entriesIn (st : State T V) (w : View) (s : Space) (cap : Nat) : R (Buf V) :=
  if w.entries.record = none then .ok (freshBuf cap) else content st.entries w.entries s

/-- The store that code in space `s` sees through a view: /repo/src/ArrayOfArraysView.hpp 957-975, /repo/src/CRSMatrixView.hpp 573-574. -/
def View.store (st : State T V) (w : View) (s : Space) : R (RowStore T V) := do
  let offsets ← content st.offsets w.offsets s
  let sizes ← content st.sizes w.sizes s
  let values ← content st.values w.values s
  let entries ← w.entriesIn st s values.cap
  .ok { shape := ⟨w.numArrays, offsets, sizes⟩, values := values, entries := entries }

/-- `move( space, touch )`: /repo/src/ArrayOfArraysView.hpp 581-590, /repo/src/CRSMatrixView.hpp 539-543.  The offsets are not touched
on the device. -/
def View.move (st : State T V) (w : View) (space : Option Space) (touch : Bool) : R (State T V × View) := do
  let (values, v) ← moveBuf st.values w.values space touch
  let (sizes, s) ← moveBuf st.sizes w.sizes space touch
  let (offsets, o) ← moveBuf st.offsets w.offsets space (if space = some .device then false else touch)
  let (entries, e) ← moveBuf st.entries w.entries space touch
  .ok ({ st with offsets := offsets, sizes := sizes, values := values, entries := entries }, ⟨w.numArrays, o, s, v, e⟩)

/-- The copy constructor of a view while the array manager has an execution space set, that is, when a kernel captures it:
/repo/src/ArrayOfArraysView.hpp 209, /repo/src/ChaiBuffer.hpp 182-191. -/
def View.copy (st : State T V) (w : View) (space : Option Space) : R (State T V × View) := do
  let (offsets, o) ← moveBuf st.offsets w.offsets space true
  let (sizes, s) ← moveBuf st.sizes w.sizes space true
  let (values, v) ← moveBuf st.values w.values space true
  let (entries, e) ← moveBuf st.entries w.entries space true
  .ok ({ st with offsets := offsets, sizes := sizes, values := values, entries := entries }, ⟨w.numArrays, o, s, v, e⟩)

/-- A buffer of `const` values if `k`, otherwise the same buffer: /repo/src/ChaiBuffer.hpp 233-239. -/
def convertBuf (b : Buffer) (k : Bool) : Buffer := { b with isConst := b.isConst || k }

/-- `toView`, `toViewConstSizes`, `toViewConst`, `toSparsityPatternView`: `readOnly` are the buffers that become `const`:
/repo/src/ArrayOfArraysView.hpp 274-308, /repo/src/ArrayOfSetsView.hpp 121-143, /repo/src/SparsityPatternView.hpp 158-182,
/repo/src/CRSMatrixView.hpp 159-216. -/
def View.convert (w : View) (readOnly : Part → Bool) : View :=
  ⟨w.numArrays, convertBuf w.offsets (readOnly .offsets), convertBuf w.sizes (readOnly .sizes), convertBuf w.values (readOnly .values),
    convertBuf w.entries (readOnly .entries)⟩

/-- Let every thread that has not returned do so, one after the other.  Scheduling; no code of the library. -/
def finish {α : Type} (c : Parallel.Cfgs) : RowStore T V → List (Parallel.Prog Nat T V α) → R (RowStore T V × List α)
  | s, [] => .ok (s, [])
  | s, p :: ps => do
    let (x, s) ← p.run c id s
    let (s, xs) ← finish c s ps
    .ok (s, x :: xs)

/-- The threads run in the order `sched` as long as it lasts, and then to their end.  Every complete execution has this form.
Scheduling; no code of the library. -/
def execute {κ ω : Type} (c : Parallel.Cfgs) (code : κ → Parallel.Code T V ω) (s : RowStore T V) (work : List (List (Nat × κ)))
    (sched : List Nat) : R (RowStore T V × List (List ω)) := do
  let (s, ts) ← interleave (Parallel.Prog.turn c) s (Parallel.threads code work) sched
  finish c s ts

/-- `RAJA::forall` with a kernel that uses a view in space `s`: the programs are those of `Parallel.lean`, the capture is `View.copy`. -/
def View.kernel {κ ω : Type} (c : Parallel.Cfgs) (code : κ → Parallel.Code T V ω) (st : State T V) (w : View) (s : Space)
    (work : List (List (Nat × κ))) (sched : List Nat) : R (State T V × List (List ω)) := do
  let store ← w.store st s
  let (store, outs) ← execute c code store work sched
  let sizes ← writeBack st.sizes w.sizes s store.shape.sizes
  let values ← writeBack st.values w.values s store.values
  let entries ← writeBack st.entries w.entries s store.entries
  .ok ({ st with sizes := sizes, values := values, entries := entries }, outs)

/-- The host has left `x` in a buffer of the container, in a new allocation if the capacity is another one or if `again`:
/repo/src/ChaiBuffer.hpp 281-327. -/
def replace (h : Heap (Buf X)) (b : Buffer) (again : Bool) (x : Buf X) : R (Heap (Buf X) × Buffer) :=
  match b.record with
  | none => .ok (h, b)
  | some id =>
    if again || x.cap ≠ b.cap then
      match h.get id with
      | none => .error (.ub .dangling)
      | some _ =>
        .ok (h.set id none ++ [some { copy := put (fun _ => none) .host (some x), touched := put (fun _ => false) .host true,
                                      last := some .host }],
          { pointer := some .host, cap := x.cap, record := some h.length, isConst := b.isConst })
    else do
      let h ← writeBack h b .host x
      .ok (h, b)

/-- A member function of the container that can change capacities, called by the host.  `again` are the buffers that get a new allocation
although their capacity stays the same: the functions of /repo/src/ArrayOfArrays.hpp with the buffer functions of
/repo/src/bufferManipulation.hpp 204-283. -/
def View.own {ω : Type} (f : RowStore T V → R (RowStore T V × ω)) (st : State T V) (w : View) (again : Part → Bool) :
    R (State T V × View × ω) := do
  let store ← w.store st .host
  let (store, out) ← f store
  let (offsets, o) ← replace st.offsets w.offsets (again .offsets) store.shape.offsets
  let (sizes, s) ← replace st.sizes w.sizes (again .sizes) store.shape.sizes
  let (values, v) ← replace st.values w.values (again .values) store.values
  let (entries, e) ← replace st.entries w.entries (again .entries) store.entries
  .ok ({ st with offsets := offsets, sizes := sizes, values := values, entries := entries }, ⟨store.shape.numArrays, o, s, v, e⟩, out)

/-- What a program can do with a container and its views: `κ` are the calls of view functions, `η` those of the container. -/
inductive Op (κ η : Type) where
  /-- `views[ v ].move( space, touch )` -/
  | move (v : Nat) (space : Option Space) (touch : Bool)
  /-- a copy of a view is captured by a kernel that runs in `space` -/
  | capture (v : Nat) (space : Option Space)
  /-- a view of `views[ v ]` through which the buffers `readOnly` cannot be changed -/
  | convert (v : Nat) (readOnly : Part → Bool)
  /-- threads in space `s` make the calls `work` through `views[ v ]`, in the order `sched` -/
  | kernel (v : Nat) (s : Space) (work : List (List (Nat × κ))) (sched : List Nat)
  /-- a call of the container on the host -/
  | own (op : η) (again : Part → Bool)

/-- What an operation returns. -/
inductive Out (ω ω' : Type) where
  | nothing
  | kernel (outs : List (List ω))
  | own (out : ω')
  deriving DecidableEq

/-- The view number `v`; bookkeeping of histories. -/
def viewAt (views : List View) (v : Nat) : R View :=
  match views[v]? with
  | none => .error (.ub .dangling)
  | some w => .ok w

/-- One operation. -/
def step {κ η ω ω' : Type} (c : Parallel.Cfgs) (code : κ → Parallel.Code T V ω) (own : η → RowStore T V → R (RowStore T V × ω'))
    (st : State T V) : Op κ η → R (State T V × Out ω ω')
  | .move v space touch => do
    let w ← viewAt st.views v
    let (st, w) ← w.move st space touch
    .ok ({ st with views := st.views.set v w }, .nothing)
  | .capture v space => do
    let w ← viewAt st.views v
    let (st, w) ← w.copy st space
    .ok ({ st with views := st.views ++ [w] }, .nothing)
  | .convert v readOnly => do
    let w ← viewAt st.views v
    .ok ({ st with views := st.views ++ [w.convert readOnly] }, .nothing)
  | .kernel v s work sched => do
    let w ← viewAt st.views v
    let (st, outs) ← w.kernel c code st s work sched
    .ok (st, .kernel outs)
  | .own op again => do
    let w ← viewAt st.views 0
    let (st, w, out) ← w.own (own op) st again
    .ok ({ st with views := st.views.set 0 w }, .own out)

/-- A history and what its operations return. -/
def run {κ η ω ω' : Type} (c : Parallel.Cfgs) (code : κ → Parallel.Code T V ω) (own : η → RowStore T V → R (RowStore T V × ω')) :
    State T V → List (Op κ η) → R (State T V × List (Out ω ω'))
  | st, [] => .ok (st, [])
  | st, op :: ops => do
    let (st, out) ← step c code own st op
    let (st, outs) ← run c code own st ops
    .ok (st, out :: outs)

/-- A record and buffer of a container that was filled on the host. -/
def onHost (x : Buf X) : Heap (Buf X) × Buffer :=
  ([some { copy := put (fun _ => none) .host (some x), touched := put (fun _ => false) .host true, last := some .host }],
    { pointer := some .host, cap := x.cap, record := some 0, isConst := false })

/-- A container on the host. -/
def start (s : RowStore T V) (hasEntries : Bool) : State T V :=
  { offsets := (onHost s.shape.offsets).1, sizes := (onHost s.shape.sizes).1, values := (onHost s.values).1,
    entries := if hasEntries then (onHost s.entries).1 else [],
    views := [{ numArrays := s.shape.numArrays, offsets := (onHost s.shape.offsets).2, sizes := (onHost s.shape.sizes).2,
                values := (onHost s.values).2,
                entries := if hasEntries then (onHost s.entries).2 else ⟨none, 0, none, false⟩ }] }

end Placed

end LvArray

import Verif.AoA
import Verif.Sparse

/-!
# Concurrent calls

`ArrayOfArraysView::emplaceBackAtomic` and `CRSMatrixView::addToRow*` with an atomic policy.  Threads take turns in any order;
one turn is one access to memory that other threads may change (`RAJA::atomicInc`, `RAJA::atomicAdd`, or the construction of a
value) or a group of accesses to memory that no thread changes.  Memory is sequentially consistent; for the construction of
values, which is not atomic, `Shared.writes` records the slots so that races can be excluded.
-/

namespace LvArray

/-- Run threads with a common state in the order given by a schedule, a list of thread numbers.  Numbers without a thread are
skipped.  (No code of its own in /repo: this is what `RAJA::forall` with a parallel policy may do.) -/
def interleave {σ τ : Type} (step : σ → τ → R (σ × τ)) : σ → List τ → List Nat → R (σ × List τ)
  | s, ts, [] => .ok (s, ts)
  | s, ts, k :: ks =>
    match ts[k]? with
    | none => interleave step s ts ks
    | some t => do
      let r ← step s t
      interleave step r.1 (ts.set k r.2) ks

namespace Concurrent

variable {T : Type}

/-! ## `emplaceBackAtomic` -/

/-- How far a thread is in the body of `emplaceBackAtomic`, with its local variables `ptr` (a position) and
`previousSize`: /repo/src/ArrayOfArraysView.hpp 462-470. -/
inductive Pc where
  | start
  | addressed (ptr : Nat)
  | claimed (ptr previousSize : Nat)
  | checked (ptr previousSize : Nat)
  deriving DecidableEq, Repr

/-- A thread: the calls `emplaceBackAtomic( i, v )` it still has to make, the first of them possibly under way. -/
structure Appender (T : Type) where
  calls : List (Nat × T)
  pc : Pc
  deriving DecidableEq, Repr

/-- The view all threads share, and the slots written so far, the latest first. -/
structure Shared (T : Type) where
  view : AoA T
  writes : List Nat

/-- One turn of a thread inside `emplaceBackAtomic`: /repo/src/ArrayOfArraysView.hpp 460-471, the macros in lines 28-31 and
91-96. -/
def appendTurn (c : Cfg) (s : Shared T) (t : Appender T) : R (Shared T × Appender T) :=
  match t.calls with
  | [] => .ok (s, t)
  | (i, v) :: rest =>
    match t.pc with
    | .start => do
      s.view.shape.checkBounds c i
      let p ← s.view.ptr i
      .ok (s, { t with pc := .addressed p })
    | .addressed p => do
      -- `RAJA::atomicInc< POLICY >( &m_sizes[ i ] )`
      let n ← s.view.shape.sizes.read i
      let shape ← s.view.shape.setSize c i (n + 1)
      .ok ({ s with view := { s.view with shape := shape } }, { t with pc := .claimed p n })
    | .claimed p n =>
      -- `ARRAYOFARRAYS_ATOMIC_CAPACITY_CHECK( i, previousSize, 1 )`
      if c.boundsCheck then do
        let cap ← s.view.shape.capacityOfArray c i
        errorIf (decide (cap < n + 1))
        .ok (s, { t with pc := .checked p n })
      else .ok (s, { t with pc := .checked p n })
    | .checked p n => do
      let values ← arrayManipulation.emplaceBack c s.view.values p n v
      .ok ({ view := { s.view with values := values }, writes := (p + n) :: s.writes }, { calls := rest, pc := .start })

/-- Threads that make the given calls, before their first turn. -/
def appenders (calls : List (List (Nat × T))) : List (Appender T) := calls.map fun cs => { calls := cs, pc := .start }

/-! ## `addToRow` with an atomic policy -/

variable {V : Type}

/-- The search for the next column in an iteration of one of the loops of `addToRow`, from `curPos` on:
/repo/src/CRSMatrixView.hpp 443-445 (`addToRowBinarySearch`), 480-488 (`addToRowLinearSearch`), 517-519
(`addToRowBinarySearchUnsorted`).  It reads the columns only, which no thread changes.  (`.auto` does not occur: `addToRow`
calls one of the first two.) -/
def searchColumn (c : Cfg) (how : AddVariant) (m : Crs V) (row nnz curPos col : Nat) : R Nat :=
  match how with
  | .unsorted => do
    let pos ← sortedArrayManipulation.find c sortedArrayManipulation.less (Crs.column m row) nnz col
    Crs.assertColumn c m row nnz pos col
    .ok pos
  | .linear => do
    let pos ← Crs.linearScan m row curPos col (nnz - curPos) curPos
    Crs.assertFound c m row pos col
    .ok pos
  | _ =>
    if nnz < curPos then .error (.ub .outOfBounds)
    else do
      let k ← sortedArrayManipulation.find c sortedArrayManipulation.less (fun k => Crs.column m row (curPos + k)) (nnz - curPos) col
      Crs.assertColumn c m row nnz (k + curPos) col
      .ok (k + curPos)

/-- How far a thread is in the body of one of the `addToRow` functions, with the loop it is in and the local variables `nnz`
and `curPos` or `pos`: /repo/src/CRSMatrixView.hpp 397-524. -/
inductive AddPc where
  | start
  | searching (how : AddVariant) (nnz curPos : Nat)
  | found (how : AddVariant) (nnz pos : Nat)
  deriving DecidableEq, Repr

/-- A thread: the calls of `addToRow` or one of its variants it still has to make, with row and pairs of column and value.  Of
a call under way only the pairs not yet added are left. -/
structure Adder (V : Type) where
  calls : List (AddVariant × Nat × List (Nat × V))
  pc : AddPc

/-- The choice of `addToRow`: /repo/src/CRSMatrixView.hpp 403-412. -/
def chooseVariant (how : AddVariant) (nnz nCols : Nat) : AddVariant :=
  match how with
  | .auto => if nCols < nnz / 4 ∧ 64 < nnz then .binary else .linear
  | how => how

/-- `LVARRAY_ASSERT( isSortedUnique( cols, cols + nCols ) )`: /repo/src/CRSMatrixView.hpp 432, 469; not in the unsorted
variant. -/
def assertSorted (c : Cfg) (how : AddVariant) (cols : List Nat) : R Unit :=
  match how with
  | .unsorted => .ok ()
  | _ => errorIf (c.debug && !sortedArrayManipulation.isSortedUnique sortedArrayManipulation.less cols)

/-- One turn of a thread inside `addToRow`, `addToRowBinarySearch`, `addToRowLinearSearch` or `addToRowBinarySearchUnsorted`:
/repo/src/CRSMatrixView.hpp 397-524. -/
def addTurn [Add V] (c : Cfg) (m : Crs V) (t : Adder V) : R (Crs V × Adder V) :=
  match t.calls with
  | [] => .ok (m, t)
  | (how, row, args) :: rest =>
    match t.pc with
    | .start => do
      let nnz ← m.shape.sizeOfArray c row
      assertSorted c (chooseVariant how nnz args.length) (args.map (·.1))
      m.shape.checkBounds c row
      let _ ← m.shape.offsets.read row
      .ok (m, { t with pc := .searching (chooseVariant how nnz args.length) nnz 0 })
    | .searching h nnz curPos =>
      match args with
      | [] => .ok (m, { calls := rest, pc := .start })
      | (col, _) :: _ => do
        let pos ← searchColumn c h m row nnz curPos col
        .ok (m, { t with pc := .found h nnz pos })
    | .found h nnz pos =>
      match args with
      | [] => .ok (m, { calls := rest, pc := .start })
      | (_, v) :: args => do
        -- `internal::atomicAdd( AtomicPolicy{}, entries + pos, vals[ i ] )`
        let m ← Crs.addAt c m row pos v
        .ok (m, { calls := (how, row, args) :: rest, pc := .searching h nnz (pos + 1) })

/-- Threads that make the given calls, before their first turn. -/
def adders (calls : List (List (AddVariant × Nat × List (Nat × V)))) : List (Adder V) :=
  calls.map fun cs => { calls := cs, pc := .start }

end Concurrent

end LvArray

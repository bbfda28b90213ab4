import Verif.Chai
import Verif.Indexing
import Verif.Concurrent
/-!
# Whole-array assignment: `ArrayView::setValues` and `ArrayView::zero`

Several arrays with `ChaiBuffer`s, their views, and the member functions of `ArrayView` that assign every value, with any RAJA policy.
CHAI requires Umpire (/repo/cmake/SetupTPL.cmake 55-58), so `zero` is modelled with `LVARRAY_USE_UMPIRE`.
-/

namespace LvArray.Whole

open LvArray.Chai

/-- `ArrayView`: `m_dims`, `m_strides`, `USD` as a slice at offset 0, and `m_dataBuffer`: /repo/src/ArrayView.hpp 747-754. -/
structure View where
  slice : Slice
  buffer : Buffer
  deriving DecidableEq, Repr

/-- All allocations and the arrays and views of the program; an array is a view of itself. -/
structure State (T : Type) where
  heap : Heap (Data T)
  views : List View

/-- What `RAJA::forall< POLICY >` over `[0, n)` may do: the space it runs in, which iterations each of its threads makes, every iteration
once, and the order in which the threads take turns. -/
structure Policy where
  space : Space
  split : Nat → List (List Nat)
  once : ∀ n, (split n).flatten.Perm (List.range n)
  order : List Nat

/-- A thread of a parallel loop: the iterations it still has to make, and what the first of them has read. -/
structure Worker (T : Type) where
  todo : List Nat
  loaded : Option T

/-- One turn in the body of `setValues( value )`, `view.data()[ i ] = value`: /repo/src/ArrayView.hpp 612-617. -/
def setTurn {T : Type} (x : T) (b : Buffer) (s : Space) (h : Heap (Data T)) (w : Worker T) : R (Heap (Data T) × Worker T) :=
  match w.todo with
  | [] => .ok (h, w)
  | i :: rest => do
    let h ← write h b s i x
    .ok (h, { todo := rest, loaded := none })

/-- One turn in the body of `setValues( rhs )`, `view.data()[ i ] = rhs.data()[ i ]`, which reads in one turn and writes in the next:
/repo/src/ArrayView.hpp 656-660. -/
def copyTurn {T : Type} (dst src : Buffer) (s : Space) (h : Heap (Data T)) (w : Worker T) : R (Heap (Data T) × Worker T) :=
  match w.todo, w.loaded with
  | [], _ => .ok (h, w)
  | i :: _, none => do
    let x ← read h src s i
    .ok (h, { w with loaded := some x })
  | i :: rest, some x => do
    let h ← write h dst s i x
    .ok (h, { todo := rest, loaded := none })

/-- Turns that are enough for every thread to finish. -/
def rest {T : Type} (ws : List (Worker T)) : List Nat :=
  (List.range ws.length).flatMap fun k => List.replicate (2 * ((ws[k]?).elim 0 fun w => w.todo.length)) k

/-- `RAJA::forall< POLICY >( [0, n), body )`: the threads take turns in the given order, and then until all have finished. -/
def forall_ {T : Type} (turn : Heap (Data T) → Worker T → R (Heap (Data T) × Worker T)) (P : Policy) (n : Nat) (h : Heap (Data T)) :
    R (Heap (Data T)) := do
  let ws : List (Worker T) := (P.split n).map fun is => { todo := is, loaded := none }
  let r ← interleave turn h ws (P.order ++ rest ws)
  .ok r.1

/-- `setValues< POLICY >( value )`: /repo/src/ArrayView.hpp 604-618.  `toView()` copies the view without an execution space, so nothing is
moved; the lambda is copied with the execution space of the policy, which moves the captured view. -/
def setValues {T : Type} (h : Heap (Data T)) (v : View) (P : Policy) (x : T) : R (Heap (Data T)) := do
  let (h, view) ← copyConstruct (fun _ => none) h v.buffer none
  let (h, view) ← copyConstruct (fun _ => none) h view (some P.space)
  forall_ (setTurn x view P.space) P v.slice.size h

/-- `setValues< POLICY >( rhs )`: /repo/src/ArrayView.hpp 645-662.  `rhs` is a view of constant values, so the argument is converted to
one.  Simplification: the sizes and strides of all dimensions are compared at once instead of dimension by dimension. -/
def setValuesFrom {T : Type} (h : Heap (Data T)) (v rhs : View) (P : Policy) : R (Heap (Data T)) := do
  errorIf (decide (v.slice.dims ≠ rhs.slice.dims ∨ v.slice.strides ≠ rhs.slice.strides))
  let (h, view) ← copyConstruct (fun _ => none) h v.buffer none
  let (h, view) ← copyConstruct (fun _ => none) h view (some P.space)
  let (h, rhs) ← copyConstruct (fun _ => none) h (toConst rhs.buffer) (some P.space)
  forall_ (copyTurn view rhs P.space) P v.slice.size h

/-- `getPreviousSpace()`: /repo/src/ArrayView.hpp 671-672, /repo/src/ChaiBuffer.hpp 419-427. -/
def getPreviousSpace {T : Type} (h : Heap (Data T)) (b : Buffer) : R (Option Space) :=
  match b.record with
  | none => .error (.ub .dangling)
  | some id =>
    match h.get id with
    | none => .error (.ub .dangling)
    | some r => .ok r.last

/-- `n` values are set one after the other by code that runs in space `s`. -/
def fill {T : Type} (b : Buffer) (s : Space) (x : T) : Nat → Heap (Data T) → R (Heap (Data T))
  | 0, h => .ok h
  | n + 1, h => do
    let h ← fill b s x n h
    write h b s n x

/-- `umpireInterface::memset( data(), 0, size() * sizeof( T ) )`: /repo/src/umpireInterface.cpp 66-77.  Umpire writes to the memory
`data()` points to, whichever space it is in.  `zero` is the value whose bytes are zero. -/
def memset {T : Type} (zero : T) (h : Heap (Data T)) (b : Buffer) (size : Nat) : R (Heap (Data T)) :=
  match b.pointer with
  | none => .error (.ub .dangling)
  | some s => fill b s zero size h

/-- `zero()`: /repo/src/ArrayView.hpp 626-637. -/
def zero {T : Type} (zero : T) (h : Heap (Data T)) (v : View) : R (Heap (Data T) × View) :=
  if v.slice.size > 0 then do
    let space ← getPreviousSpace h v.buffer
    let (h, b) ← move (fun _ => none) h v.buffer space true
    let h ← memset zero h b v.slice.size
    .ok (h, { v with buffer := b })
  else .ok (h, v)

/-- The constructor `Array( dims... )` with the layout given by a permutation: /repo/src/Array.hpp 89-113 with `resize`, 300-318, which
allocates on the host if there are values, and gives every value `x`. -/
def newArray {T : Type} (h : Heap (Data T)) (perm dims : List Nat) (x : T) : R (Heap (Data T) × View) := do
  let (h, b) := create h
  if (layout perm dims).size > 0 then do
    let (h, b) ← reallocate h b 0 .host (layout perm dims).size
    let h ← fill b .host x (layout perm dims).size h
    .ok (h, { slice := layout perm dims, buffer := b })
  else .ok (h, { slice := layout perm dims, buffer := b })

/-- The position in the allocation that a multi-index addresses. -/
def address (c : Cfg) (v : View) (idx : List Int) : R Nat := do
  let a ← v.slice.call c idx
  if 0 ≤ a then .ok a.toNat else .error (.ub .outOfBounds)

/-- What a program can do with arrays and their views. -/
inductive Op (T : Type) where
  /-- a new array, of which there is one view, with all values `x` -/
  | newArray (perm dims : List Nat) (x : T)
  /-- `views[ v ].move( space, touch )` -/
  | move (v : Nat) (space : Option Space) (touch : Bool)
  /-- a copy of a view is captured by a kernel that runs in `space` -/
  | capture (v : Nat) (space : Option Space)
  /-- `views[ v ].toViewConst()` -/
  | toViewConst (v : Nat)
  /-- `views[ v ]( idx... ) = x` by code that runs in space `s` -/
  | write (v : Nat) (s : Space) (idx : List Int) (x : T)
  /-- `views[ v ]( idx... )` by code that runs in space `s` -/
  | read (v : Nat) (s : Space) (idx : List Int)
  /-- `views[ v ].setValues< POLICY >( x )` -/
  | setValues (v : Nat) (P : Policy) (x : T)
  /-- `views[ v ].setValues< POLICY >( views[ w ] )` -/
  | setValuesFrom (v w : Nat) (P : Policy)
  /-- `views[ v ].zero()` -/
  | zero (v : Nat)

def viewAt {T : Type} (st : State T) (v : Nat) : R View :=
  match st.views[v]? with
  | none => .error (.ub .dangling)
  | some b => .ok b

/-- One step; the output of a read.  `z` is the value whose bytes are zero. -/
def step {T : Type} (c : Cfg) (z : T) (st : State T) : Op T → R (State T × Option T)
  | .newArray perm dims x => do
    let (h, v) ← newArray st.heap perm dims x
    .ok ({ heap := h, views := st.views ++ [v] }, none)
  | .move v space touch => do
    let a ← viewAt st v
    let (h, b) ← Chai.move (fun _ => none) st.heap a.buffer space touch
    .ok ({ heap := h, views := st.views.set v { a with buffer := b } }, none)
  | .capture v space => do
    let a ← viewAt st v
    let (h, b) ← copyConstruct (fun _ => none) st.heap a.buffer space
    .ok ({ heap := h, views := st.views ++ [{ a with buffer := b }] }, none)
  | .toViewConst v => do
    let a ← viewAt st v
    .ok ({ st with views := st.views ++ [{ a with buffer := toConst a.buffer }] }, none)
  | .write v s idx x => do
    let a ← viewAt st v
    let i ← address c a idx
    let h ← Chai.write st.heap a.buffer s i x
    .ok ({ st with heap := h }, none)
  | .read v s idx => do
    let a ← viewAt st v
    let i ← address c a idx
    let x ← Chai.read st.heap a.buffer s i
    .ok (st, some x)
  | .setValues v P x => do
    let a ← viewAt st v
    let h ← setValues st.heap a P x
    .ok ({ st with heap := h }, none)
  | .setValuesFrom v w P => do
    let a ← viewAt st v
    let b ← viewAt st w
    let h ← setValuesFrom st.heap a b P
    .ok ({ st with heap := h }, none)
  | .zero v => do
    let a ← viewAt st v
    let (h, a) ← zero z st.heap a
    .ok ({ heap := h, views := st.views.set v a }, none)

/-- A history and the values it reads. -/
def run {T : Type} (c : Cfg) (z : T) : State T → List (Op T) → R (State T × List T)
  | st, [] => .ok (st, [])
  | st, op :: ops => do
    let (st, out) ← step c z st op
    let (st, outs) ← run c z st ops
    .ok (st, out.toList ++ outs)

/-- Before the first array is made. -/
def start (T : Type) : State T := { heap := [], views := [] }

end LvArray.Whole

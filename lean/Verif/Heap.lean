import Verif.Spec.Values
import Verif.BufferManip

/-!
# Containers with several buffers in one heap

Objects are fields plus one pointer per buffer; the buffers are allocations in a heap shared by all objects.  The calls reuse
the single object models.  Used to state that objects never share storage and that storage is released.
-/

namespace LvArray.Heap

variable {T : Type}

/-- The contents of one allocation: indices (`m_offsets`, `m_sizes`, the columns of a matrix) or values. -/
inductive Store (T : Type) where
  | idx (b : Buf Nat)
  | val (b : Buf T)

/-- `m_capacity`, /repo/src/MallocBuffer.hpp 187. -/
def Store.cap : Store T → Nat
  | .idx b => b.cap
  | .val b => b.cap

/-- The buffer of indices. -/
def Store.asIdx : Store T → Buf Nat
  | .idx b => b
  | .val _ => Buf.empty

/-- The buffer of values. -/
def Store.asVal : Store T → Buf T
  | .idx _ => Buf.empty
  | .val b => b

/-- `m_data` of a `MallocBuffer`, /repo/src/MallocBuffer.hpp 184: a buffer of capacity zero owns no allocation, its (empty)
contents and ghost counters are kept here; every other buffer is a pointer into the heap. -/
inductive Slot (T : Type) where
  | null (s : Store T)
  | at (p : Nat)

/-- The allocations, and an address that was never used. -/
structure Heap (T : Type) where
  cells : Nat → Option (Store T)
  fresh : Nat

/-- Follow a pointer.  Following one to released storage is undefined. -/
def Heap.deref (h : Heap T) : Slot T → R (Store T)
  | .null s => .ok s
  | .at p =>
    match h.cells p with
    | some s => .ok s
    | none => .error (.ub .dangling)

/-- Follow the pointers of an object. -/
def Heap.derefs (h : Heap T) : List (Slot T) → R (List (Store T))
  | [] => .ok []
  | s :: ss => do
    let b ← h.deref s
    let bs ← h.derefs ss
    .ok (b :: bs)

/-- `std::free( m_data )`, /repo/src/MallocBuffer.hpp 140, 150-153. -/
def Heap.free (h : Heap T) : Slot T → Heap T
  | .null _ => h
  | .at p => { h with cells := upd h.cells p none }

/-- The capacity of the allocation a pointer refers to. -/
def Heap.capAt (h : Heap T) : Slot T → Nat
  | .null _ => 0
  | .at p =>
    match h.cells p with
    | some s => s.cap
    | none => 0

/-- Write back one modified buffer: in place when the capacity is the same, otherwise the buffer was reallocated, the old
allocation is released and the new one has a new address (/repo/src/MallocBuffer.hpp 128-142); nothing is allocated for a
capacity of zero.  Simplification: `std::malloc( 0 )` is a null pointer. -/
def Heap.putOne (h : Heap T) (slot : Slot T) (s : Store T) : Heap T × Slot T :=
  if s.cap = 0 then (h.free slot, .null s)
  else if h.capAt slot = s.cap then
    match slot with
    | .at p => ({ h with cells := upd h.cells p (some s) }, slot)
    | .null _ => (h, .null s)
  else ({ cells := upd (h.free slot).cells h.fresh (some s), fresh := h.fresh + 1 }, .at h.fresh)

/-- Write back the buffers of an object whose pointers were `slots` (none for an object under construction). -/
def Heap.put : Heap T → List (Slot T) → List (Store T) → Heap T × List (Slot T)
  | h, _, [] => (h, [])
  | h, [], s :: ss =>
    let r := h.putOne (.null s) s
    let q := r.1.put [] ss
    (q.1, r.2 :: q.2)
  | h, slot :: slots, s :: ss =>
    let r := h.putOne slot s
    let q := r.1.put slots ss
    (q.1, r.2 :: q.2)

/-- A container class: its single object model taken apart into fields and buffers. -/
structure Class (T : Type) (Args Op Out : Type) where
  /-- an object with its buffers -/
  Obj : Type
  /-- the members of an object other than the buffers -/
  Fields : Type
  fields : Obj → Fields
  buffers : Obj → List (Store T)
  join : Fields → List (Store T) → Obj
  /-- the constructor -/
  construct : Cfg → Args → R Obj
  /-- the object the copy constructor assigns to -/
  blank : Obj
  call : Cfg → Obj → Op → R (Obj × Out)
  /-- copy assignment from another object -/
  copyAssign : Cfg → Obj → Obj → R Obj
  /-- copy assignment of an object to itself -/
  selfAssign : Cfg → Obj → R Obj
  /-- what move assignment does to the destination before taking over the source -/
  beforeMove : Cfg → Obj → R Obj
  /-- the source after a move construction (`false`) or a move assignment (`true`) -/
  movedFrom : Bool → Obj → Obj
  /-- the destructor, and what is left of the buffers -/
  dtor : Cfg → Obj → R Obj

variable {Args Op Out : Type} (K : Class T Args Op Out)

/-- The memory an object occupies. -/
structure Handle where
  fields : K.Fields
  slots : List (Slot T)

/-- The heap and the variables. -/
structure World where
  heap : Heap T
  vars : Nat → Option (Handle K)

variable {K}

/-- Nothing allocated, nothing declared. -/
def World.empty : World K := { heap := { cells := fun _ => none, fresh := 0 }, vars := fun _ => none }

/-- Look up a variable; using an undeclared one is not a program. -/
def World.var (w : World K) (x : Nat) : R (Handle K) :=
  match w.vars x with
  | some h => .ok h
  | none => .error (.ub .dangling)

/-- The object a handle denotes. -/
def World.load (w : World K) (h : Handle K) : R K.Obj := do
  let bs ← w.heap.derefs h.slots
  .ok (K.join h.fields bs)

/-- Write an object to variable `x` whose pointers were `slots`. -/
def World.store (w : World K) (x : Nat) (slots : List (Slot T)) (o : K.Obj) : World K :=
  let r := w.heap.put slots (K.buffers o)
  { heap := r.1, vars := upd w.vars x (some { fields := K.fields o, slots := r.2 }) }

/-- Variable `x` takes over the fields and pointers `hy` of `y`; `y`, which denoted `oy`, is left without any allocation. -/
def World.transfer (w : World K) (assign : Bool) (x y : Nat) (hy : Handle K) (oy : K.Obj) : World K :=
  let left : Handle K :=
    { fields := K.fields (K.movedFrom assign oy), slots := (K.buffers (K.movedFrom assign oy)).map .null }
  { w with vars := upd (upd w.vars x (some hy)) y (some left) }

/-- Declaring a variable twice is not a program. -/
def World.undeclared (w : World K) (x : Nat) : R Unit :=
  match w.vars x with
  | some _ => .error (.ub .dangling)
  | none => .ok ()

/-- One statement. -/
def World.step (c : Cfg) (w : World K) : Stmt Args Op → R (World K × Option Out)
  | .new x args => do
    w.undeclared x
    let o ← K.construct c args
    .ok (w.store x [] o, none)
  | .call x op => do
    let h ← w.var x
    let o ← w.load h
    let r ← K.call c o op
    .ok (w.store x h.slots r.1, some r.2)
  | .copyNew x y => do
    w.undeclared x
    let hy ← w.var y
    let src ← w.load hy
    let o ← K.copyAssign c K.blank src
    .ok (w.store x [] o, none)
  | .copy x y => do
    let h ← w.var x
    let o ← w.load h
    if x = y then
      let o ← K.selfAssign c o
      .ok (w.store x h.slots o, none)
    else
      let hy ← w.var y
      let src ← w.load hy
      let o ← K.copyAssign c o src
      .ok (w.store x h.slots o, none)
  | .moveNew x y => do
    w.undeclared x
    let hy ← w.var y
    let oy ← w.load hy
    .ok (w.transfer false x y hy oy, none)
  | .moveTo x y => do
    let h ← w.var x
    let o ← w.load h
    let o ← K.beforeMove c o
    let w := w.store x h.slots o
    let hy ← w.var y
    let oy ← w.load hy
    .ok (w.transfer true x y hy oy, none)
  | .del x => do
    let h ← w.var x
    let o ← w.load h
    let o ← K.dtor c o
    let w := w.store x h.slots o
    .ok ({ w with vars := upd w.vars x none }, none)

/-- A program and what its calls return. -/
def World.run (c : Cfg) : World K → List (Stmt Args Op) → R (World K × List (Option Out))
  | w, [] => .ok (w, [])
  | w, st :: prog => do
    let r ← w.step c st
    let q ← r.1.run c prog
    .ok (q.1, r.2 :: q.2)

/-- The addresses among the pointers of an object. -/
def ptrs : List (Slot T) → List Nat
  | [] => []
  | .null _ :: ss => ptrs ss
  | .at p :: ss => p :: ptrs ss

/-- No variable refers to this allocation. -/
def World.leaked (w : World K) (p : Nat) : Prop :=
  w.heap.cells p ≠ none ∧ ∀ x h, w.vars x = some h → p ∉ ptrs h.slots

end LvArray.Heap

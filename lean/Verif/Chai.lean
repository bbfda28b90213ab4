import Verif.Mem
/-!
# `ChaiBuffer`: one allocation in several memory spaces

/repo/src/ChaiBuffer.hpp, compiled with `LVARRAY_USE_CUDA`.  CHAI itself is a third party library that is not in /repo; the parts of
`chai::ArrayManager` the buffer calls are modelled from their documented contract (/repo/docs/sphinx/Array.rst 133: a new allocation is
created the first time the array is moved to a space; the data is only copied if the space it was last touched in is different from the
space to move to).
-/

namespace LvArray.Chai

/-- The execution spaces `chai::CPU` and `chai::GPU`, which `MemorySpace::host` and `MemorySpace::cuda` are mapped to:
/repo/src/ChaiBuffer.hpp 60-100.  `MemorySpace::undefined` and `chai::NONE` are `none` in `Option Space`. -/
inductive Space where
  | host
  | device
  deriving DecidableEq, Repr

/-- `f[ s ] = x` -/
def put {A : Type} (f : Space → A) (s : Space) (x : A) : Space → A := fun s' => if s' = s then x else f s'

/-- `chai::PointerRecord`: the allocation in each space (`none` = null pointer), the touch flags and the last space.  `C` is what an
allocation holds. -/
structure Record (C : Type) where
  copy : Space → Option C
  touched : Space → Bool
  last : Option Space

/-- `chai::ArrayManager::move( record, space )` (CHAI): nothing if the record is already there; otherwise the destination is allocated if
it is not, and the data is copied and all touches are reset if the record was touched in its last space.  `fresh` is the content of a new
allocation. -/
def managerMove {C : Type} (fresh : C) (r : Record C) (s : Space) : Record C :=
  if r.last = some s then r
  else
    let r := { r with copy := put r.copy s (some ((r.copy s).getD fresh)) }
    match r.last with
    | none => r
    | some l =>
      match r.copy l with
      | none => r
      | some src => if r.touched l then { r with copy := put r.copy s (some src), touched := fun _ => false } else r

/-- All pointer records; `none` = released. -/
abbrev Heap (C : Type) := List (Option (Record C))

def Heap.get {C : Type} (h : Heap C) (id : Nat) : Option (Record C) := (h[id]?).getD none

/-- `ChaiBuffer< T >`: `m_pointer` as the space whose allocation it is, `m_capacity`, `m_pointerRecord`, and whether `T` is `const`:
/repo/src/ChaiBuffer.hpp 493-500. -/
structure Buffer where
  pointer : Option Space
  cap : Nat
  record : Option Nat
  isConst : Bool
  deriving DecidableEq, Repr

/-- `ChaiBuffer( bool )`: /repo/src/ChaiBuffer.hpp 134-147. -/
def create {C : Type} (h : Heap C) : Heap C × Buffer :=
  (h ++ [some { copy := fun _ => none, touched := fun _ => false, last := none }],
   { pointer := none, cap := 0, record := some h.length, isConst := false })

/-- What `ChaiBuffer::move` does to the record: the copy by the manager, the touch and the last space:
/repo/src/ChaiBuffer.hpp 406-412. -/
def moveRecord {C : Type} (fresh : C) (r : Record C) (s : Space) (touch : Bool) : Record C :=
  let r := managerMove fresh r s
  let r := if touch then { r with touched := put r.touched s true } else r
  { r with last := some s }

/-- `ChaiBuffer::move`: /repo/src/ChaiBuffer.hpp 398-417. -/
def move {C : Type} (fresh : C) (h : Heap C) (b : Buffer) (space : Option Space) (touch : Bool) : R (Heap C × Buffer) :=
  match b.record, space with
  | none, _ => .ok (h, b)
  | some _, none => .ok (h, b)
  | some id, some s =>
    if b.cap = 0 then .ok (h, b)
    else
      match h.get id with
      | none => .error (.ub .dangling)
      | some r => .ok (h.set id (some (moveRecord fresh r s (!b.isConst && touch))), { b with pointer := some s })

/-- `ChaiBuffer( ChaiBuffer const & )` with the execution space of the array manager set to `space`: /repo/src/ChaiBuffer.hpp 182-191
(and 200-210 for values without inner allocations). -/
def copyConstruct {C : Type} (fresh : C) (h : Heap C) (src : Buffer) (space : Option Space) : R (Heap C × Buffer) :=
  move fresh h src space true

/-- `ChaiBuffer< T const >( ChaiBuffer< T > const & )`: /repo/src/ChaiBuffer.hpp 233-239. -/
def toConst (src : Buffer) : Buffer := { src with isConst := true }

/-- `ChaiBuffer::registerTouch`: /repo/src/ChaiBuffer.hpp 429-435. -/
def registerTouch {C : Type} (h : Heap C) (b : Buffer) (s : Space) : R (Heap C) :=
  match b.record with
  | none => .error (.ub .dangling)
  | some id =>
    match h.get id with
    | none => .error (.ub .dangling)
    | some r => .ok (h.set id (some { r with touched := put r.touched s true, last := some s }))

/-! ## Values without inner allocations -/

/-- What an allocation holds: `none` = no object. -/
abbrev Data (T : Type) := Nat → Option T

/-- The allocation that code running in space `s` reaches through `m_pointer`; a pointer to the other space's memory cannot be used. -/
def deref {C : Type} (h : Heap C) (b : Buffer) (s : Space) : R C :=
  match b.pointer, b.record with
  | some p, some id =>
    if p = s then
      match h.get id with
      | none => .error (.ub .dangling)
      | some r =>
        match r.copy s with
        | none => .error (.ub .dangling)
        | some c => .ok c
    else .error (.ub .dangling)
  | _, _ => .error (.ub .dangling)

/-- `value = buffer[ i ]` in a kernel or host code of space `s`: /repo/src/ChaiBuffer.hpp 358-361. -/
def read {T : Type} (h : Heap (Data T)) (b : Buffer) (s : Space) (i : Nat) : R T := do
  let d ← deref h b s
  if i < b.cap then
    match d i with
    | some x => .ok x
    | none => .error (.ub .rawRead)
  else .error (.ub .outOfBounds)

/-- `buffer[ i ] = x` in a kernel or host code of space `s`: /repo/src/ChaiBuffer.hpp 358-361.  Simplification: the value is constructed
if there is none (values of trivial type). -/
def write {T : Type} (h : Heap (Data T)) (b : Buffer) (s : Space) (i : Nat) (x : T) : R (Heap (Data T)) := do
  let d ← deref h b s
  if i < b.cap then
    match b.record with
    | none => .error (.ub .dangling)
    | some id =>
      match h.get id with
      | none => .error (.ub .dangling)
      | some r => .ok (h.set id (some { r with copy := put r.copy s (some (fun j => if j = i then some x else d j)) }))
  else .error (.ub .outOfBounds)

/-- The copy of the values to the new allocation in `reallocate`: /repo/src/ChaiBuffer.hpp 301-307.  Simplification: storage without an
object stays so. -/
def overlap {T : Type} (h : Heap (Data T)) (b : Buffer) (size : Nat) (space : Space) (newCap : Nat) : R (Data T) :=
  if size > 0 then
    if space ≠ .host then .error .abort
    else do
      let d ← deref h b .host
      if size ≤ b.cap then .ok (fun i => if i < min newCap size then d i else none)
      else .error (.ub .outOfBounds)
  else .ok (fun _ => none)

/-- `ChaiBuffer::reallocate`: /repo/src/ChaiBuffer.hpp 281-313, with `free`: 319-327. -/
def reallocate {T : Type} (h : Heap (Data T)) (b : Buffer) (size : Nat) (space : Space) (newCap : Nat) : R (Heap (Data T) × Buffer) :=
  match b.record with
  | none => .error (.ub .dangling)
  | some id =>
    match h.get id with
    | none => .error (.ub .dangling)
    | some _ => do
      let d ← overlap h b size space newCap
      let new : Record (Data T) := { copy := put (fun _ => none) space (some d), touched := put (fun _ => false) space true, last := some space }
      .ok (h.set id none ++ [some new], { pointer := some space, cap := newCap, record := some h.length, isConst := b.isConst })

/-! ## Histories of one array and its views -/

/-- The array (view 0) and its views. -/
structure State (T : Type) where
  heap : Heap (Data T)
  views : List Buffer

/-- What a program can do with the array and its views. -/
inductive Op (T : Type) where
  /-- `views[ v ].move( space, touch )` -/
  | move (v : Nat) (space : Option Space) (touch : Bool)
  /-- a copy of a view is captured by a kernel that runs in `space` -/
  | capture (v : Nat) (space : Option Space)
  /-- `views[ v ].toViewConst()` -/
  | toViewConst (v : Nat)
  /-- `views[ v ][ i ] = x` by code that runs in space `s` -/
  | write (v : Nat) (s : Space) (i : Nat) (x : T)
  /-- `views[ v ][ i ]` by code that runs in space `s` -/
  | read (v : Nat) (s : Space) (i : Nat)
  /-- `views[ v ].registerTouch( s )`: /repo/src/ArrayView.hpp 677-678 -/
  | registerTouch (v : Nat) (s : Space)
  /-- the array, holding `size` values, gets a new allocation on the host -/
  | grow (size newCap : Nat)

def viewAt (views : List Buffer) (v : Nat) : R Buffer :=
  match views[v]? with
  | none => .error (.ub .dangling)
  | some b => .ok b

/-- `Array`: a fresh array of capacity `n` on the host: /repo/src/Array.hpp 89-100 with `resize`. -/
def start {T : Type} (n : Nat) : R (State T) := do
  let (h, b) ← reallocate (create []).1 (create (C := Data T) []).2 0 .host n
  .ok { heap := h, views := [b] }

/-- One step; the output of a read. -/
def step {T : Type} (st : State T) : Op T → R (State T × Option T)
  | .move v space touch => do
    let b ← viewAt st.views v
    let (h, b) ← move (fun _ => none) st.heap b space touch
    .ok ({ heap := h, views := st.views.set v b }, none)
  | .capture v space => do
    let b ← viewAt st.views v
    let (h, b) ← copyConstruct (fun _ => none) st.heap b space
    .ok ({ heap := h, views := st.views ++ [b] }, none)
  | .toViewConst v => do
    let b ← viewAt st.views v
    .ok ({ st with views := st.views ++ [toConst b] }, none)
  | .write v s i x => do
    let b ← viewAt st.views v
    let h ← write st.heap b s i x
    .ok ({ st with heap := h }, none)
  | .read v s i => do
    let b ← viewAt st.views v
    let x ← read st.heap b s i
    .ok (st, some x)
  | .registerTouch v s => do
    let b ← viewAt st.views v
    let h ← registerTouch st.heap b s
    .ok ({ st with heap := h }, none)
  | .grow size newCap => do
    let b ← viewAt st.views 0
    let (h, b) ← reallocate st.heap b size .host newCap
    .ok ({ heap := h, views := st.views.set 0 b }, none)

/-- A history and the values it reads. -/
def run {T : Type} : State T → List (Op T) → R (State T × List T)
  | st, [] => .ok (st, [])
  | st, op :: ops => do
    let (st, out) ← step st op
    let (st, outs) ← run st ops
    .ok (st, out.toList ++ outs)

/-! ## Values with inner allocations: an array of arrays -/

/-- `ChaiBuffer::moveInnerData`: /repo/src/ChaiBuffer.hpp 470-480: the host walks over the inner arrays in `d` and moves each.  The inner
arrays hold values without inner allocations. -/
def moveInnerData {T : Type} (inner : Heap (Data T)) (d : Data Buffer) (space : Space) (touch : Bool) : Nat → R (Heap (Data T) × Data Buffer)
  | 0 => .ok (inner, d)
  | size + 1 => do
    let (inner, d) ← moveInnerData inner d space touch size
    match d size with
    | none => .error (.ub .rawRead)
    | some b =>
      let (inner, b) ← move (fun _ => none) inner b (some space) touch
      .ok (inner, fun i => if i = size then some b else d i)

/-- The allocations of the outer array, whose values are the inner arrays, and of the inner arrays. -/
structure NHeap (T : Type) where
  outer : Heap (Data Buffer)
  inner : Heap (Data T)

/-- A call of `moveInnerData` on the buffer `b` by the host. -/
def moveInner {T : Type} (h : NHeap T) (b : Buffer) (id : Nat) (size : Nat) (space : Space) (touch : Bool) : R (NHeap T) := do
  let d ← deref h.outer b .host
  let (inner, d) ← moveInnerData h.inner d space touch size
  match h.outer.get id with
  | none => .error (.ub .dangling)
  | some r => .ok { outer := h.outer.set id (some { r with copy := put r.copy .host (some d) }), inner := inner }

def moveInnerIf {T : Type} (c : Bool) (h : NHeap T) (b : Buffer) (id : Nat) (size : Nat) (space : Space) (touch : Bool) : R (NHeap T) :=
  if c then moveInner h b id size space touch else .ok h

/-- `ChaiBuffer::moveNested`: /repo/src/ChaiBuffer.hpp 370-390.  `innerConst`: the values of the inner arrays are `const` in the type of
the view (`toNestedViewConst`). -/
def moveNested {T : Type} (h : NHeap T) (b : Buffer) (innerConst : Bool) (size : Nat) (space : Option Space) (touch : Bool) :
    R (NHeap T × Buffer) :=
  match b.record, space with
  | none, _ => .ok (h, b)
  | some _, none => .ok (h, b)
  | some id, some s =>
    if b.cap = 0 then .ok (h, b)
    else
      match h.outer.get id with
      | none => .error (.ub .dangling)
      | some r => do
        let prevSpace := r.last
        let h ← moveInnerIf (prevSpace = some .host && prevSpace ≠ some s) h b id size s (!innerConst && touch)
        let (outer, b) ← move (fun _ => none) h.outer b (some s) touch
        let h := { h with outer := outer }
        let h ← moveInnerIf (prevSpace = some .device && prevSpace ≠ some s) h b id size s (!innerConst && touch)
        .ok (h, b)

/-- `array[ i ]` by code of space `s`: the inner array. -/
def innerAt {T : Type} (h : NHeap T) (b : Buffer) (s : Space) (i : Nat) : R Buffer := read h.outer b s i

/-- A view of an array of arrays. -/
structure NView where
  buffer : Buffer
  innerConst : Bool

structure NState (T : Type) where
  heap : NHeap T
  views : List NView

/-- What a program can do with an array of arrays. -/
inductive NOp (T : Type) where
  /-- `views[ v ].move( space, touch )` -/
  | move (v : Nat) (space : Option Space) (touch : Bool)
  /-- a copy of a view is captured by a kernel that runs in `space` -/
  | capture (v : Nat) (space : Option Space)
  /-- `views[ v ].toNestedViewConst()` -/
  | toNestedViewConst (v : Nat)
  /-- `views[ v ][ i ][ j ] = x` by code that runs in space `s` -/
  | write (v : Nat) (s : Space) (i j : Nat) (x : T)
  /-- `views[ v ][ i ][ j ]` by code that runs in space `s` -/
  | read (v : Nat) (s : Space) (i j : Nat)

def nviewAt (views : List NView) (v : Nat) : R NView :=
  match views[v]? with
  | none => .error (.ub .dangling)
  | some b => .ok b

/-- An array of arrays with the given capacities on the host, as `resize` leaves it. -/
def nstart {T : Type} (caps : List Nat) : NState T :=
  { heap :=
      { outer := [some { copy := put (fun _ => none) .host (some (fun i => if h : i < caps.length then
                            some { pointer := some .host, cap := caps[i], record := some i, isConst := false } else none)),
                         touched := put (fun _ => false) .host true, last := some .host }],
        inner := caps.map fun _ => some { copy := put (fun _ => none) .host (some (fun _ => none)),
                                          touched := put (fun _ => false) .host true, last := some .host } },
    views := [{ buffer := { pointer := some .host, cap := caps.length, record := some 0, isConst := false }, innerConst := false }] }

/-- One step with `n` inner arrays; the output of a read. -/
def nstep {T : Type} (n : Nat) (st : NState T) : NOp T → R (NState T × Option T)
  | .move v space touch => do
    let b ← nviewAt st.views v
    let (h, c) ← moveNested st.heap b.buffer b.innerConst n space touch
    .ok ({ heap := h, views := st.views.set v { b with buffer := c } }, none)
  | .capture v space => do
    let b ← nviewAt st.views v
    let (h, c) ← moveNested st.heap b.buffer b.innerConst n space true
    .ok ({ heap := h, views := st.views ++ [{ b with buffer := c }] }, none)
  | .toNestedViewConst v => do
    let b ← nviewAt st.views v
    .ok ({ st with views := st.views ++ [{ buffer := toConst b.buffer, innerConst := true }] }, none)
  | .write v s i j x => do
    let b ← nviewAt st.views v
    let a ← innerAt st.heap b.buffer s i
    let inner ← write st.heap.inner a s j x
    .ok ({ st with heap := { st.heap with inner := inner } }, none)
  | .read v s i j => do
    let b ← nviewAt st.views v
    let a ← innerAt st.heap b.buffer s i
    let x ← read st.heap.inner a s j
    .ok (st, some x)

/-- A history and the values it reads. -/
def nrun {T : Type} (n : Nat) : NState T → List (NOp T) → R (NState T × List T)
  | st, [] => .ok (st, [])
  | st, op :: ops => do
    let (st, out) ← nstep n st op
    let (st, outs) ← nrun n st ops
    .ok (st, out.toList ++ outs)

end LvArray.Chai

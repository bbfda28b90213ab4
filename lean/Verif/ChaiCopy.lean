import Verif.Chai
/-!
# `memcpy` between arrays in any memory spaces, synchronous and asynchronous

/repo/src/memcpy.hpp 155-175, 202-218 with /repo/src/umpireInterface.cpp, compiled with CUDA, CHAI and Umpire.  The slices are those of
`Verif/SliceOps.lean`: contiguous ranges of equal length, given here by their first slots.  Umpire and CAMP are third party libraries:
`umpire::ResourceManager::copy` without a resource is complete when it returns; with a device resource the elements are copied at any time
and in any order between the call and the end of `Event::wait`.
-/

namespace LvArray.Chai

/-- A range in one allocation: the array, its pointer record, the space and the first slot. -/
structure Place where
  array : Nat
  record : Nat
  space : Space
  first : Nat
  deriving DecidableEq, Repr

/-- A copy that was started: `todo` are the elements that have not been copied. -/
structure Transfer where
  dst : Place
  src : Place
  todo : List Nat
  deriving DecidableEq, Repr

/-- The arrays of a program, and its copies; the position of a copy is the `camp::resources::Event`. -/
structure Arrays (T : Type) where
  arrays : List (State T)
  copies : List Transfer

def arrayAt {T : Type} (ws : List (State T)) (k : Nat) : R (State T) :=
  match ws[k]? with
  | none => .error (.ub .dangling)
  | some st => .ok st

/-- `getPreviousSpace()`: /repo/src/ChaiBuffer.hpp 422-423. -/
def previousSpace {T : Type} (st : State T) (v : Nat) : R (Option Space) := do
  let b ← viewAt st.views v
  match b.record with
  | none => .error (.ub .dangling)
  | some id =>
    match st.heap.get id with
    | none => .error (.ub .dangling)
    | some r => .ok r.last

/-- `x.move( x.getPreviousSpace(), touch )`: /repo/src/memcpy.hpp 165-166, 208-209. -/
def moveToPrevious {T : Type} (st : State T) (v : Nat) (touch : Bool) : R (State T) := do
  let s ← previousSpace st v
  let (st, _) ← step st (.move v s touch)
  .ok st

/-- The memory a slice of view `v` of array `k` refers to, `len` slots from `first` on: /repo/src/memcpy.hpp 168-172, 211-215.  Umpire
refuses to copy past the end of an allocation; the model has it as an error. -/
def placeOf {T : Type} (ws : List (State T)) (k v first len : Nat) : R Place := do
  let st ← arrayAt ws k
  let b ← viewAt st.views v
  match b.pointer, b.record with
  | some s, some id => if first + len ≤ b.cap then .ok ⟨k, id, s, first⟩ else .error (.ub .outOfBounds)
  | _, _ => .error (.ub .dangling)

/-- The bytes in a slot of a range, which may hold no value. -/
def load {T : Type} (ws : List (State T)) (p : Place) (j : Nat) : R (Option T) := do
  let st ← arrayAt ws p.array
  match st.heap.get p.record with
  | none => .error (.ub .dangling)
  | some r =>
    match r.copy p.space with
    | none => .error (.ub .dangling)
    | some d => .ok (d (p.first + j))

/-- And their replacement. -/
def store {T : Type} (ws : List (State T)) (p : Place) (j : Nat) (x : Option T) : R (List (State T)) := do
  let st ← arrayAt ws p.array
  match st.heap.get p.record with
  | none => .error (.ub .dangling)
  | some r =>
    match r.copy p.space with
    | none => .error (.ub .dangling)
    | some d =>
      let r' : Record (Data T) := { r with copy := put r.copy p.space (some (fun i => if i = p.first + j then x else d i)) }
      .ok (ws.set p.array { st with heap := st.heap.set p.record (some r') })

/-- One element is copied. -/
def copyElement {T : Type} (ws : List (State T)) (dst src : Place) (j : Nat) : R (List (State T)) := do
  let x ← load ws src j
  store ws dst j x

/-- Several elements are copied. -/
def copyElements {T : Type} (dst src : Place) : List (State T) → List Nat → R (List (State T))
  | ws, [] => .ok ws
  | ws, j :: js => do
    let ws ← copyElement ws dst src j
    copyElements dst src ws js

/-- What a program can do with its arrays, and what happens on its own. -/
inductive CopyOp (T : Type) where
  /-- an operation on array `k` or its views -/
  | on (k : Nat) (op : Op T)
  /-- `memcpy` from view `w` of array `s` to view `v` of array `d`; `async`: with a device resource -/
  | memcpy (async : Bool) (d v dstFirst s w srcFirst len : Nat)
  /-- the device copies element `j` of the copy with event `e` -/
  | progress (e j : Nat)
  /-- `event.wait()` -/
  | wait (e : Nat)

/-- The first part of `memcpy`: both arrays are moved to the space they are in, and the slices are taken: /repo/src/memcpy.hpp 165-172,
208-215. -/
def startCopy {T : Type} (ws : List (State T)) (d v dstFirst s w srcFirst len : Nat) : R (List (State T) × Place × Place) := do
  let dst ← arrayAt ws d
  let dst ← moveToPrevious dst v true
  let ws := ws.set d dst
  let src ← arrayAt ws s
  let src ← moveToPrevious src w false
  let ws := ws.set s src
  let dstPlace ← placeOf ws d v dstFirst len
  let srcPlace ← placeOf ws s w srcFirst len
  .ok (ws, dstPlace, srcPlace)

/-- `memcpy( dst, dstIndices, src, srcIndices )` and `memcpy( resource, ... )` with a host resource (`async = false`), and with a device
resource: /repo/src/memcpy.hpp 155-175, 202-218, /repo/src/umpireInterface.cpp 26-63.  The function without a resource returns no event;
the model counts one for it too. -/
def memcpyArrays {T : Type} (w : Arrays T) (async : Bool) (d v dstFirst s u srcFirst len : Nat) : R (Arrays T) := do
  let (ws, dst, src) ← startCopy w.arrays d v dstFirst s u srcFirst len
  if async then .ok { arrays := ws, copies := w.copies ++ [⟨dst, src, List.range len⟩] }
  else do
    let ws ← copyElements dst src ws (List.range len)
    .ok { arrays := ws, copies := w.copies ++ [⟨dst, src, []⟩] }

/-- One element of a pending copy is copied, if it was not before. -/
def progress {T : Type} (w : Arrays T) (e j : Nat) : R (Arrays T) :=
  match w.copies[e]? with
  | none => .ok w
  | some t =>
    if j ∈ t.todo then do
      let ws ← copyElement w.arrays t.dst t.src j
      .ok { arrays := ws, copies := w.copies.set e { t with todo := t.todo.filter (fun i => i ≠ j) } }
    else .ok w

/-- `Event::wait`: the rest is copied. -/
def waitFor {T : Type} (w : Arrays T) (e : Nat) : R (Arrays T) :=
  match w.copies[e]? with
  | none => .error (.ub .dangling)
  | some t => do
    let ws ← copyElements t.dst t.src w.arrays t.todo
    .ok { arrays := ws, copies := w.copies.set e { t with todo := [] } }

/-- One step and the value it reads. -/
def copyStep {T : Type} (w : Arrays T) : CopyOp T → R (Arrays T × Option T)
  | .on k op => do
    let st ← arrayAt w.arrays k
    let (st, out) ← step st op
    .ok ({ w with arrays := w.arrays.set k st }, out)
  | .memcpy async d v dstFirst s u srcFirst len => do
    let w ← memcpyArrays w async d v dstFirst s u srcFirst len
    .ok (w, none)
  | .progress e j => do
    let w ← progress w e j
    .ok (w, none)
  | .wait e => do
    let w ← waitFor w e
    .ok (w, none)

/-- A history and the values it reads. -/
def copyRun {T : Type} : Arrays T → List (CopyOp T) → R (Arrays T × List T)
  | w, [] => .ok (w, [])
  | w, op :: ops => do
    let (w, out) ← copyStep w op
    let (w, outs) ← copyRun w ops
    .ok (w, out.toList ++ outs)

/-- Fresh arrays with the given numbers of slots, on the host. -/
def freshArrays {T : Type} : List Nat → R (List (State T))
  | [] => .ok []
  | n :: ns => do
    let st ← start n
    let rest ← freshArrays ns
    .ok (st :: rest)

end LvArray.Chai

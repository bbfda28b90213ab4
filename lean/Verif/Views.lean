import Verif.World
/-!
# Views that outlive calls on the array they were taken from

An `ArrayView` is a copy of the array's pointer and dimensions (/repo/src/ArrayView.hpp 265-285).  It is not told when the array
reallocates, shrinks, is moved or is destroyed.  The model keeps views as handles beside the array variables of `World`; the
specification says what each access through a view must yield.  Simplification: an address is never used again after it was
released (accesses through a released pointer are reported as undefined, whatever the allocator does).
-/

namespace LvArray

variable {T : Type}

/-- Array variables, and views: each a pointer and a length of its own. -/
structure VWorld (T : Type) where
  w : World T
  views : Nat → Option Handle

/-- No variables and no views. -/
def VWorld.empty (T : Type) : VWorld T := { w := World.empty T, views := fun _ => none }

/-- Statements over arrays and views. -/
inductive VOp (T : Type) where
  /-- any statement of `WOp` -/
  | stmt (op : WOp T)
  /-- `v = x.toView()`, /repo/src/ArrayView.hpp 270-271 -/
  | take (v x : Nat)
  /-- `v = u`, copying a view, /repo/src/ArrayView.hpp 127-133, 246-253 -/
  | dup (v u : Nat)
  /-- read `v[ i ]`, /repo/src/ArrayView.hpp 541-546 -/
  | get (v : Nat) (i : Int)
  /-- `v[ i ] = t` -/
  | put (v : Nat) (i : Int) (t : T)
  /-- read `x[ i ]` -/
  | read (x : Nat) (i : Int)
  /-- `x.size()`, /repo/src/ArrayView.hpp 390-405 -/
  | size (x : Nat)
  /-- `x.capacity()`, /repo/src/ArrayView.hpp 432-437 -/
  | capacity (x : Nat)
  deriving DecidableEq, Repr

/-- What a statement lets the program see. -/
inductive VAns (T : Type) where
  | unit
  | val (t : T)
  | num (n : Nat)
  deriving DecidableEq, Repr

/-- Look up a view; using an undeclared one is not a program. -/
def VWorld.view (m : VWorld T) (v : Nat) : R Handle :=
  match m.views v with
  | some h => .ok h
  | none => .error (.ub .dangling)

/-- `v[ i ]` of the view `h`: the index is compared with the view's own length
(`ARRAY_SLICE_CHECK_BOUNDS` /repo/src/ArraySlice.hpp 55-57), then the pointer is followed. -/
def VWorld.getAt (c : Cfg) (m : VWorld T) (h : Handle) (i : Int) : R T := do
  let k ← Array1.checkIndex c { buf := (Buf.empty : Buf T), size := h.size } i
  let a ← m.w.load h
  a.buf.read k

/-- `v[ i ] = t`. -/
def VWorld.putAt (c : Cfg) (m : VWorld T) (h : Handle) (i : Int) (t : T) : R (VWorld T) := do
  let k ← Array1.checkIndex c { buf := (Buf.empty : Buf T), size := h.size } i
  let a ← m.w.load h
  let b ← a.buf.write c k t
  .ok { m with w := { m.w with mem := setMem m.w.mem h.ptr b } }

/-- One statement. -/
def VWorld.step [Inhabited T] (c : Cfg) (m : VWorld T) : VOp T → R (VWorld T × VAns T)
  | .stmt op => do
    let w ← m.w.step c op
    .ok ({ m with w := w }, .unit)
  | .take v x => do
    let h ← m.w.var x
    .ok ({ m with views := upd m.views v (some h) }, .unit)
  | .dup v u => do
    let h ← m.view u
    .ok ({ m with views := upd m.views v (some h) }, .unit)
  | .get v i => do
    let h ← m.view v
    let t ← m.getAt c h i
    .ok (m, .val t)
  | .put v i t => do
    let h ← m.view v
    let m ← m.putAt c h i t
    .ok (m, .unit)
  | .read x i => do
    let h ← m.w.var x
    let t ← m.getAt c h i
    .ok (m, .val t)
  | .size x => do
    let h ← m.w.var x
    .ok (m, .num h.size)
  | .capacity x => do
    let h ← m.w.var x
    let a ← m.w.load h
    .ok (m, .num a.buf.cap)

/-- A program, and everything it got to see. -/
def VWorld.run [Inhabited T] (c : Cfg) : VWorld T → List (VOp T) → R (VWorld T × List (VAns T))
  | m, [] => .ok (m, [])
  | m, op :: ops => do
    let (m, o) ← m.step c op
    let (m, os) ← VWorld.run c m ops
    .ok (m, o :: os)

namespace Spec

/-- Specification.  Storages are numbered and each holds a sequence and has a capacity; a storage stays where it is until it is
given up.  An array that never needed room has no storage.  A view names a storage and the number of elements it may address. -/
structure Shelf (T : Type) where
  store : Nat → Option (List T × Nat)
  vars : Nat → Option (Option Nat)
  views : Nat → Option (Option Nat × Nat)
  next : Nat

/-- Nothing at all. -/
def Shelf.empty (T : Type) : Shelf T :=
  { store := fun _ => none, vars := fun _ => none, views := fun _ => none, next := 0 }

/-- Elements and capacity of a storage (no storage: no elements, capacity 0). -/
def Shelf.holds {T : Type} (s : Shelf T) : Option Nat → Option (List T × Nat)
  | none => some ([], 0)
  | some p => s.store p

/-- How many elements an array that holds `xs` needs room for in a call, and the capacity it gets if it has less: calls that add
elements one after another double what they need, calls that name a size get that size. -/
def need {T : Type} (xs : List T) : VecOp T → Nat × Nat
  | .emplaceBack _ => (xs.length + 1, 2 * (xs.length + 1))
  | .emplace _ _ => (xs.length + 1, 2 * (xs.length + 1))
  | .insert _ vs => (xs.length + vs.length, 2 * (xs.length + vs.length))
  | .resize n => (n.toNat, n.toNat)
  | .resizeDefault n _ => (n.toNat, n.toNat)
  | .reserve n => (n.toNat, n.toNat)
  | .popBack | .erase _ | .clear | .set _ _ => (0, 0)

/-- The storages that are left when `o` is given up. -/
def Shelf.without {T : Type} (s : Shelf T) : Option Nat → Nat → Option (List T × Nat)
  | none => s.store
  | some p => upd s.store p none

/-- Variable `x`, whose storage `o` has capacity `cap`, now holds `ys`.  If the room needed is there the storage stays; otherwise
it is given up and a new one of capacity `grown` is taken. -/
def Shelf.become {T : Type} (s : Shelf T) (x : Nat) (o : Option Nat) (cap : Nat) (ys : List T) (needed grown : Nat) : Shelf T :=
  if needed ≤ cap then
    match o with
    | none => s
    | some p => { s with store := upd s.store p (some (ys, cap)) }
  else
    { s with
      store := upd (s.without o) s.next (some (ys, grown))
      vars := upd s.vars x (some (some s.next))
      next := s.next + 1 }

/-- What the specification says about a statement. -/
inductive Verdict (α : Type) where
  /-- it works, with this result -/
  | fine (a : α)
  /-- it indexes outside the view or array -/
  | outside
  /-- it goes through a view whose storage has been given up -/
  | dangling
  /-- it reads, through a view, an element the array no longer has -/
  | ended
  /-- not a program the specification talks about -/
  | silent

/-- Sequencing. -/
def Verdict.andThen {α β : Type} : Verdict α → (α → Verdict β) → Verdict β
  | .fine a, f => f a
  | .outside, _ => .outside
  | .dangling, _ => .dangling
  | .ended, _ => .ended
  | .silent, _ => .silent

/-- A statement of `WOp`: `some` new shelf, or `none` if it is not legal. -/
def shelfStmt {T : Type} [Inhabited T] (s : Shelf T) : WOp T → Option (Shelf T)
  | .new x => if (s.vars x).isSome then none else some { s with vars := upd s.vars x (some none) }
  | .call x op => do
    let o ← s.vars x
    let (xs, cap) ← s.holds o
    let ys ← vecStep none xs op
    some (s.become x o cap ys (need xs op).1 (need xs op).2)
  | .copy x y => do
    let o ← s.vars x
    let (_, cap) ← s.holds o
    let q ← s.vars y
    let (ys, _) ← s.holds q
    some (s.become x o cap ys ys.length ys.length)
  | .moveNew x y => do
    let q ← s.vars y
    if (s.vars x).isSome then none else some { s with vars := upd (upd s.vars x (some q)) y (some none) }
  | .moveTo x y => do
    let _ ← s.vars x
    let q ← s.vars y
    if x = y then none else some { s with vars := upd (upd s.vars x (some q)) y (some none) }
  | .del x => do
    let o ← s.vars x
    some { s with
      store := s.without o
      vars := upd s.vars x none }

/-- The element at index `i` of a view of `n` elements of storage `o`. -/
def Shelf.at {T : Type} (s : Shelf T) (o : Option Nat) (n : Nat) (i : Int) : Verdict T :=
  if i < 0 ∨ (n : Int) ≤ i then .outside
  else match s.holds o with
    | none => .dangling
    | some (xs, _) => match xs[i.toNat]? with
      | some t => .fine t
      | none => .ended

/-- One statement. -/
def shelfStep {T : Type} [Inhabited T] (s : Shelf T) : VOp T → Verdict (Shelf T × VAns T)
  | .stmt op => match shelfStmt s op with
    | some s => .fine (s, .unit)
    | none => .silent
  | .take v x => match s.vars x with
    | none => .silent
    | some o => match s.holds o with
      | none => .silent
      | some (xs, _) => .fine ({ s with views := upd s.views v (some (o, xs.length)) }, .unit)
  | .dup v u => match s.views u with
    | none => .silent
    | some r => .fine ({ s with views := upd s.views v (some r) }, .unit)
  | .get v i => match s.views v with
    | none => .silent
    | some (o, n) => (s.at o n i).andThen fun t => .fine (s, .val t)
  | .put v i t => match s.views v with
    | none => .silent
    | some (o, n) =>
      match s.at o n i with
      | .fine _ => match o with
        | none => .silent
        | some p => match s.store p with
          | none => .silent
          | some (xs, cap) => .fine ({ s with store := upd s.store p (some (xs.set i.toNat t, cap)) }, .unit)
      | .outside => .outside
      | .dangling => .dangling
      | _ => .silent
  | .read x i => match s.vars x with
    | none => .silent
    | some o => match s.holds o with
      | none => .silent
      | some (xs, _) => (s.at o xs.length i).andThen fun t => .fine (s, .val t)
  | .size x => match s.vars x with
    | none => .silent
    | some o => match s.holds o with
      | none => .silent
      | some (xs, _) => .fine (s, .num xs.length)
  | .capacity x => match s.vars x with
    | none => .silent
    | some o => match s.holds o with
      | none => .silent
      | some (_, cap) => .fine (s, .num cap)

/-- A program. -/
def shelfRun {T : Type} [Inhabited T] : Shelf T → List (VOp T) → Verdict (Shelf T × List (VAns T))
  | s, [] => .fine (s, [])
  | s, op :: ops => (shelfStep s op).andThen fun r => (shelfRun r.1 ops).andThen fun q => .fine (q.1, r.2 :: q.2)

/-- What array `x`, holding `xs`, holds after a statement that leaves its storage and its view `v` alone and never makes it need room
for more than `n` elements; `none` for every other statement. -/
def steadyStep {T : Type} [Inhabited T] (x v n : Nat) (xs : List T) : VOp T → Option (List T)
  | .stmt (.call y op) => if y = x then (if (need xs op).1 ≤ n then vecStep none xs op else none) else some xs
  | .stmt (.new y) => if y = x then none else some xs
  | .stmt (.copy y _) => if y = x then none else some xs
  | .stmt (.moveNew y z) => if y = x ∨ z = x then none else some xs
  | .stmt (.moveTo y z) => if y = x ∨ z = x then none else some xs
  | .stmt (.del y) => if y = x then none else some xs
  | .take u _ => if u = v then none else some xs
  | .dup u _ => if u = v then none else some xs
  | .put u i t => if u = v then some (xs.set i.toNat t) else none
  | .get _ _ | .read _ _ | .size _ | .capacity _ => some xs

/-- The same for a stretch of a program. -/
def steady {T : Type} [Inhabited T] (x v n : Nat) : List T → List (VOp T) → Option (List T)
  | xs, [] => some xs
  | xs, op :: ops => do
    let ys ← steadyStep x v n xs op
    steady x v n ys ops

end Spec

end LvArray

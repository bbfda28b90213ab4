import Verif.AoALemmas
import Verif.Spec.RowViews

/-!
# Views of an `ArrayOfArrays` that outlive calls on it

An `ArrayOfArraysView` is a copy of the object's number of arrays and of its three buffers, that is of three pointers
(/repo/src/ArrayOfArraysView.hpp 208-238, 957-975; `toView`, 274-282).  It is not told when the object reallocates a buffer or gets
more or fewer arrays.  The model keeps the object with its three buffers, the addresses they are at, and views with the addresses
they know.
-/

namespace LvArray

variable {T : Type}

/-- An `ArrayOfArrays`, where its buffers are, an address that was never used, and views: each a number of arrays and three
pointers.  Simplification: an address is never used again after it was released. -/
structure RowWorld (T : Type) where
  obj : AoA T
  addr : Three Nat
  fresh : Nat
  views : Nat → Option (Nat × Three Nat)

/-- Where a buffer is after a call that left it with capacity `cap'`: where it was, or at a new address if it was reallocated.
Buffers are reallocated only to a larger capacity: /repo/src/bufferManipulation.hpp 236, 257. -/
def movedTo (cap cap' addr fresh : Nat) : Nat := if cap' = cap then addr else fresh

/-- What a pointer refers to: the buffer, if that is still there; otherwise memory that must not be accessed, which the model
represents by a buffer without elements, every access to which is undefined. -/
def follow {X : Type} (ptr addr : Nat) (b : Buf X) : Buf X := if ptr = addr then b else Buf.empty

/-- The object as a view sees it. -/
def RowWorld.through (w : RowWorld T) (v : Nat × Three Nat) : AoA T :=
  { shape :=
      { numArrays := v.1
        offsets := follow v.2.offsets w.addr.offsets w.obj.shape.offsets
        sizes := follow v.2.sizes w.addr.sizes w.obj.shape.sizes }
    values := follow v.2.values w.addr.values w.obj.values }

/-- The object after a view has changed what it sees. -/
def RowWorld.putBack (w : RowWorld T) (v : Nat × Three Nat) (a : AoA T) : RowWorld T :=
  { w with
    obj :=
      { shape :=
          { numArrays := w.obj.shape.numArrays
            offsets := if v.2.offsets = w.addr.offsets then a.shape.offsets else w.obj.shape.offsets
            sizes := if v.2.sizes = w.addr.sizes then a.shape.sizes else w.obj.shape.sizes }
        values := if v.2.values = w.addr.values then a.values else w.obj.values } }

/-- `size`: /repo/src/ArrayOfArraysView.hpp 320-322; `sizeOfArray`: 328-332; `capacityOfArray`: 380-385; `operator()`: 417-421. -/
def AoA.answer (c : Cfg) (a : AoA T) : RowQuery → R (RowAnswer T)
  | .size => .ok (.num a.shape.numArrays)
  | .sizeOfArray i => do
    let n ← a.shape.sizeOfArray c i
    .ok (.num n)
  | .capacityOfArray i => do
    let n ← a.shape.capacityOfArray c i
    .ok (.num n)
  | .get i j => do
    let v ← a.get c i j
    .ok (.val v)

/-- The member functions of the view that change something: /repo/src/ArrayOfArraysView.hpp 417-555. -/
def AoA.edit [Inhabited T] (c : Cfg) (a : AoA T) : RowEdit T → R (AoA T)
  | .set i j v => a.set c i j v
  | .emplaceBack i v => a.viewEmplaceBack c i v
  | .appendToArray i vs => a.viewAppendToArray c i vs
  | .emplace i j v => a.viewEmplace c i j v
  | .insertIntoArray i j vs => a.viewInsertIntoArray c i j vs
  | .eraseFromArray i j n => a.eraseFromArray c i j n

/-- Look up a view; using an undeclared one is not a program. -/
def RowWorld.view (w : RowWorld T) (v : Nat) : R (Nat × Three Nat) :=
  match w.views v with
  | some h => .ok h
  | none => .error (.ub .dangling)

/-- One statement. -/
def RowWorld.step [Inhabited T] (c : Cfg) (w : RowWorld T) : RowStmt T → R (RowWorld T × Option (RowAnswer T))
  | .call op => do
    let a ← w.obj.step c op
    .ok ({ w with
            obj := a
            addr := ⟨movedTo w.obj.shape.sizes.cap a.shape.sizes.cap w.addr.sizes w.fresh,
              movedTo w.obj.shape.offsets.cap a.shape.offsets.cap w.addr.offsets w.fresh,
              movedTo w.obj.values.cap a.values.cap w.addr.values w.fresh⟩
            fresh := w.fresh + 1 }, none)
  | .take v => .ok ({ w with views := upd w.views v (some (w.obj.shape.numArrays, w.addr)) }, none)
  | .dup v u => do
    let h ← w.view u
    .ok ({ w with views := upd w.views v (some h) }, none)
  | .ask q => do
    let x ← w.obj.answer c q
    .ok (w, some x)
  | .askView v q => do
    let h ← w.view v
    let x ← (w.through h).answer c q
    .ok (w, some x)
  | .edit v e => do
    let h ← w.view v
    let a ← (w.through h).edit c e
    .ok (w.putBack h a, none)

/-- A program, and the answers it got. -/
def RowWorld.run [Inhabited T] (c : Cfg) : RowWorld T → List (RowStmt T) → R (RowWorld T × List (RowAnswer T))
  | w, [] => .ok (w, [])
  | w, st :: sts => do
    let (w, x) ← w.step c st
    let (w, xs) ← RowWorld.run c w sts
    .ok (w, x.toList ++ xs)

/-- `ArrayOfArrays( n, d )`, /repo/src/ArrayOfArrays.hpp 55-60, and no views. -/
def RowWorld.construct (c : Cfg) (n d : Nat) : R (RowWorld T) := do
  let a ← AoA.mk' c n d
  .ok { obj := a, addr := ⟨0, 0, 0⟩, fresh := 1, views := fun _ => none }

end LvArray

import Verif.RowViews
import Verif.Spec.SetViews

/-!
# Views of a `SortedArray` that outlive calls on it

A `SortedArrayView` is a copy of the set's size and of its buffer, that is of a pointer (/repo/src/SortedArrayView.hpp 104-107, 140-151).
It is not told when the set changes or reallocates.
-/

namespace LvArray

variable {T : Type} [LT T] [DecidableLT T] [DecidableEq T]

/-- A `SortedArray`, where its buffer is, an address that was never used, and views: each a size and a pointer.  Simplification: an address is
never used again after it was released. -/
structure SetWorld (T : Type) where
  obj : SortedArr T
  addr : Nat
  fresh : Nat
  views : Nat → Option (Nat × Nat)

/-- Default construction, /repo/src/SortedArray.hpp 66-68, and no views. -/
def SetWorld.init (T : Type) : SetWorld T := { obj := SortedArr.init T none, addr := 0, fresh := 1, views := fun _ => none }

omit [LT T] [DecidableLT T] [DecidableEq T] in
/-- The set as a view sees it: `m_size` and `m_values` of /repo/src/SortedArrayView.hpp 294-300. -/
def SetWorld.through (w : SetWorld T) (v : Nat × Nat) : SortedArr T := { buf := follow v.2 w.addr w.obj.buf, size := v.1 }

omit [LT T] [DecidableLT T] [DecidableEq T] in
/-- Look up a view; using an undeclared one is not a program. -/
def SetWorld.view (w : SetWorld T) (v : Nat) : R (Nat × Nat) :=
  match w.views v with
  | some h => .ok h
  | none => .error (.ub .dangling)

/-- `empty`, `size`, `contains`, `count`, `operator[]` and `operator()`: /repo/src/SortedArrayView.hpp 176-235. -/
def SortedArr.answer (c : Cfg) (a : SortedArr T) : SetQuery T → R (SetOut T)
  | .size => .ok (.num a.size)
  | .empty => .ok (.bool (decide (a.size = 0)))
  | .contains x => do
    let b ← a.contains c x
    .ok (.bool b)
  | .get i => do
    let v ← a.get c i
    .ok (.val v)

/-- One statement; `toView` is /repo/src/SortedArrayView.hpp 140-143, copies of views 84 and 113. -/
def SetWorld.step [Inhabited T] (c : Cfg) (w : SetWorld T) : SetStmt T → R (SetWorld T × Option (SetOut T))
  | .call op => do
    let r ← w.obj.step c op
    .ok ({ w with obj := r.1, addr := movedTo w.obj.buf.cap r.1.buf.cap w.addr w.fresh, fresh := w.fresh + 1 }, some r.2)
  | .take v => .ok ({ w with views := upd w.views v (some (w.obj.size, w.addr)) }, none)
  | .dup v u => do
    let h ← w.view u
    .ok ({ w with views := upd w.views v (some h) }, none)
  | .ask v q => do
    let h ← w.view v
    let x ← (w.through h).answer c q
    .ok (w, some x)

/-- A program, and the answers it got. -/
def SetWorld.run [Inhabited T] (c : Cfg) : SetWorld T → List (SetStmt T) → R (SetWorld T × List (SetOut T))
  | w, [] => .ok (w, [])
  | w, st :: sts => do
    let (w, x) ← w.step c st
    let (w, xs) ← SetWorld.run c w sts
    .ok (w, x.toList ++ xs)

end LvArray

import Verif.AoS
import Verif.RowViews
import Verif.Spec.SetListViews

/-!
# Views of an `ArrayOfSets` that outlive calls on it

An `ArrayOfSetsView` has the members of an `ArrayOfArraysView` and no others (/repo/src/ArrayOfSetsView.hpp 39-41,
/repo/src/ArrayOfArraysView.hpp 957-975): the number of sets and three pointers.  `toView`: /repo/src/ArrayOfSets.hpp 190-193,
/repo/src/ArrayOfSetsView.hpp 121-129.  The world of the model is the one of views of an `ArrayOfArrays`.
-/

namespace LvArray

variable {T : Type} [LT T] [DecidableLT T] [DecidableEq T] [Inhabited T]

/-- A member function of the view (dispatch only).  The insertions are the ones that check the capacity instead of growing the set,
/repo/src/ArrayOfSetsView.hpp 362-406, 470-512; the other functions are the same for view and owner: 191-200, 416-460.  A call that
views do not offer is not a program. -/
def AoS.viewStep (c : Cfg) (a : AoA T) : AoSOp T → R (AoA T × AoSOut T)
  | .insert i v => do let r ← AoS.insertIntoSet c (AoS.checking c i) a i v; .ok (r.1, .bool r.2)
  | .insertMany i vs => do let r ← AoS.insertRangeIntoSet c (AoS.checking c i) a i vs; .ok (r.1, .num r.2)
  | .remove i v => AoS.step c a (.remove i v)
  | .removeMany i vs => AoS.step c a (.removeMany i vs)
  | .contains i v => AoS.step c a (.contains i v)
  | .get i j => AoS.step c a (.get i j)
  | _ => .error .abort

/-- One statement. -/
def RowWorld.setStep (c : Cfg) (w : RowWorld T) : SetsStmt T → R (RowWorld T × Option (AoSOut T))
  | .call op => do
    let r ← AoS.step c w.obj op
    .ok ({ w with
            obj := r.1
            addr := ⟨movedTo w.obj.shape.sizes.cap r.1.shape.sizes.cap w.addr.sizes w.fresh,
              movedTo w.obj.shape.offsets.cap r.1.shape.offsets.cap w.addr.offsets w.fresh,
              movedTo w.obj.values.cap r.1.values.cap w.addr.values w.fresh⟩
            fresh := w.fresh + 1 }, some r.2)
  | .take v => .ok ({ w with views := upd w.views v (some (w.obj.shape.numArrays, w.addr)) }, none)
  | .dup v u => do
    let h ← w.view u
    .ok ({ w with views := upd w.views v (some h) }, none)
  | .via v op => do
    let h ← w.view v
    let r ← AoS.viewStep c (w.through h) op
    .ok (w.putBack h r.1, some r.2)
  | .size v => do
    let h ← w.view v
    .ok (w, some (.num (w.through h).shape.numArrays))

/-- A program, and the answers it got.  It starts with `ArrayOfSets( n, d )`, /repo/src/ArrayOfSets.hpp 56-62, which is
`RowWorld.construct`. -/
def RowWorld.runSets (c : Cfg) : RowWorld T → List (SetsStmt T) → R (RowWorld T × List (AoSOut T))
  | w, [] => .ok (w, [])
  | w, st :: sts => do
    let (w, x) ← w.setStep c st
    let (w, xs) ← RowWorld.runSets c w sts
    .ok (w, x.toList ++ xs)

end LvArray

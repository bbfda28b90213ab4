import Verif.Whole
import Verif.Spec.Index
/-!
# Specification: boxes of values that follow their views between memory spaces

A box has one value for every multi-index, wherever it is.  `none` means that the program breaks the documented rules: it uses a view in
another space than the one the data is in, an index that is not in the box, assigns through a read-only view or in a space that was not
touched; or that it does not compile.  Otherwise a call may stop the program (`.stopped`).
-/

namespace LvArray.Spec

open LvArray.Chai (Space)
open LvArray.Whole (Op)

/-- The side lengths, the order of the dimensions in memory, the values, the space the data is in, and whether that space is touched. -/
structure PlacedBox (T : Type) where
  dims : List Nat
  perm : List Nat
  value : List Int → T
  current : Space
  touched : Bool

/-- All boxes, and for each view the box, where the view was last moved to, and whether it is read-only. -/
structure PlacedBoxes (T : Type) where
  boxes : List (PlacedBox T)
  views : List (Nat × Space × Bool)

/-- The distance in memory between neighbours in dimension `k`: the number of elements that share the indices of `k` and of the slower
dimensions. -/
def distance (perm dims : List Nat) (k : Nat) : Nat := ((perm.drop (perm.idxOf k + 1)).map fun j => dims.getD j 0).prod

/-- The elements of two boxes with the same side lengths are arranged in the same way. -/
def SameLayout {T : Type} (a b : PlacedBox T) : Prop :=
  a.dims = b.dims ∧ ∀ k, k < a.dims.length → distance a.perm a.dims k = distance b.perm b.dims k

instance {T : Type} (a b : PlacedBox T) : Decidable (SameLayout a b) := inferInstanceAs (Decidable (_ ∧ _))

/-- The data of a box is brought to space `s`. -/
def PlacedBox.bring {T : Type} (a : PlacedBox T) (s : Space) (touch : Bool) : PlacedBox T :=
  { a with current := s, touched := touch || (a.touched && s = a.current) }

/-- The outcome of a step that keeps the rules. -/
inductive Outcome (T : Type) where
  | stopped
  | went (w : PlacedBoxes T) (out : Option T)

def boxesStep {T : Type} (zero : T) (w : PlacedBoxes T) : Op T → Option (Outcome T)
  | .newArray perm dims x =>
    if perm.Perm (List.range dims.length) ∧ dims ≠ [] then
      some (.went { boxes := w.boxes ++ [{ dims := dims, perm := perm, value := fun _ => x, current := .host, touched := true }]
                    views := w.views ++ [(w.boxes.length, .host, false)] } none)
    else none
  | .move v space touch => do
    let (k, _, c) ← w.views[v]?
    let a ← w.boxes[k]?
    match space with
    | none => some (.went w none)
    | some s => some (.went { boxes := w.boxes.set k (a.bring s (touch && !c)), views := w.views.set v (k, s, c) } none)
  | .capture v space => do
    let (k, p, c) ← w.views[v]?
    let a ← w.boxes[k]?
    match space with
    | none => some (.went { w with views := w.views ++ [(k, p, c)] } none)
    | some s => some (.went { boxes := w.boxes.set k (a.bring s (!c)), views := w.views ++ [(k, s, c)] } none)
  | .toViewConst v => do
    let (k, p, _) ← w.views[v]?
    some (.went { w with views := w.views ++ [(k, p, true)] } none)
  | .write v s idx x => do
    let (k, p, c) ← w.views[v]?
    let a ← w.boxes[k]?
    if p = s ∧ s = a.current ∧ c = false ∧ a.touched = true ∧ InBounds a.dims idx then
      some (.went { w with boxes := w.boxes.set k { a with value := fun j => if j = idx then x else a.value j } } none)
    else none
  | .read v s idx => do
    let (k, p, _) ← w.views[v]?
    let a ← w.boxes[k]?
    if p = s ∧ s = a.current ∧ InBounds a.dims idx then some (.went w (some (a.value idx))) else none
  | .setValues v P x => do
    let (k, _, c) ← w.views[v]?
    let a ← w.boxes[k]?
    if c = false then some (.went { w with boxes := w.boxes.set k { a.bring P.space true with value := fun _ => x } } none) else none
  | .setValuesFrom v u P => do
    let (k, _, c) ← w.views[v]?
    let (l, _, _) ← w.views[u]?
    let a ← w.boxes[k]?
    let b ← w.boxes[l]?
    if c = false ∧ a.dims.length = b.dims.length ∧ a.perm.getLast? = b.perm.getLast? then
      if SameLayout a b then
        some (.went { w with boxes := (w.boxes.set l (b.bring P.space false)).set k { a.bring P.space true with value := b.value } } none)
      else some .stopped
    else none
  | .zero v => do
    let (k, _, c) ← w.views[v]?
    let a ← w.boxes[k]?
    if c = false then
      some (.went { boxes := w.boxes.set k { a.bring a.current true with value := fun _ => zero }
                    views := w.views.set v (k, a.current, c) } none)
    else none

/-- A history that keeps the rules: the values it reads, and whether it is stopped. -/
def boxesRun {T : Type} (zero : T) : PlacedBoxes T → List (Op T) → Option (List T × Bool)
  | _, [] => some ([], false)
  | w, op :: ops => do
    match ← boxesStep zero w op with
    | .stopped => some ([], true)
    | .went w out =>
      let (outs, b) ← boxesRun zero w ops
      some (out.toList ++ outs, b)

end LvArray.Spec

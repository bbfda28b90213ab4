import Verif.Placed
import Verif.Spec.ParallelMatrix
import Verif.Spec.VecVec

/-!
# Specification: a container that follows its views between memory spaces

There is one list of rows, wherever the data is.  `none` means that the program breaks the documented rules: it uses a view in another
space than the one the data is in, changes something through a read-only view or in a space where it was not touched, or uses a view
after the container may have been reallocated.
-/

namespace LvArray.Spec

open LvArray.Chai (Space)
open LvArray.Placed (Op Out)

/-- The rows, the space the data is in, which parts are touched there, and for each view where it was last moved to and which parts are
read-only (`none` = invalid).  View 0 is the container. -/
structure Placed (ρ : Type) where
  rows : List ρ
  current : Space
  touched : Part → Bool
  views : List (Option (Space × (Part → Bool)))

/-- View `v`, if it is valid. -/
def Placed.view {ρ : Type} (a : Placed ρ) (v : Nat) : Option (Space × (Part → Bool)) := (a.views[v]?).getD none

/-- All parts. -/
def allParts : List Part := [.offsets, .sizes, .values, .entries]

variable {ρ κ η ω ω' : Type}

/-- One operation.  `step` is the effect of a call on a row, `writes` the parts it changes, and `own` the effect of a call of the
container. -/
def placedStep (step : κ → ρ → Option (ρ × ω)) (writes : κ → Part → Bool) (own : η → List ρ → Option (List ρ × ω')) (a : Placed ρ) :
    Op κ η → Option (Placed ρ × Out ω ω')
  | .move v space touch =>
    match a.view v, space with
    | none, _ => none
    | some _, none => some (a, .nothing)
    -- on the device the offsets are not touched
    | some (_, ro), some s =>
      some ({ a with current := s
                     touched := fun part => (touch && !(part = .offsets && s = .device) && !ro part) || (a.touched part && s = a.current)
                     views := a.views.set v (some (s, ro)) }, .nothing)
  -- copying the container itself would be a deep copy
  | .capture v space =>
    if v = 0 then none
    else
      match a.view v, space with
      | none, _ => none
      | some p, none => some ({ a with views := a.views ++ [some p] }, .nothing)
      | some (_, ro), some s =>
        some ({ a with current := s
                       touched := fun part => !ro part || (a.touched part && s = a.current)
                       views := a.views ++ [some (s, ro)] }, .nothing)
  | .convert v readOnly =>
    match a.view v with
    | none => none
    | some (s, ro) => some ({ a with views := a.views ++ [some (s, fun part => ro part || readOnly part)] }, .nothing)
  | .kernel v s work _ =>
    match a.view v with
    | none => none
    | some (p, ro) =>
      if p = s ∧ s = a.current ∧
          ∀ calls ∈ work, ∀ q ∈ calls, ∀ part ∈ allParts, writes q.2 part = true → ro part = false ∧ a.touched part = true then
        (threadsRun step a.rows work).map fun r => ({ a with rows := r.1 }, .kernel r.2)
      else none
  | .own op _ =>
    match a.view 0 with
    | none => none
    | some (p, ro) =>
      if p = .host ∧ a.current = .host ∧ ∀ part ∈ allParts, a.touched part = true then
        (own op a.rows).map fun r =>
          ({ a with rows := r.1, views := (List.replicate a.views.length none).set 0 (some (p, ro)) }, .own r.2)
      else none

/-- A history that keeps the rules, and what its operations return. -/
def placedRun (step : κ → ρ → Option (ρ × ω)) (writes : κ → Part → Bool) (own : η → List ρ → Option (List ρ × ω')) :
    Placed ρ → List (Op κ η) → Option (Placed ρ × List (Out ω ω'))
  | a, [] => some (a, [])
  | a, op :: ops =>
    match placedStep step writes own a op with
    | none => none
    | some (a, out) =>
      match placedRun step writes own a ops with
      | none => none
      | some (a, outs) => some (a, out :: outs)

/-- A container with the given rows on the host. -/
def placedStart (rows : List ρ) : Placed ρ :=
  { rows := rows, current := .host, touched := fun _ => true, views := [some (.host, fun _ => false)] }

/-! ### The calls of the container -/

/-- What a member function of an `ArrayOfArrays` does to the rows and their capacities. -/
def ownRows {T : Type} [Inhabited T] (op : AoAOp T) (L : List (List T × Nat)) : Option (List (List T × Nat) × Unit) :=
  (vvcStep L op).map fun L => (L, ())

/-- Containers of which no member functions are considered. -/
def ownNone (op : Empty) (_ : List ρ) : Option (List ρ × Unit) := nomatch op

/-! ### Which parts the calls of views change -/

/-- Calls on inner arrays. -/
def RowCall.writes {T : Type} : RowCall T → Part → Bool
  | .get _, _ => false
  | .size, _ => false
  | .set _ _, part => part = .values
  | _, part => part = .sizes || part = .values

/-- Calls on sets. -/
def SetCall.writes {T : Type} : SetCall T → Part → Bool
  | .contains _, _ => false
  | .get _, _ => false
  | .size, _ => false
  | _, part => part = .sizes || part = .values

/-- Calls on the rows of a matrix; `.values` are the columns. -/
def MatCall.writes {V : Type} : MatCall V → Part → Bool
  | .isEmpty _, _ => false
  | .size, _ => false
  | .getColumn _, _ => false
  | .getEntry _, _ => false
  | .setEntry _ _, part => part = .entries
  | .fill _, part => part = .entries
  | .addToRow _ _, part => part = .entries
  | _, part => part ≠ .offsets

end LvArray.Spec

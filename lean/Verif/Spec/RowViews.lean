import Verif.Spec.VecVec

/-!
# Specification: views of an `ArrayOfArrays`

An `ArrayOfArraysView` shares the elements with the object it was taken from.  It goes on doing so until the object replaces the
storage it keeps them in, which it does only when the storage is too small.  The object has three storages: one for the sizes of
the arrays, one for where they start and one for the elements.  The specification says how much room each of them has, and counts
how often each has been replaced.
-/

namespace LvArray

/-- Something for each of the three storages: sizes, offsets, elements. -/
structure Three (α : Type) where
  sizes : α
  offsets : α
  values : α
  deriving DecidableEq, Repr

/-- What one can ask an `ArrayOfArrays` or a view of one. -/
inductive RowQuery where
  | size
  | sizeOfArray (i : Nat)
  | capacityOfArray (i : Nat)
  | get (i j : Nat)
  deriving DecidableEq, Repr

/-- The answers. -/
inductive RowAnswer (T : Type) where
  | num (n : Nat)
  | val (t : T)
  deriving DecidableEq, Repr

/-- What can be done through a view: /repo/src/ArrayOfArraysView.hpp 417-555. -/
inductive RowEdit (T : Type) where
  | set (i j : Nat) (v : T)
  | emplaceBack (i : Nat) (v : T)
  | appendToArray (i : Nat) (vs : List T)
  | emplace (i j : Nat) (v : T)
  | insertIntoArray (i j : Nat) (vs : List T)
  | eraseFromArray (i j n : Nat)

/-- The array it concerns. -/
def RowEdit.row {T : Type} : RowEdit T → Nat
  | .set i _ _ | .emplaceBack i _ | .appendToArray i _ | .emplace i _ _ | .insertIntoArray i _ _ | .eraseFromArray i _ _ => i

/-- The member function of `ArrayOfArrays` of the same name. -/
def RowEdit.asCall {T : Type} : RowEdit T → AoAOp T
  | .set i j v => .set i j v
  | .emplaceBack i v => .emplaceBack i v
  | .appendToArray i vs => .appendToArray i vs
  | .emplace i j v => .emplace i j v
  | .insertIntoArray i j vs => .insertIntoArray i j vs
  | .eraseFromArray i j n => .eraseFromArray i j n

/-- The statements of a program with one `ArrayOfArrays` and any number of views of it. -/
inductive RowStmt (T : Type) where
  /-- a member function of the object -/
  | call (op : AoAOp T)
  /-- `view[ v ] = a.toView()` -/
  | take (v : Nat)
  /-- `view[ v ] = view[ u ]` -/
  | dup (v u : Nat)
  /-- ask the object -/
  | ask (q : RowQuery)
  /-- ask a view -/
  | askView (v : Nat) (q : RowQuery)
  /-- change something through a view -/
  | edit (v : Nat) (e : RowEdit T)

namespace Spec

variable {T : Type}

/-- A storage with room for `room` items that has to have room for `need` has to be replaced if it is too small. -/
def tooSmall (room need : Nat) : Bool := decide (room < need)

/-- How much room a member function needs in the three storages, given the arrays before (`L`) and after (`L'`). -/
def needs (op : AoAOp T) (L L' : List (List T × Nat)) : Three Nat :=
  match op with
  | .resize n _ => ⟨n, n + 1, (L'.map (·.2)).sum⟩
  | .reserve n => ⟨n, n + 1, 0⟩
  | .reserveValues n => ⟨0, 0, n⟩
  | .resizeFromCapacities _ => ⟨L'.length, L'.length + 1, (L'.map (·.2)).sum⟩
  | .appendArraySize _ | .appendArray _ | .insertArray _ _ => ⟨L.length + 1, L.length + 2, (L'.map (·.2)).sum⟩
  | _ => ⟨0, 0, (L'.map (·.2)).sum⟩

/-- How much room a storage gets when it is replaced: what is needed if the call names the size, twice that if it adds to what is
there. -/
def growth (op : AoAOp T) (need : Nat) : Nat :=
  match op with
  | .resize _ _ | .reserve _ | .reserveValues _ | .resizeFromCapacities _ => need
  | _ => 2 * need

/-- The room after a call. -/
def roomAfter (op : AoAOp T) (room need : Nat) : Nat := if tooSmall room need then growth op need else room

/-- The object, how much room its storages have, how often each was replaced, and the views: how many arrays a view takes there to
be, and how often each storage had been replaced when it was taken. -/
structure RowShelf (T : Type) where
  rows : List (List T × Nat)
  room : Three Nat
  replaced : Three Nat
  views : Nat → Option (Nat × Three Nat)

/-- `ArrayOfArrays( n, d )`, and no views. -/
def RowShelf.init (T : Type) (n d : Nat) : RowShelf T :=
  { rows := List.replicate n ([], d), room := ⟨n, n + 1, n * d⟩, replaced := ⟨0, 0, 0⟩, views := fun _ => none }

/-- The answer of something that takes there to be `n` arrays. -/
def answer (rows : List (List T × Nat)) (n : Nat) : RowQuery → Option (RowAnswer T)
  | .size => some (.num n)
  | .sizeOfArray i => if i < n then rows[i]?.map fun r => .num r.1.length else none
  | .capacityOfArray i => if i < n then rows[i]?.map fun r => .num r.2 else none
  | .get i j => if i < n then rows[i]?.bind fun r => r.1[j]?.map .val else none

/-- The storages a question concerns are the ones there were when the view was taken. -/
def inPlace (seen now : Three Nat) : RowQuery → Bool
  | .size => true
  | .sizeOfArray _ => decide (seen.sizes = now.sizes)
  | .capacityOfArray _ => decide (seen.offsets = now.offsets)
  | .get _ _ => decide (seen = now)

/-- A storage the question cannot do without is no longer the one there was when the view was taken (`checks`: with bounds
checking, access to an element looks at the sizes as well). -/
def gone (checks : Bool) (seen now : Three Nat) : RowQuery → Prop
  | .size => False
  | .sizeOfArray _ => seen.sizes ≠ now.sizes
  | .capacityOfArray _ => seen.offsets ≠ now.offsets
  | .get _ _ => seen.offsets ≠ now.offsets ∨ seen.values ≠ now.values ∨ checks = true ∧ seen.sizes ≠ now.sizes

/-- The same for a change. -/
def goneFor (checks : Bool) (seen now : Three Nat) : RowEdit T → Prop
  | .set _ _ _ => seen.offsets ≠ now.offsets ∨ seen.values ≠ now.values ∨ checks = true ∧ seen.sizes ≠ now.sizes
  | _ => seen.offsets ≠ now.offsets ∨ seen.sizes ≠ now.sizes

/-- Calls that are legal one after the other and never need more than the room there is. -/
def fitIn [Inhabited T] (room : Three Nat) : List (List T × Nat) → List (AoAOp T) → Prop
  | _, [] => True
  | L, op :: ops =>
    ∃ L', vvcStep L op = some L' ∧ (needs op L L').sizes ≤ room.sizes ∧ (needs op L L').offsets ≤ room.offsets ∧
      (needs op L L').values ≤ room.values ∧ fitIn room L' ops

/-- A change through a view does what the member function of the same name does, if the array exists and has room for it. -/
def edited [Inhabited T] (rows : List (List T × Nat)) (n : Nat) (e : RowEdit T) : Option (List (List T × Nat)) :=
  if e.row < n then
    (vvcStep rows e.asCall).bind fun rows' => if rows'.map (·.2) = rows.map (·.2) then some rows' else none
  else none

/-- All arrays are full: then there are no gaps between the elements. -/
def noGaps (L : List (List T × Nat)) : Bool := L.all fun r => decide (r.1.length = r.2)

/-- One statement; `none` if it is not legal.  `bytes`: the elements can be moved as bytes, gaps and all; otherwise the storage of
the elements can be replaced only while there are no gaps (or when the elements are given up anyway). -/
def rowsStep [Inhabited T] (bytes : Bool) (s : RowShelf T) : RowStmt T → Option (RowShelf T × Option (RowAnswer T))
  | .call op =>
    (vvcStep s.rows op).bind fun rows =>
      let n := needs op s.rows rows
      if tooSmall s.room.values (needed op rows) && !bytes && !noGaps s.rows then none
      else some
        ({ s with
            rows := rows
            room := ⟨roomAfter op s.room.sizes n.sizes, roomAfter op s.room.offsets n.offsets, roomAfter op s.room.values n.values⟩
            replaced := ⟨s.replaced.sizes + (tooSmall s.room.sizes n.sizes).toNat,
              s.replaced.offsets + (tooSmall s.room.offsets n.offsets).toNat,
              s.replaced.values + (tooSmall s.room.values n.values).toNat⟩ },
          none)
  | .take v => some ({ s with views := fun k => if k = v then some (s.rows.length, s.replaced) else s.views k }, none)
  | .dup v u => (s.views u).map fun w => ({ s with views := fun k => if k = v then some w else s.views k }, none)
  | .ask q => (answer s.rows s.rows.length q).map fun x => (s, some x)
  | .askView v q =>
    (s.views v).bind fun w => if inPlace w.2 s.replaced q then (answer s.rows w.1 q).map fun x => (s, some x) else none
  | .edit v e =>
    (s.views v).bind fun w =>
      if w.2 = s.replaced then (edited s.rows w.1 e).map fun rows => ({ s with rows := rows }, none) else none

/-- A program, and the answers it got. -/
def rowsRun [Inhabited T] (bytes : Bool) : RowShelf T → List (RowStmt T) → Option (RowShelf T × List (RowAnswer T))
  | s, [] => some (s, [])
  | s, st :: sts =>
    (rowsStep bytes s st).bind fun r => (rowsRun bytes r.1 sts).map fun q => (q.1, r.2.toList ++ q.2)

end Spec

end LvArray

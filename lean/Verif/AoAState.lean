import Verif.AoA

/-!
# View operations with the state an error leaves behind

The operations of `ArrayOfArraysView` that need capacity (/repo/src/ArrayOfArraysView.hpp 439-539) once more, as programs that
change a state statement by statement, so that the state at the time an error is reported is visible.  `Agrees` in
`Props/ArrayOfArrays.lean` states that they compute the same as the functions of `AoA.lean`.
-/

namespace LvArray

/-- A program over the state `σ` that may stop with an error and then leaves the state as it is. -/
abbrev Prog (σ α : Type) := EStateM Err σ α

/-- A computation that does not write. -/
def Prog.eval {σ α : Type} (r : R α) : Prog σ α := fun s =>
  match r with
  | .ok x => .ok x s
  | .error e => .error e s

namespace AoA

variable {T : Type}

/-- `m_values` becomes the result of `f`. -/
def putValues (f : Buf T → R (Buf T)) : Prog (AoA T) Unit := fun a =>
  match f a.values with
  | .ok b => .ok () { a with values := b }
  | .error e => .error e a

/-- `m_sizes[ i ] = n`. -/
def putSize (c : Cfg) (i n : Nat) : Prog (AoA T) Unit := fun a =>
  match a.shape.setSize c i n with
  | .ok s => .ok () { a with shape := s }
  | .error e => .error e a

/-- `emplaceBack`: /repo/src/ArrayOfArraysView.hpp 439-449. -/
def emplaceBackP (c : Cfg) (i : Nat) (v : T) : Prog (AoA T) Unit := do
  let a ← EStateM.get
  Prog.eval (a.shape.checkBounds c i)
  Prog.eval (a.shape.capacityCheck c i 1)
  let p ← Prog.eval (a.ptr i)
  let n ← Prog.eval (a.shape.sizeOfArray c i)
  putValues (arrayManipulation.emplaceBack c · p n v)
  putSize c i (n + 1)

/-- `emplace`: /repo/src/ArrayOfArraysView.hpp 503-513. -/
def emplaceP (c : Cfg) (i j : Nat) (v : T) : Prog (AoA T) Unit := do
  let a ← EStateM.get
  Prog.eval (a.shape.checkInsertBounds2 c i j)
  Prog.eval (a.shape.capacityCheck c i 1)
  let p ← Prog.eval (a.ptr i)
  let n ← Prog.eval (a.shape.sizeOfArray c i)
  putValues (arrayManipulation.emplace c · p n j v)
  putSize c i (n + 1)

/-- `insertIntoArray`: /repo/src/ArrayOfArraysView.hpp 525-539. -/
def insertIntoArrayP [Inhabited T] (c : Cfg) (i j : Nat) (vs : List T) : Prog (AoA T) Unit := do
  let a ← EStateM.get
  Prog.eval (a.shape.checkInsertBounds2 c i j)
  Prog.eval (a.shape.capacityCheck c i vs.length)
  let p ← Prog.eval (a.ptr i)
  let n ← Prog.eval (a.shape.sizeOfArray c i)
  putValues (arrayManipulation.insert c · p n j vs)
  putSize c i (n + vs.length)

/-- `appendToArray`: /repo/src/ArrayOfArraysView.hpp 482-492. -/
def appendToArrayP [Inhabited T] (c : Cfg) (i : Nat) (vs : List T) : Prog (AoA T) Unit := do
  let a ← EStateM.get
  Prog.eval (a.shape.checkBounds c i)
  let p ← Prog.eval (a.ptr i)
  let n ← Prog.eval (a.shape.sizeOfArray c i)
  putValues (arrayManipulation.append c · p n vs)
  Prog.eval (a.shape.capacityCheck c i vs.length)
  putSize c i (n + vs.length)

/-- `capacity()`: /repo/src/ArrayOfArraysView.hpp 368-373. -/
def capacity (c : Cfg) (a : AoA T) : R Nat := do
  errorIf (c.debug && !decide (a.shape.sizes.cap < a.shape.offsets.cap))
  .ok a.shape.sizes.cap

end AoA

/-- The result of running a program as in `AoA.lean`: only the final state. -/
def Prog.final {σ : Type} (p : Prog σ Unit) (s : σ) : R σ :=
  match p s with
  | .ok _ s' => .ok s'
  | .error e _ => .error e

end LvArray

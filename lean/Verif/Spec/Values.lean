import Verif.Mem

/-!
# Specification of programs over many container variables

What a program that declares, changes, copies, moves and destroys containers means when every variable is simply a value.
-/

namespace LvArray

/-- A statement of a program.  Variables are numbers; `Args` are the arguments of the constructor and `Op` the calls of the
container. -/
inductive Stmt (Args Op : Type) where
  /-- declare `x` and construct it from `args` -/
  | new (x : Nat) (args : Args)
  /-- call a member function of `x` -/
  | call (x : Nat) (op : Op)
  /-- declare `x` as a copy of `y` -/
  | copyNew (x y : Nat)
  /-- `x = y` -/
  | copy (x y : Nat)
  /-- declare `x` constructed from `std::move( y )` -/
  | moveNew (x y : Nat)
  /-- `x = std::move( y )` -/
  | moveTo (x y : Nat)
  /-- destroy `x` -/
  | del (x : Nat)
  deriving DecidableEq, Repr

namespace Spec

/-- The values of a kind of container: what the constructor makes, what a call does to the value and returns, which values
may be overwritten by assignment, whether an object may be assigned to itself, and the value left behind by a move (`none`:
the object may only be assigned to, moved or destroyed). -/
structure Values (Args Op Out : Type) where
  S : Type
  construct : Args → Option S
  call : S → Op → Option (S × Out)
  overwrite : (dst src : S) → Bool
  selfCopy : Bool
  afterMove : Option S

variable {Args Op Out : Type}

/-- What a variable holds. -/
inductive Held (S : Type) where
  | value (s : S)
  /-- moved from, and without a specified value -/
  | moved
  deriving DecidableEq, Repr

/-- The variables of a program: `none` = not declared. -/
abbrev Vars (A : Values Args Op Out) := Nat → Option (Held A.S)

/-- What a move leaves behind. -/
def Values.left (A : Values Args Op Out) : Held A.S :=
  match A.afterMove with
  | some s => .value s
  | none => .moved

/-- May this be overwritten by assigning `src`? -/
def Values.assignable (A : Values Args Op Out) : Held A.S → A.S → Bool
  | .value d, src => A.overwrite d src
  | .moved, _ => true

/-- The value of a variable. -/
def valueOf {A : Values Args Op Out} (vars : Vars A) (x : Nat) : Option A.S :=
  match vars x with
  | some (.value s) => some s
  | _ => none

/-- The effect of one statement and what it returns; `none` = not allowed. -/
def stmtStep (A : Values Args Op Out) (vars : Vars A) : Stmt Args Op → Option (Vars A × Option Out)
  | .new x args =>
    if (vars x).isSome then none
    else (A.construct args).map fun s => (upd vars x (some (.value s)), none)
  | .call x op =>
    (valueOf vars x).bind fun s => (A.call s op).map fun r => (upd vars x (some (.value r.1)), some r.2)
  | .copyNew x y =>
    if (vars x).isSome then none
    else (valueOf vars y).map fun s => (upd vars x (some (.value s)), none)
  | .copy x y =>
    if x = y then
      if A.selfCopy then (valueOf vars x).map fun _ => (vars, none) else none
    else
      (vars x).bind fun d => (valueOf vars y).bind fun s =>
        if A.assignable d s then some (upd vars x (some (.value s)), none) else none
  | .moveNew x y =>
    if (vars x).isSome then none
    else (vars y).map fun s => (upd (upd vars x (some s)) y (some A.left), none)
  | .moveTo x y =>
    if x = y then none
    else (vars x).bind fun _ => (vars y).map fun s => (upd (upd vars x (some s)) y (some A.left), none)
  | .del x => (vars x).map fun _ => (upd vars x none, none)

/-- The effect of a program and what its calls return. -/
def stmtRun (A : Values Args Op Out) : Vars A → List (Stmt Args Op) → Option (Vars A × List (Option Out))
  | vars, [] => some (vars, [])
  | vars, st :: prog =>
    (stmtStep A vars st).bind fun r => (stmtRun A r.1 prog).map fun q => (q.1, r.2 :: q.2)

end Spec

end LvArray

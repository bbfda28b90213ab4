import Verif.Spec.Values
import Verif.Spec.Python

/-!
# The values of the six kinds of containers

Instances of `Spec.Values`: a box of elements, a finite set, a list of lists, a list of sets, a sparsity pattern, a sparse
matrix.  Assigning over an object with arrays of arrays is only specified when it has no arrays or more arrays than the
source; C25 says what happens otherwise.
-/

namespace LvArray

/-- Calls on an `Array` of any number of dimensions. -/
inductive BoxOp (T : Type) where
  | resize (dims : List Int)
  | resizeDimension (pairs : List (Nat × Int))
  | resizeDefault (n : Int) (v : T)
  | clear
  | setResizeIndex (k : Int)
  | reserve (n : Nat)
  | set (idx : List Int) (v : T)
  | get (idx : List Int)
  deriving Repr

/-- Calls on an `ArrayOfArrays`, including reading an element. -/
inductive RowOp (T : Type) where
  | op (o : AoAOp T)
  | get (i j : Nat)

namespace Spec

variable {T : Type}

/-- The elements after the shape was replaced: an array that was empty is filled with the default value; otherwise it is not
specified which element ends up where. -/
def Box.reshaped [Inhabited T] (s : Box T) (dims : List Nat) : Box T :=
  { s with dims := dims, elem := fun _ => if s.dims.prod = 0 then some default else none }

/-- Calls on an `Array`; `get` of an element whose value is not specified is outside the specification. -/
def boxCall [Inhabited T] (s : Box T) : BoxOp T → Option (Box T × Option T)
  | .resize dims =>
    if dims.length = s.dims.length ∧ ∀ d ∈ dims, 0 ≤ d then some (s.reshaped (dims.map Int.toNat), none) else none
  | .resizeDimension pairs =>
    if ∀ q ∈ pairs, 0 ≤ q.2 then some (s.reshaped (pairs.foldl (fun ds q => ds.set q.1 q.2.toNat) s.dims), none) else none
  | .resizeDefault n v =>
    if 0 ≤ n then
      some ({ s with dims := s.dims.set s.resizeIndex n.toNat
                     elem := fun idx => if InBounds s.dims idx then s.elem idx else some v }, none)
    else none
  | .clear => some ({ s with dims := s.dims.set s.resizeIndex 0 }, none)
  | .setResizeIndex k =>
    if 0 ≤ k ∧ k < s.dims.length then some ({ s with resizeIndex := k.toNat }, none) else none
  | .reserve _ => some (s, none)
  | .set idx v =>
    if InBounds s.dims idx then some ({ s with elem := fun i => if i = idx then some v else s.elem i }, none) else none
  | .get idx => if InBounds s.dims idx then (s.elem idx).map fun v => (s, some v) else none

/-- `Array` with `n` dimensions.  What is left after a move has to be assigned to before it is used. -/
def boxValues (T : Type) [Inhabited T] (n : Nat) : Values Unit (BoxOp T) (Option T) where
  S := Box T
  construct := fun _ => some { dims := List.replicate n 0, resizeIndex := 0, elem := fun _ => none }
  call := boxCall
  overwrite := fun _ _ => true
  selfCopy := true
  afterMove := none

/-- `SortedArray`: after a move the set is empty. -/
def finsetValues (T : Type) [LinearOrder T] : Values Unit (SetOp T) (SetOut T) where
  S := Finset T
  construct := fun _ => some ∅
  call := setStep none
  overwrite := fun _ _ => true
  selfCopy := true
  afterMove := some ∅

/-- May a list of arrays `dst` be overwritten by `src`? -/
def roomFor {A : Type} (dst src : List A) : Bool := dst.isEmpty || decide (src.length < dst.length)

/-- Calls on an `ArrayOfArrays`; in debug builds an empty range may not be inserted (C21). -/
def rowsCall [Inhabited T] (debug : Bool) (rows : List (List T)) : RowOp T → Option (List (List T) × Option T)
  | .op (.insertIntoArray i j vs) =>
    if debug ∧ vs.isEmpty then none else (vvStep rows (.insertIntoArray i j vs)).map fun r => (r, none)
  | .op o => (vvStep rows o).map fun r => (r, none)
  | .get i j => do
    let r ← rows[i]?
    let v ← r[j]?
    some (rows, some v)

/-- `ArrayOfArrays`: constructed from a number of arrays and their capacity. -/
def rowsValues (T : Type) [Inhabited T] (debug : Bool) : Values (Nat × Nat) (RowOp T) (Option T) where
  S := List (List T)
  construct := fun args => some (List.replicate args.1 [])
  call := rowsCall debug
  overwrite := roomFor
  selfCopy := true
  afterMove := none

/-- `ArrayOfSets`. -/
def setsValues (T : Type) [LinearOrder T] : Values (Nat × Nat) (AoSOp T) (AoSOut T) where
  S := List (Finset T)
  construct := fun args => some (List.replicate args.1 ∅)
  call := aosStep
  overwrite := roomFor
  selfCopy := true
  afterMove := none

/-- `SparsityPattern`: constructed from the numbers of rows and columns and the capacity of the rows. -/
def patternValues (colMax : Nat) : Values (Nat × Nat × Nat) SpOp (AoSOut Nat) where
  S := Pattern
  construct := fun args =>
    if args.2.1 ≤ colMax + 1 then some { numCols := args.2.1, rows := List.replicate args.1 ∅ } else none
  call := spStep colMax
  overwrite := fun d s => roomFor d.rows s.rows
  selfCopy := true
  afterMove := none

/-- `CRSMatrix`: constructed from the numbers of rows and columns and the capacity of the rows. -/
def matrixValues (V : Type) [Add V] (colMax : Nat) : Values (Nat × Nat × Nat) (CrsOp V) (AoSOut (Nat ⊕ V)) where
  S := Matrix V
  construct := fun args =>
    if args.2.1 ≤ colMax + 1 then some { numCols := args.2.1, rows := List.replicate args.1 (fun _ => none) } else none
  call := crsStep colMax
  overwrite := fun d s => roomFor d.rows s.rows
  selfCopy := true
  afterMove := none

end Spec

end LvArray

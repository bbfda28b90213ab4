import Verif.PyBind
import Verif.Spec.Index
import Verif.Spec.VecVec
import Verif.Spec.Sparse

/-!
# Specification: what a Python program sees

A wrapped container is a mathematical value (`S`): a box of elements, a finite set, a list of lists, a list of sets, a sparse
matrix.  A NumPy array obtained from it shows a part (`P`) of the value and keeps showing it: assignments through the array change
the value, and changes of the value show in the array.  A method that resizes the container invalidates the arrays; using one
afterwards is outside the contract, like every other call for which the specification says `none`.
-/

namespace LvArray.Spec

open Python

variable {T : Type}

/-- Outcomes of a method. -/
inductive PyOut (S P O : Type) where
  /-- An exception; nothing changes. -/
  | raises (e : Exn)
  /-- A value; nothing changes. -/
  | returns (o : O)
  /-- The container changes; arrays obtained before stay valid only if `keep`. -/
  | changes (keep : Bool) (s : S) (o : O)
  /-- An array that shows a part of the container. -/
  | array (part : P) (dims : List Nat) (writeable : Bool)

/-- What a class does. -/
structure PyClass (K : Class T) where
  S : Type
  P : Type
  takesSpace : Bool
  call : Int → S → K.M → Option (PyOut S P K.O)
  /-- The element at an index: `none` if the index is out of range, `some none` if its value is not specified. -/
  get : S → P → List Int → Option (Option T)
  set : S → P → List Int → T → S

/-- A container as Python sees it.  `none` is an array that has been invalidated. -/
structure PyObj {K : Class T} (A : PyClass K) where
  state : A.S
  level : Int
  arrays : List (Option (A.P × Bool))

variable {K : Class T} {A : PyClass K}

/-- Effect of a method. -/
def PyObj.call (o : PyObj A) : PyOut A.S A.P K.O → PyObj A × Except Exn (Res K)
  | .raises e => (o, .error e)
  | .returns x => (o, .ok (.val x))
  | .changes keep s x => ({ o with state := s, arrays := if keep then o.arrays else o.arrays.map fun _ => none }, .ok (.val x))
  | .array part dims writeable =>
    ({ o with arrays := o.arrays ++ [some (part, writeable)] }, .ok (.view dims writeable))

/-- One step of a Python program; `none` is outside the contract. -/
def PyObj.step (o : PyObj A) : Op K → Option (PyObj A × Except Exn (Res K))
  | .call m => (A.call o.level o.state m).map o.call
  | .getAccessLevel => some (o, .ok (.level o.level))
  | .setAccessLevel level none => some ({ o with level := level }, .ok .unit)
  | .setAccessLevel level (some space) =>
    some (if !A.takesSpace then (o, .error .typeError)
      else if space ≠ 0 then (o, .error .valueError)
      else ({ o with level := level }, .ok .unit))
  | .read k idx =>
    match o.arrays[k]? with
    | none => some (o, .error .indexError)
    | some none => none
    | some (some (part, _)) =>
      match A.get o.state part idx with
      | none => some (o, .error .indexError)
      | some none => none
      | some (some x) => some (o, .ok (.elem x))
  | .write k idx x =>
    match o.arrays[k]? with
    | none => some (o, .error .indexError)
    | some none => none
    | some (some (part, writeable)) =>
      if !writeable then some (o, .error .valueError)
      else
        match A.get o.state part idx with
        | none => some (o, .error .indexError)
        | some _ => some ({ o with state := A.set o.state part idx x }, .ok .unit)

/-- A Python program and everything it sees. -/
def PyObj.run : PyObj A → List (Op K) → Option (PyObj A × List (Except Exn (Res K)))
  | o, [] => some (o, [])
  | o, op :: ops => (o.step op).bind fun r => (PyObj.run r.1 ops).map fun r' => (r'.1, r.2 :: r'.2)

/-- The container as `create` hands it to Python: read-only, no arrays yet. -/
def pyCreate (A : PyClass K) (s : A.S) : PyObj A := { state := s, level := 0, arrays := [] }

/-- A method that needs `RESIZEABLE`. -/
def resizing {S P O : Type} (level : Int) (r : Option (PyOut S P O)) : Option (PyOut S P O) :=
  if level < 2 then some (.raises .runtimeError) else r

/-- The `j`-th value. -/
def nth {A : Type} (xs : List A) : List Int → Option (Option A)
  | [j] => if j < 0 then none else xs[j.toNat]?.map some
  | _ => none

/-! ## `Array` -/

/-- Shape, the dimension `resize` changes, and the elements; `none` is an element whose value is not specified. -/
structure Box (T : Type) where
  dims : List Nat
  resizeIndex : Nat
  elem : List Int → Option T

instance (dims : List Nat) (idx : List Int) : Decidable (InBounds dims idx) := by
  induction dims generalizing idx with
  | nil => cases idx <;> unfold InBounds <;> infer_instance
  | cons d ds ih => cases idx <;> unfold InBounds <;> infer_instance

/-- `pylvarray.Array`.  `resize` keeps the elements whose index stays, new ones are zero; `resize_all` leaves the values
unspecified, and negative lengths are not allowed. -/
def pyArrayCall [Inhabited T] (level : Int) (s : Box T) : ArrayM → Option (PyOut (Box T) Unit (Option Nat))
  | .getResizeIndex => some (.returns (some s.resizeIndex))
  | .setResizeIndex dim => resizing level <|
      if dim < 0 ∨ s.dims.length ≤ dim then some (.raises .valueError)
      else some (.changes true { s with resizeIndex := dim.toNat } none)
  | .resize n => resizing level <|
      if n < 0 then some (.raises .valueError)
      else some (.changes false { s with
        dims := s.dims.set s.resizeIndex n.toNat
        elem := fun idx => if InBounds s.dims idx then s.elem idx else some default } none)
  | .resizeAll none => resizing level <| some (.raises .conversion)
  | .resizeAll (some dims) => resizing level <|
      if dims.length ≠ s.dims.length then some (.raises .runtimeError)
      else if ∃ d ∈ dims, d < 0 then none
      else some (.changes false { s with dims := dims.map Int.toNat, elem := fun _ => none } none)
  | .toNumPy => some (.array () s.dims (decide (1 ≤ level)))

/-- `pylvarray.Array`. -/
def pyArray (T : Type) [Inhabited T] : PyClass (Python.array T) where
  S := Box T
  P := Unit
  takesSpace := true
  call := pyArrayCall
  get := fun s _ idx => if InBounds s.dims idx then some (s.elem idx) else none
  set := fun s _ idx x => { s with elem := fun i => if i = idx then some x else s.elem i }

/-! ## `SortedArray` -/

section
variable [LinearOrder T] [Inhabited T]

/-- `pylvarray.SortedArray`: values have to be strictly increasing. -/
def pySortedCall (level : Int) (S : Finset T) : SortedArrayM T → Option (PyOut (Finset T) Unit Nat)
  | .insert none => resizing level <| some (.raises .conversion)
  | .insert (some vs) => resizing level <|
      if sortedUnique vs then some (.changes false (S ∪ vs.toFinset) (vs.toFinset \ S).card) else none
  | .remove none => resizing level <| some (.raises .conversion)
  | .remove (some vs) => resizing level <|
      if sortedUnique vs then some (.changes false (S \ vs.toFinset) (S ∩ vs.toFinset).card) else none
  | .toNumPy => some (.array () [S.card] false)

/-- `pylvarray.SortedArray`: an array shows the values in increasing order. -/
def pySorted (T : Type) [LinearOrder T] [Inhabited T] : PyClass (Python.sortedArray T) where
  S := Finset T
  P := Unit
  takesSpace := true
  call := pySortedCall
  get := fun S _ idx => nth (S.sort (· ≤ ·)) idx
  set := fun S _ _ _ => S

/-! ## `ArrayOfSets` -/

/-- `i` is the index of one of `n` things. -/
def isIndex (i : Int) (n : Nat) : Prop := 0 ≤ i ∧ i < n

instance (i : Int) (n : Nat) : Decidable (isIndex i n) := inferInstanceAs (Decidable (_ ∧ _))

/-- `pylvarray.ArrayOfSets`. -/
def pySetsCall (level : Int) (sets : List (Finset T)) : ArrayOfSetsM T → Option (PyOut (List (Finset T)) Nat (Option Nat))
  | .len => some (.returns (some sets.length))
  | .getItem i =>
      if isIndex i sets.length then some (.array i.toNat [(sets.getD i.toNat ∅).card] false) else some (.raises .indexError)
  | .delItem i => resizing level <|
      if isIndex i sets.length then some (.changes false (sets.eraseIdx i.toNat) none) else some (.raises .indexError)
  | .setItem _ => resizing level <| some (.raises .typeError)
  | .insertInto i vs => resizing level <|
      if isIndex i sets.length then
        match vs with
        | none => some (.raises .conversion)
        | some vs =>
          let S := sets.getD i.toNat ∅
          if sortedUnique vs then some (.changes false (sets.set i.toNat (S ∪ vs.toFinset)) (some (vs.toFinset \ S).card))
          else none
      else some (.raises .indexError)
  | .insert i capacity => resizing level <|
      if isIndex i (sets.length + 1) then
        if capacity < 0 then some (.raises .valueError)
        else some (.changes false (sets.take i.toNat ++ ∅ :: sets.drop i.toNat) none)
      else some (.raises .indexError)
  | .eraseFrom i vs => resizing level <|
      if isIndex i sets.length then
        match vs with
        -- not `conversion`: see `arrayOfSetsCall`
        | none => some (.raises .systemError)
        | some vs =>
          let S := sets.getD i.toNat ∅
          if sortedUnique vs then some (.changes false (sets.set i.toNat (S \ vs.toFinset)) (some (S ∩ vs.toFinset).card))
          else none
      else some (.raises .indexError)

/-- `pylvarray.ArrayOfSets`: an array shows the values of one set in increasing order. -/
def pySets (T : Type) [LinearOrder T] [Inhabited T] : PyClass (Python.arrayOfSets T) where
  S := List (Finset T)
  P := Nat
  takesSpace := false
  call := pySetsCall
  get := fun sets i idx => nth ((sets.getD i ∅).sort (· ≤ ·)) idx
  set := fun sets _ _ _ => sets

end

/-! ## `ArrayOfArrays` -/

/-- `pylvarray.ArrayOfArrays`.  In debug builds nothing may not be inserted into an array (C21). -/
def pyRowsCall (debug : Bool) (level : Int) (rows : List (List T)) :
    ArrayOfArraysM T → Option (PyOut (List (List T)) Nat (Option Nat))
  | .len => some (.returns (some rows.length))
  | .getItem i =>
      if isIndex i rows.length then some (.array i.toNat [(rows.getD i.toNat []).length] (decide (1 ≤ level)))
      else some (.raises .indexError)
  | .delItem i => resizing level <|
      if isIndex i rows.length then some (.changes false (rows.eraseIdx i.toNat) none) else some (.raises .indexError)
  | .setItem _ => resizing level <| some (.raises .typeError)
  | .insertInto i j vs => resizing level <|
      let r := rows.getD i.toNat []
      if isIndex i rows.length ∧ isIndex j (r.length + 1) then
        match vs with
        | none => some (.raises .conversion)
        | some vs =>
          if debug ∧ vs = [] then none
          else some (.changes false (rows.set i.toNat (r.take j.toNat ++ vs ++ r.drop j.toNat)) none)
      else some (.raises .indexError)
  | .insert i vs => resizing level <|
      if isIndex i (rows.length + 1) then
        match vs with
        | none => some (.raises .conversion)
        | some vs => some (.changes false (rows.take i.toNat ++ vs :: rows.drop i.toNat) none)
      else some (.raises .indexError)
  | .eraseFrom i j => resizing level <|
      let r := rows.getD i.toNat []
      if isIndex i rows.length ∧ isIndex j r.length then some (.changes false (rows.set i.toNat (r.eraseIdx j.toNat)) none)
      else some (.raises .indexError)

/-- `pylvarray.ArrayOfArrays`: an array shows one inner array. -/
def pyRows (T : Type) [Inhabited T] (debug : Bool) : PyClass (Python.arrayOfArrays T) where
  S := List (List T)
  P := Nat
  takesSpace := false
  call := pyRowsCall debug
  get := fun rows i idx => nth (rows.getD i []) idx
  set := fun rows i idx x => rows.set i ((rows.getD i []).set (idx.headD 0).toNat x)

/-! ## `CRSMatrix` -/

/-- `pylvarray.CRSMatrix`.  Columns have to be strictly increasing (not for `add_to_row`) and in range, there have to be as many
columns as values, and entries that are added to have to exist.  The arrays of `get_entries` can be assigned to at every level but
`READ_ONLY` (see C52 for negative levels). -/
def pyMatrixCall {V : Type} [Add V] (colMax : Nat) (level : Int) (M : Matrix V) :
    CrsM V → Option (PyOut (Matrix V) Nat CrsRes)
  | .numRows => some (.returns (.num M.rows.length))
  | .numColumns => some (.returns (.num M.numCols))
  | .getColumns i =>
      if isIndex i M.rows.length then some (.returns (.columns (columnsOf M.numCols (M.rows.getD i.toNat fun _ => none))))
      else some (.raises .runtimeError)
  | .getEntries i =>
      if isIndex i M.rows.length then
        some (.array i.toNat [(columnsOf M.numCols (M.rows.getD i.toNat fun _ => none)).length] (decide (level ≠ 0)))
      else some (.raises .runtimeError)
  | .resize r n k => resizing level <|
      if r < 0 ∨ n < 0 ∨ k < 0 then some (.raises .runtimeError)
      else if n ≤ (colMax : Int) + 1 ∧ ∀ f ∈ M.rows.take r.toNat, ∀ k ∈ columnsOf M.numCols f, (k : Int) < n then
        some (.changes false { numCols := n.toNat
                               rows := M.rows.take r.toNat ++ List.replicate (r.toNat - M.rows.length) fun _ => none } .none)
      else none
  | .compress => resizing level <| some (.changes false M .none)
  | .insertNonZeros i (some ks) (some es) => resizing level <|
      if ks.length ≠ es.length ∨ ¬ isIndex i M.rows.length then some (.raises .runtimeError)
      else if sortedUnique ks ∧ ∀ k ∈ ks, k < M.numCols then
        let f := M.rows.getD i.toNat fun _ => none
        some (.changes false { M with rows := M.rows.set i.toNat fun k => (f k).or ((ks.zip es).lookup k) }
          (.num (ks.countP fun k => (f k).isNone)))
      else none
  | .insertNonZeros _ _ _ => resizing level <| some (.raises .conversion)
  | .removeNonZeros i (some ks) => resizing level <|
      if ¬ isIndex i M.rows.length then some (.raises .runtimeError)
      else if sortedUnique ks then
        let f := M.rows.getD i.toNat fun _ => none
        some (.changes false { M with rows := M.rows.set i.toNat fun k => if k ∈ ks then none else f k }
          (.num (ks.countP fun k => (f k).isSome)))
      else none
  | .removeNonZeros _ none => resizing level <| some (.raises .conversion)
  | .addToRow i (some ks) (some vs) => resizing level <|
      if ¬ isIndex i M.rows.length then some (.raises .runtimeError)
      else
        let f := M.rows.getD i.toNat fun _ => none
        if ks.length = vs.length ∧ ∀ k ∈ ks, (f k).isSome then
          some (.changes true { M with rows := M.rows.set i.toNat ((ks.zip vs).foldl addEntry f) } .none)
        else none
  | .addToRow _ _ _ => resizing level <| some (.raises .conversion)

/-- `pylvarray.CRSMatrix`: an array shows the entries of one row in the order of the columns. -/
def pyMatrix (V : Type) [Add V] (colMax : Nat) : PyClass (Python.crsMatrix V colMax) where
  S := Matrix V
  P := Nat
  takesSpace := true
  call := pyMatrixCall colMax
  get := fun M i idx =>
    let f := M.rows.getD i fun _ => none
    nth ((columnsOf M.numCols f).filterMap f) idx
  set := fun M i idx x =>
    let f := M.rows.getD i fun _ => none
    let col := (columnsOf M.numCols f)[(idx.headD 0).toNat]?
    { M with rows := M.rows.set i fun k => if some k = col then some x else f k }

/-- The arrays of a `csr_matrix`: `data` are the entries row by row in the order of the columns, `indices` their columns, and row `i`
is the range from `indptr[ i ]` to `indptr[ i + 1 ]`. -/
def IsCsr {V : Type} (M : Matrix V) (data : List V) (indices indptr : List Nat) : Prop :=
  data = M.rows.flatMap (fun f => (columnsOf M.numCols f).filterMap f) ∧
  indices = M.rows.flatMap (columnsOf M.numCols) ∧
  indptr.length = M.rows.length + 1 ∧
  ∀ i, i ≤ M.rows.length → indptr[i]? = some ((M.rows.take i).map fun f => (columnsOf M.numCols f).length).sum

end LvArray.Spec

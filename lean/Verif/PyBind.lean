import Verif.ArrayND
import Verif.SortedArray
import Verif.AoS
import Verif.Sparse

/-!
# The Python bindings

/repo/src/python: the classes `pylvarray.Array`, `SortedArray`, `ArrayOfArrays`, `ArrayOfSets` and `CRSMatrix`.  Each is a Python
object that holds a pointer to a wrapper, the wrapper holds a reference to the C++ object and an access level.  A call from Python
either returns a value or raises an exception; both are ordinary outcomes here, `R` is left for what ends the process (`abort`)
and for undefined behaviour.

Simplifications.  Arguments arrive parsed: integers are integers and fit `INDEX_TYPE` (`integerConversion` is the subject of
`Verif/IntConv.lean`), an argument for `parseNumPyArray` (/repo/src/python/numpyHelpers.cpp 232-273) is `none` when the conversion
fails and `some values` otherwise; that NumPy may hand out the caller's own storage, so that an argument can be a view of the
object itself, is not modelled.  Memory spaces other than the host are rejected by the bindings.
-/

namespace LvArray.Python

/-- Exceptions.  `conversion` is whatever `parseNumPyArray` raised. -/
inductive Exn where
  | runtimeError
  | indexError
  | valueError
  | typeError
  | conversion
  | systemError
  deriving DecidableEq, Repr

/-- `PyModify::MODIFIABLE`: /repo/src/python/pythonHelpers.hpp, `enum class PyModify`; `READ_ONLY` is 0. -/
def MODIFIABLE : Int := 1

/-- `PyModify::RESIZEABLE`. -/
def RESIZEABLE : Int := 2

/-- What `createNumPyArray` is called with, /repo/src/python/numpyHelpers.hpp 105-137: the position of the data in the buffer of
the object, the lengths and strides of the dimensions, and whether elements may be assigned. -/
structure Window where
  start : Nat
  dims : List Nat
  strides : List Nat
  writeable : Bool
  deriving DecidableEq, Repr

/-- What a method returns: an ordinary Python value or a NumPy array. -/
inductive Ret (O : Type) where
  | val (o : O)
  | view (w : Window)
  deriving DecidableEq, Repr

/-- A wrapper class with the methods of its Python type. -/
structure Class (T : Type) where
  /-- The C++ object. -/
  W : Type
  /-- Methods with their arguments. -/
  M : Type
  /-- Returned values. -/
  O : Type
  /-- The method starts with `VERIFY_INITIALIZED`. -/
  verifies : M → Bool
  /-- `set_access_level` accepts a memory space. -/
  takesSpace : Bool
  /-- A call at an access level. -/
  call : Cfg → Int → W → M → R (Except Exn (W × Ret O))
  /-- The buffer the NumPy arrays refer to. -/
  data : W → Buf T
  /-- The object with other contents of that buffer. -/
  withData : W → Buf T → W

variable {T : Type}

/-- A NumPy array obtained from an object, with the number of times the storage may have been reallocated before. -/
structure View where
  window : Window
  epoch : Nat
  deriving DecidableEq, Repr

/-- A Python object: the pointer to the wrapper, null if the object was made by calling the type (`tp_new` is
`PyType_GenericNew`), the access level of the wrapper, the number of times the storage may have been reallocated, and the NumPy
arrays handed out so far. -/
structure Obj (K : Class T) where
  wrapped : Option K.W
  level : Int
  epoch : Nat
  views : List View

/-- `create( object )`: the access level is `READ_ONLY`, for instance /repo/src/python/PyArray.hpp 151-162, 279-283. -/
def create (K : Class T) (w : K.W) : Obj K := { wrapped := some w, level := 0, epoch := 0, views := [] }

/-- `pylvarray.ArrayOfArrays()` and the like: a null wrapper. -/
def generic (K : Class T) : Obj K := { wrapped := none, level := 0, epoch := 0, views := [] }

/-- What Python code can do with an object and the NumPy arrays obtained from it. -/
inductive Op (K : Class T) where
  | call (m : K.M)
  | getAccessLevel
  | setAccessLevel (level : Int) (space : Option Int)
  /-- `views[ k ][ idx ]` -/
  | read (k : Nat) (idx : List Int)
  /-- `views[ k ][ idx ] = x` -/
  | write (k : Nat) (idx : List Int) (x : T)

/-- What it gets back. -/
inductive Res (K : Class T) where
  | val (o : K.O)
  | view (dims : List Nat) (writeable : Bool)
  | level (l : Int)
  | elem (x : T)
  | unit

/-- `idx` lies in the dimensions.  (NumPy also accepts negative indices, which count from the end; they are not modelled.) -/
def inside : List Nat → List Int → Bool
  | [], [] => true
  | d :: ds, i :: is => decide (0 ≤ i) && decide (i < d) && inside ds is
  | _, _ => false

/-- The element of the buffer that `idx` denotes. -/
def offset : List Nat → List Int → Nat
  | s :: ss, i :: is => i.toNat * s + offset ss is
  | _, _ => 0

/-- Whether elements may have changed their place between two states.  A new allocation changes the capacity.  The second
disjunct is a simplification on the safe side: `compress` and `insert` move elements inside the same allocation, and an
array that refers to it is treated as no longer usable although its memory still exists. -/
def mayMove (b b' : Buf T) : Bool := decide (b.cap ≠ b'.cap) || decide (b.moves ≠ b'.moves)

/-- The state after a method. -/
def Obj.update {K : Class T} (o : Obj K) (w w' : K.W) : Obj K :=
  { o with wrapped := some w', epoch := if mayMove (K.data w) (K.data w') then o.epoch + 1 else o.epoch }

/-- The result of a method call is handed to Python. -/
def Obj.deliver {K : Class T} (o : Obj K) : Ret K.O → Obj K × Except Exn (Res K)
  | .val x => (o, .ok (.val x))
  | .view w => ({ o with views := o.views ++ [{ window := w, epoch := o.epoch }] }, .ok (.view w.dims w.writeable))

/-- The position of an element of a NumPy array; a stale one points to freed storage. -/
def Obj.locate {K : Class T} (o : Obj K) (v : View) (idx : List Int) : R Nat :=
  if v.epoch = o.epoch then .ok (v.window.start + offset v.window.strides idx) else .error (.ub .dangling)

/-- A method. -/
def Obj.method {K : Class T} (c : Cfg) (o : Obj K) (m : K.M) : R (Obj K × Except Exn (Res K)) :=
  match o.wrapped with
  | none =>
    -- without `VERIFY_INITIALIZED` the null pointer is used
    if K.verifies m then .ok (o, .error .runtimeError) else .error (.ub .dangling)
  | some w => do
    match ← K.call c o.level w m with
    | .error e => .ok (o, .error e)
    | .ok (w', r) => .ok ((o.update w w').deliver r)

/-- `get_access_level`, for instance /repo/src/python/PyArray.cpp 206-214. -/
def Obj.getAccessLevel {K : Class T} (o : Obj K) : Obj K × Except Exn (Res K) :=
  match o.wrapped with
  | none => (o, .error .runtimeError)
  | some _ => (o, .ok (.level o.level))

/-- `set_access_level`, for instance /repo/src/python/PyArray.cpp 221-239 and /repo/src/python/PyArray.hpp 199-207.  Any integer is
accepted as a level; `MemorySpace::host` is 0. -/
def Obj.setAccessLevel {K : Class T} (o : Obj K) (level : Int) (space : Option Int) : Obj K × Except Exn (Res K) :=
  match o.wrapped, space with
  | none, _ => (o, .error .runtimeError)
  | some _, none => ({ o with level := level }, .ok .unit)
  | some _, some s =>
    if !K.takesSpace then (o, .error .typeError)
    else if s ≠ 0 then (o, .error .valueError)
    else ({ o with level := level }, .ok .unit)

/-- `views[ k ][ idx ]` -/
def Obj.read {K : Class T} (o : Obj K) (k : Nat) (idx : List Int) : R (Obj K × Except Exn (Res K)) :=
  match o.wrapped, o.views[k]? with
  | some w, some v =>
    if inside v.window.dims idx then do
      let p ← o.locate v idx
      let x ← (K.data w).read p
      .ok (o, .ok (.elem x))
    else .ok (o, .error .indexError)
  | _, _ => .ok (o, .error .indexError)

/-- `views[ k ][ idx ] = x`; NumPy refuses to assign to an array without `NPY_ARRAY_WRITEABLE`,
/repo/src/python/numpyHelpers.cpp 143-151. -/
def Obj.write {K : Class T} (c : Cfg) (o : Obj K) (k : Nat) (idx : List Int) (x : T) : R (Obj K × Except Exn (Res K)) :=
  match o.wrapped, o.views[k]? with
  | some w, some v =>
    if !v.window.writeable then .ok (o, .error .valueError)
    else if inside v.window.dims idx then do
      let p ← o.locate v idx
      let b ← (K.data w).write c p x
      .ok ({ o with wrapped := some (K.withData w b) }, .ok .unit)
    else .ok (o, .error .indexError)
  | _, _ => .ok (o, .error .indexError)

/-- One step of a Python program. -/
def Obj.step {K : Class T} (c : Cfg) (o : Obj K) : Op K → R (Obj K × Except Exn (Res K))
  | .call m => o.method c m
  | .getAccessLevel => .ok o.getAccessLevel
  | .setAccessLevel l s => .ok (o.setAccessLevel l s)
  | .read k idx => o.read k idx
  | .write k idx x => o.write c k idx x

/-- A Python program; an exception is caught and the program goes on. -/
def Obj.run {K : Class T} (c : Cfg) : Obj K → List (Op K) → R (Obj K × List (Except Exn (Res K)))
  | o, [] => .ok (o, [])
  | o, op :: ops => do
    let r ← o.step c op
    let r' ← Obj.run c r.1 ops
    .ok (r'.1, r.2 :: r'.2)

/-- A method that does not return a view. -/
def done {W O : Type} (w : W) (o : O) : R (Except Exn (W × Ret O)) := .ok (.ok (w, .val o))

/-- A method that raises. -/
def raised {A : Type} (e : Exn) : R (Except Exn A) := .ok (.error e)

/-! ## `pylvarray.Array` -/

/-- Methods of `pylvarray.Array`. -/
inductive ArrayM where
  | getResizeIndex
  | setResizeIndex (dim : Int)
  | resize (newSize : Int)
  | resizeAll (dims : Option (List Int))
  | toNumPy

/-- /repo/src/python/PyArray.cpp 97-200 with /repo/src/python/PyArray.hpp 172-236. -/
def arrayCall [Inhabited T] (c : Cfg) (level : Int) (a : ArrayN T) : ArrayM → R (Except Exn (ArrayN T × Ret (Option Nat)))
  | .getResizeIndex => done a (some a.resizeIndex)
  | .setResizeIndex dim =>
    if level < RESIZEABLE then raised .runtimeError
    else if dim < 0 ∨ dim ≥ a.dims.length then raised .valueError
    else do
      let a ← a.setSingleParameterResizeIndex dim
      done a none
  | .resize newSize =>
    if level < RESIZEABLE then raised .runtimeError
    else if newSize < 0 then raised .valueError
    else do
      let a ← a.resizeDefaultDimension c newSize default
      done a none
  | .resizeAll dims =>
    if level < RESIZEABLE then raised .runtimeError
    else
      match dims with
      | none => raised .conversion
      | some dims =>
        if dims.length ≠ a.dims.length then raised .runtimeError
        else do
          let a ← a.resize c dims default
          done a none
  | .toNumPy =>
    .ok (.ok (a, .view { start := 0, dims := a.dims, strides := a.strides, writeable := decide (level ≥ MODIFIABLE) }))

/-- /repo/src/python/PyArray.cpp, /repo/src/python/PyArray.hpp. -/
def array (T : Type) [Inhabited T] : Class T where
  W := ArrayN T
  M := ArrayM
  O := Option Nat
  verifies := fun _ => true
  takesSpace := true
  call := arrayCall
  data := fun a => a.buf
  withData := fun a b => { a with buf := b }

/-! ## `pylvarray.SortedArray` -/

/-- Methods of `pylvarray.SortedArray`. -/
inductive SortedArrayM (T : Type) where
  | insert (values : Option (List T))
  | remove (values : Option (List T))
  | toNumPy

/-- /repo/src/python/PySortedArray.cpp, `PySortedArray_insert`, `PySortedArray_remove`, `PySortedArray_toNumPy`, with
/repo/src/python/PySortedArray.hpp 169-188. -/
def sortedArrayCall [LT T] [DecidableLT T] [DecidableEq T] [Inhabited T] (c : Cfg) (level : Int) (a : SortedArr T) :
    SortedArrayM T → R (Except Exn (SortedArr T × Ret Nat))
  | .insert values =>
    if level < RESIZEABLE then raised .runtimeError
    else
      match values with
      | none => raised .conversion
      | some vs => do
        let r ← a.insertMany c vs
        done r.1 r.2
  | .remove values =>
    if level < RESIZEABLE then raised .runtimeError
    else
      match values with
      | none => raised .conversion
      | some vs => do
        let r ← a.removeMany c vs
        done r.1 r.2
  | .toNumPy => .ok (.ok (a, .view { start := 0, dims := [a.size], strides := [1], writeable := false }))

/-- /repo/src/python/PySortedArray.cpp, /repo/src/python/PySortedArray.hpp. -/
def sortedArray (T : Type) [LT T] [DecidableLT T] [DecidableEq T] [Inhabited T] : Class T where
  W := SortedArr T
  M := SortedArrayM T
  O := Nat
  verifies := fun _ => true
  takesSpace := true
  call := sortedArrayCall
  data := fun a => a.buf
  withData := fun a b => { a with buf := b }

/-! ## `pylvarray.ArrayOfArrays` -/

/-- Methods of `pylvarray.ArrayOfArrays`. -/
inductive ArrayOfArraysM (T : Type) where
  | len
  | getItem (index : Int)
  | delItem (index : Int)
  | setItem (index : Int)
  | insertInto (array index : Int) (values : Option (List T))
  | insert (index : Int) (values : Option (List T))
  | eraseFrom (index begin_ : Int)

/-- /repo/src/python/PyArrayOfArrays.cpp 85-229 with /repo/src/python/PyArrayOfArrays.hpp 199-259. -/
def arrayOfArraysCall [Inhabited T] (c : Cfg) (level : Int) (a : AoA T) :
    ArrayOfArraysM T → R (Except Exn (AoA T × Ret (Option Nat)))
  | .len => done a (some a.shape.numArrays)
  | .getItem index =>
    if index < 0 ∨ index ≥ a.shape.numArrays then raised .indexError
    else do
      let n ← a.shape.sizeOfArray c index.toNat
      let p ← a.ptr index.toNat
      .ok (.ok (a, .view { start := p, dims := [n], strides := [1], writeable := decide (level ≥ MODIFIABLE) }))
  | .delItem index =>
    if level < RESIZEABLE then raised .runtimeError
    else if index < 0 ∨ index ≥ a.shape.numArrays then raised .indexError
    else do
      let a ← a.eraseArray c index.toNat
      done a none
  | .setItem _ => if level < RESIZEABLE then raised .runtimeError else raised .typeError
  | .insertInto array index values =>
    if level < RESIZEABLE then raised .runtimeError
    else if array < 0 ∨ array ≥ a.shape.numArrays ∨ index < 0 then raised .indexError
    else do
      let n ← a.shape.sizeOfArray c array.toNat
      if index > n then raised .indexError
      else
        match values with
        | none => raised .conversion
        | some vs => do
          let a ← a.insertIntoArray c array.toNat index.toNat vs
          done a none
  | .insert index values =>
    if level < RESIZEABLE then raised .runtimeError
    else if index < 0 ∨ index > a.shape.numArrays then raised .indexError
    else
      match values with
      | none => raised .conversion
      | some vs => do
        let a ← a.insertArray c index.toNat vs
        done a none
  | .eraseFrom index begin_ =>
    if level < RESIZEABLE then raised .runtimeError
    else if index < 0 ∨ index ≥ a.shape.numArrays ∨ begin_ < 0 then raised .indexError
    else do
      let n ← a.shape.sizeOfArray c index.toNat
      if begin_ ≥ n then raised .indexError
      else do
        -- the default for the number of values is one, /repo/src/ArrayOfArraysView.hpp 548
        let a ← a.eraseFromArray c index.toNat begin_.toNat 1
        done a none

/-- /repo/src/python/PyArrayOfArrays.cpp, /repo/src/python/PyArrayOfArrays.hpp; `VERIFY_INITIALIZED` is missing from the methods
that resize. -/
def arrayOfArrays (T : Type) [Inhabited T] : Class T where
  W := AoA T
  M := ArrayOfArraysM T
  O := Option Nat
  verifies := fun
    | .len | .getItem _ => true
    | _ => false
  takesSpace := false
  call := arrayOfArraysCall
  data := fun a => a.values
  withData := fun a b => { a with values := b }

/-! ## `pylvarray.ArrayOfSets` -/

/-- Methods of `pylvarray.ArrayOfSets`. -/
inductive ArrayOfSetsM (T : Type) where
  | len
  | getItem (index : Int)
  | delItem (index : Int)
  | setItem (index : Int)
  | insertInto (set : Int) (values : Option (List T))
  | insert (index capacity : Int)
  | eraseFrom (set : Int) (values : Option (List T))

/-- /repo/src/python/PyArrayOfSets.cpp 85-242 with /repo/src/python/PyArrayOfSets.hpp 189-242. -/
def arrayOfSetsCall [LT T] [DecidableLT T] [DecidableEq T] [Inhabited T] (c : Cfg) (level : Int) (a : AoA T) :
    ArrayOfSetsM T → R (Except Exn (AoA T × Ret (Option Nat)))
  | .len => done a (some a.shape.numArrays)
  | .getItem index =>
    if index < 0 ∨ index ≥ a.shape.numArrays then raised .indexError
    else do
      let n ← a.shape.sizeOfArray c index.toNat
      let p ← a.ptr index.toNat
      .ok (.ok (a, .view { start := p, dims := [n], strides := [1], writeable := false }))
  | .delItem index =>
    if level < RESIZEABLE then raised .runtimeError
    else if index < 0 ∨ index ≥ a.shape.numArrays then raised .indexError
    else do
      let a ← AoS.eraseSet c a index.toNat
      done a none
  | .setItem _ => if level < RESIZEABLE then raised .runtimeError else raised .typeError
  | .insertInto set values =>
    if level < RESIZEABLE then raised .runtimeError
    else if set < 0 ∨ set ≥ a.shape.numArrays then raised .indexError
    else
      match values with
      | none => raised .conversion
      | some vs => do
        let r ← AoS.insertRangeIntoSet c (AoS.growing c set.toNat) a set.toNat vs
        done r.1 (some r.2)
  | .insert index capacity =>
    if level < RESIZEABLE then raised .runtimeError
    else if index < 0 ∨ index > a.shape.numArrays then raised .indexError
    else if capacity < 0 then raised .valueError
    else do
      let a ← AoS.insertSet c a index.toNat capacity.toNat
      done a none
  | .eraseFrom set values =>
    if level < RESIZEABLE then raised .runtimeError
    else if set < 0 ∨ set ≥ a.shape.numArrays then raised .indexError
    else do
      -- the result of the conversion is not tested: a null pointer and the length 0 go on, then the interpreter notices that a
      -- result was returned with an exception set
      let r ← AoS.removeRangeFromSet c a set.toNat (values.getD [])
      if values.isNone then raised .systemError else done r.1 (some r.2)

/-- /repo/src/python/PyArrayOfSets.cpp, /repo/src/python/PyArrayOfSets.hpp. -/
def arrayOfSets (T : Type) [LT T] [DecidableLT T] [DecidableEq T] [Inhabited T] : Class T where
  W := AoA T
  M := ArrayOfSetsM T
  O := Option Nat
  verifies := fun
    | .len | .getItem _ => true
    | _ => false
  takesSpace := false
  call := arrayOfSetsCall
  data := fun a => a.values
  withData := fun a b => { a with values := b }

/-! ## `pylvarray.CRSMatrix` -/

/-- Methods of `pylvarray.CRSMatrix`; columns are given in the (unsigned) column type. -/
inductive CrsM (V : Type) where
  | numRows
  | numColumns
  | getColumns (row : Int)
  | getEntries (row : Int)
  | resize (numRows numCols initialRowCapacity : Int)
  | compress
  | insertNonZeros (row : Int) (cols : Option (List Nat)) (entries : Option (List V))
  | removeNonZeros (row : Int) (cols : Option (List Nat))
  | addToRow (row : Int) (cols : Option (List Nat)) (vals : Option (List V))

/-- Values returned by the methods of `pylvarray.CRSMatrix`. -/
inductive CrsRes where
  | none
  | num (n : Nat)
  | columns (cols : List Nat)
  deriving DecidableEq, Repr

/-- The values of `n` slots. -/
def readRange {A : Type} (b : Buf A) (p : Nat) : Nat → R (List A)
  | 0 => .ok []
  | n + 1 => do
    let x ← b.read p
    let xs ← readRange b (p + 1) n
    .ok (x :: xs)

/-- The pairs `( cols[ i ], vals[ i ] )` for `i < nVals`: reading past the end of `cols` is undefined behaviour. -/
def pairUp {V : Type} : List Nat → List V → R (List (Nat × V))
  | _, [] => .ok []
  | [], _ :: _ => .error (.ub .outOfBounds)
  | k :: ks, v :: vs => do
    let rest ← pairUp ks vs
    .ok ((k, v) :: rest)

/-- /repo/src/python/PyCRSMatrix.cpp 88-150, 195-347 with /repo/src/python/PyCRSMatrix.hpp 247-376.  Simplification: the array
returned by `get_columns` is given by its values, it is read-only (284). -/
def crsCall {V : Type} [Add V] (colMax : Nat) (c : Cfg) (level : Int) (m : Crs V) : CrsM V → R (Except Exn (Crs V × Ret CrsRes))
  | .numRows => done m (.num m.shape.numArrays)
  | .numColumns => done m (.num m.numCols)
  | .getColumns row =>
    if row < 0 ∨ row ≥ m.shape.numArrays then raised .runtimeError
    else do
      let p ← m.shape.offsets.read row.toNat
      let n ← m.shape.sizeOfArray c row.toNat
      let cols ← readRange m.columns p n
      done m (.columns cols)
  | .getEntries row =>
    if row < 0 ∨ row ≥ m.shape.numArrays then raised .runtimeError
    else do
      let p ← m.shape.offsets.read row.toNat
      let n ← m.shape.sizeOfArray c row.toNat
      -- `getAccessLevel()` is converted to `bool`, 294
      .ok (.ok (m, .view { start := p, dims := [n], strides := [1], writeable := decide (level ≠ 0) }))
  | .resize numRows numCols cap =>
    if level < RESIZEABLE then raised .runtimeError
    else if numRows < 0 ∨ numCols < 0 ∨ cap < 0 then raised .runtimeError
    else do
      let m ← m.resize c colMax numRows.toNat numCols.toNat cap.toNat
      done m .none
  | .compress =>
    if level < RESIZEABLE then raised .runtimeError
    else do
      let m ← m.compress c
      done m .none
  | .insertNonZeros row cols entries =>
    if level < RESIZEABLE then raised .runtimeError
    else
      match cols, entries with
      | some ks, some es =>
        if ks.length ≠ es.length then raised .runtimeError
        else if row < 0 ∨ row ≥ m.shape.numArrays then raised .runtimeError
        else do
          let r ← m.insertNonZeros c true row.toNat ks es
          done r.1 (.num r.2)
      | _, _ => raised .conversion
  | .removeNonZeros row cols =>
    if level < RESIZEABLE then raised .runtimeError
    else
      match cols with
      | none => raised .conversion
      | some ks =>
        if row < 0 ∨ row ≥ m.shape.numArrays then raised .runtimeError
        else do
          let r ← m.removeNonZeros c row.toNat ks
          done r.1 (.num r.2)
  | .addToRow row cols vals =>
    if level < RESIZEABLE then raised .runtimeError
    else
      match cols, vals with
      | some ks, some vs =>
        if row < 0 ∨ row ≥ m.shape.numArrays then raised .runtimeError
        else do
          -- the number of values is used for both arrays
          let args ← pairUp ks vs
          let m ← m.addToRowBinarySearchUnsorted c row.toNat args
          done m .none
      | _, _ => raised .conversion

/-- /repo/src/python/PyCRSMatrix.cpp, /repo/src/python/PyCRSMatrix.hpp. -/
def crsMatrix (V : Type) [Add V] (colMax : Nat) : Class V where
  W := Crs V
  M := CrsM V
  O := CrsRes
  verifies := fun _ => true
  takesSpace := true
  call := crsCall colMax
  data := fun m => m.entries
  withData := fun m b => { m with entries := b }

/-! ## `to_scipy` -/

/-- `isCompressed`: /repo/src/python/PyCRSMatrix.hpp 255-275, the reduction in row order. -/
def isCompressed {V : Type} (c : Cfg) (m : Crs V) : R Bool :=
  forUp m.shape.numArrays 0 (fun row r => do
    let n ← m.shape.sizeOfArray c row
    let cap ← m.shape.capacityOfArray c row
    .ok (r && decide (n = cap))) true

/-- `to_scipy()`: /repo/src/python/PyCRSMatrix.cpp 156-189 and /repo/src/python/PyCRSMatrix.hpp 298-310.  The three arrays of
the `csr_matrix`, entries, columns and offsets, by their values, and whether the entries may be assigned; the SciPy constructor
is not modelled. -/
def toSciPy {V : Type} (c : Cfg) (level : Int) (m : Crs V) : R (Except Exn (List V × List Nat × List Nat × Bool)) := do
  let compressed ← isCompressed c m
  if !compressed then raised .runtimeError
  else if m.shape.numArrays = 0 then raised .runtimeError
  else do
    let p ← m.shape.offsets.read 0
    let nnz ← m.shape.offsets.read m.shape.numArrays
    let entries ← readRange m.entries p nnz
    let columns ← readRange m.columns p nnz
    let offsets ← readRange m.shape.offsets 0 (m.shape.numArrays + 1)
    .ok (.ok (entries, columns, offsets, decide (level ≥ MODIFIABLE)))

end LvArray.Python

import Verif.Mem

/-!
# Reference counts of Python objects

A Python object is freed when its reference count reaches zero, and its own references are dropped
with it.  The functions of `src/python` create, borrow, store and drop references by hand or through
`PyObjectRef`.  The model keeps the objects with their counts and the references they store, and runs
the functions on them.  What the Python and NumPy C API answers (an object that already exists, a new
one, or a failure) is an argument of the model.

Not modelled: what the objects contain, the memory of a freed object (`tp_free`), cycles (the garbage
collector), threads, and everything the functions do besides handling references, which enters as
Boolean arguments where a branch depends on it.
-/

namespace LvArray.PyRefs

/-- A Python object: its reference count and the references it stores.  A count of zero means freed. -/
structure Obj where
  count : Nat
  holds : List Nat
  deriving DecidableEq, Repr

/-- The objects, by address.  A freed address is never reused (a use after free stays visible). -/
abbrev Heap := List Obj

/-- The reference count of object `i`, zero if there is no such object (any more). -/
def Heap.count (h : Heap) (i : Nat) : Nat :=
  match h[i]? with
  | some o => o.count
  | none => 0

/-- What an API function that returns a new reference does: it fails, it creates an object that stores
references to other objects, or it returns one more reference to an object that exists. -/
inductive Answer where
  | fails
  | fresh (holds : List Nat)
  | existing (i : Nat)
  deriving DecidableEq, Repr

/-- The state of the interpreter: the objects, whether an exception is set, and the answers the API will
give. -/
structure State where
  heap : Heap
  err : Bool
  answers : List Answer
  deriving DecidableEq, Repr

/-- `Py_INCREF`.  On a freed object this is a use after free. -/
def incref (i : Nat) (h : Heap) : R Heap :=
  match h[i]? with
  | some o => if o.count = 0 then .error (.ub .dangling) else .ok (h.set i { o with count := o.count + 1 })
  | none => .error (.ub .dangling)

/-- `Py_DECREF` of every object of a list.  An object whose count reaches zero is freed, and its own
references are dropped in turn.  Each step drops one reference, so the number of references bounds the
number of steps. -/
def drop : Nat → List Nat → Heap → R Heap
  | _, [], h => .ok h
  | 0, _ :: _, _ => .error .abort
  | n + 1, i :: rest, h =>
    match h[i]? with
    | none => .error (.ub .dangling)
    | some o =>
      if o.count = 0 then .error (.ub .dangling)
      else if o.count = 1 then drop n (o.holds ++ rest) (h.set i ⟨0, []⟩)
      else drop n rest (h.set i { o with count := o.count - 1 })

/-- The number of references there are. -/
def Heap.total (h : Heap) : Nat := (h.map Obj.count).sum

/-- `internal::xincref`, pythonHelpers.cpp 35-36. -/
def xincref (r : Option Nat) (s : State) : R State :=
  match r with
  | none => .ok s
  | some i => do
    let h ← incref i s.heap
    .ok { s with heap := h }

/-- `internal::xdecref`, pythonHelpers.cpp 39-40.  Also the destructor of a `PyObjectRef`,
pythonHelpers.hpp 181-182. -/
def xdecref (r : Option Nat) (s : State) : R State :=
  match r with
  | none => .ok s
  | some i => do
    let h ← drop s.heap.total [i] s.heap
    .ok { s with heap := h }

/-- `PyErr_SetString`, and with it `PYTHON_ERROR_IF`, pythonHelpers.hpp 43-57. -/
def raise (s : State) : State := { s with err := true }

/-- Passing objects to an API function that needs them: a null pointer or a freed object is undefined
behaviour. -/
def use : List (Option Nat) → State → R Unit
  | [], _ => .ok ()
  | none :: _, _ => .error (.ub .dangling)
  | some i :: rest, s => if s.heap.count i = 0 then .error (.ub .dangling) else use rest s

/-- `Py_INCREF` of every object of a list. -/
def increfAll : List Nat → Heap → R Heap
  | [], h => .ok h
  | i :: rest, h => do
    let h ← incref i h
    increfAll rest h

/-- The next answer of the API. -/
def State.next (s : State) : Answer × State :=
  match s.answers with
  | [] => (.fails, s)
  | a :: rest => (a, { s with answers := rest })

/-- Creating an object with one reference, that stores `holds`. -/
def State.create (holds : List Nat) (s : State) : Option Nat × State :=
  match increfAll holds s.heap with
  | .ok h => (some h.length, { s with heap := h ++ [⟨1, holds⟩] })
  | .error _ => (none, raise s)

/-- The contract of the API functions that return a new reference, or null with an exception set
(`PyImport_ImportModule`, `PyObject_GetAttrString`, `PyObject_CallFunction`, `PyModule_Create`,
`PyTuple_New`, `PyLong_FromLongLong`, `PyUnicode_FromString`, `PyArray_Converter`,
`PyArray_TypeObjectFromType`, …).  They borrow their arguments `args`.  An answer that mentions a freed
object counts as a failure. -/
def newRef (args : List (Option Nat)) (s : State) : R (Option Nat × State) := do
  use args s
  match s.next with
  | (.fails, s) => .ok (none, raise s)
  | (.fresh holds, s) => .ok (s.create holds)
  | (.existing i, s) =>
    match incref i s.heap with
    | .ok h => .ok (some i, { s with heap := h })
    | .error _ => .ok (none, raise s)

/-- The contract of the API functions that return a status, with an exception set if it is bad
(`PyType_Ready`, `PyModule_AddIntConstant`, `import_array1`). -/
def status (args : List (Option Nat)) (s : State) : R (Bool × State) := do
  use args s
  match s.next with
  | (.fails, s) => .ok (false, raise s)
  | (_, s) => .ok (true, s)

/-- Storing a reference in an object, which takes it over (`PyTuple_SET_ITEM`, `PyList_SET_ITEM`, or an
assignment to a field of a new object).  A null reference may be stored. -/
def store (into : Option Nat) (x : Option Nat) (s : State) : R State := do
  use [into] s
  match into, x with
  | some t, some i =>
    match s.heap[t]? with
    | some o => .ok { s with heap := s.heap.set t { o with holds := i :: o.holds } }
    | none => .error (.ub .dangling)
  | _, _ => .ok s

/-- `PyModule_AddObject`: takes the reference over if it succeeds, and only then.  A null object is a
failure. -/
def addObject (module x : Option Nat) (s : State) : R (Bool × State) := do
  use [module] s
  match x with
  | none => .ok (false, raise s)
  | some i =>
    use [some i] s
    match s.next with
    | (.fails, s) => .ok (false, raise s)
    | (_, s) => do
      let s ← store module (some i) s
      .ok (true, s)

/-! ## pythonHelpers.cpp and python.cpp -/

/-- `addTypeToModule`, pythonHelpers.cpp 61-78. -/
def addTypeToModule (module type : Nat) (s : State) : R (Bool × State) := do
  let (ready, s) ← status [some type] s
  if ready = false then .ok (false, s)
  else
    let s ← xincref (some type) s
    let (added, s) ← addObject (some module) (some type) s
    if added = false then
      let s ← xdecref (some type) s
      .ok (false, s)
    else .ok (true, s)

/-- The five calls of `addTypeToModule` in `getModule`, python.cpp 103-126. -/
def addTypes (module : Nat) : List Nat → State → R (Bool × State)
  | [], s => .ok (true, s)
  | type :: rest, s => do
    let (added, s) ← addTypeToModule module type s
    if added = false then .ok (false, s) else addTypes module rest s

/-- `addConstants`, python.cpp 65-88: `n` constants are added. -/
def addConstants (module : Nat) : Nat → State → R (Bool × State)
  | 0, s => .ok (true, s)
  | n + 1, s => do
    let (added, s) ← status [some module] s
    if added = false then .ok (false, raise s) else addConstants module n s

/-- The end of `getModule` and of `PyInit_pylvarray`: the `PyObjectRef` that owns the module is destroyed
on failure and released on success, python.cpp 128-134 and 160-162. -/
def finishModule (module : Nat) (ok : Bool) (s : State) : R (Option Nat × State) :=
  if ok = false then do
    let s ← xdecref (some module) s
    .ok (none, s)
  else .ok (some module, s)

/-- `getModule`, python.cpp 93-135, for the types `types` and `constants` constants. -/
def getModule (types : List Nat) (constants : Nat) (s : State) : R (Option Nat × State) := do
  let (module, s) ← newRef [] s
  match module with
  | none => .ok (none, s)
  | some m =>
    let (typed, s) ← addTypes m types s
    if typed = false then finishModule m false s
    else
      let (added, s) ← addConstants m constants s
      finishModule m added s

/-- `addPyLvArrayModule`, python.cpp 146-155.  The destructor of `pylvarrayModule` runs on both paths. -/
def addPyLvArrayModule (module : Nat) (s : State) : R (Bool × State) := do
  let (pylvarray, s) ← newRef [] s
  let (added, s) ← addObject (some module) pylvarray s
  let s ← xdecref pylvarray s
  .ok (added, s)

/-- The loop of `createPyListOfStrings`, pythonHelpers.cpp 88-92. -/
def fillStrings (list : Option Nat) : Nat → State → R State
  | 0, s => .ok s
  | n + 1, s => do
    let (str, s) ← newRef [] s
    let s ← store list str s
    fillStrings list n s

/-- `createPyListOfStrings`, pythonHelpers.cpp 85-94. -/
def createPyListOfStrings (n : Nat) (s : State) : R (Option Nat × State) := do
  let (list, s) ← newRef [] s
  let s ← fillStrings list n s
  .ok (list, s)

/-! ## numpyHelpers.cpp -/

/-- `import_array_wrapper`, numpyHelpers.cpp 221-229.  `imported`: the API table is already there. -/
def importArray (imported : Bool) (s : State) : R (Bool × State) :=
  if imported then .ok (true, s) else status [] s

/-- `createNumpyArrayImpl`, numpyHelpers.cpp 117-152.  `descr` is the descriptor `PyArray_DescrFromType`
returns a new reference to; `PyArray_NewFromDescr` takes that reference over, whether it fails or not. -/
def createNumpyArray (imported hasType : Bool) (descr : Nat) (s : State) : R (Option Nat × State) := do
  let (there, s) ← importArray imported s
  if there = false then .ok (none, s)
  else if hasType = false then .ok (none, raise s)
  else
    let s ← xincref (some descr) s
    let (array, s) ← newRef [some descr] s
    match array with
    | none =>
      let s ← xdecref (some descr) s
      .ok (none, s)
    | some a =>
      let s ← store (some a) (some descr) s
      .ok (some a, s)

/-- `getNumPyTypeObject`, numpyHelpers.cpp 398-410. -/
def getNumPyTypeObject (imported hasType : Bool) (s : State) : R (Option Nat × State) := do
  let (there, s) ← importArray imported s
  if there = false then .ok (none, raise s)
  else if hasType = false then .ok (none, raise s)
  else
    let (type, s) ← newRef [] s
    match type with
    | none => .ok (none, raise s)
    | some t => .ok (some t, s)

/-- What the branches of `parseNumPyArray` depend on. -/
structure ArrayArg where
  imported : Bool
  tooManyDims : Bool
  notCArray : Bool
  sameType : Bool
  castable : Bool
  castFails : Bool
  deriving DecidableEq, Repr

/-- `PyArray_Cast`: a new array, or null with an exception set. -/
def cast (fails : Bool) (array : Nat) (s : State) : R (Option Nat × State) := do
  use [some array] s
  if fails then .ok (none, raise s) else .ok (s.create [])

/-- The reference that `parseNumPyArray` returns is a `PyObjectRef`; this is the part after the conversion,
numpyHelpers.cpp 249-272.  `PyArray_DATA` dereferences its argument.  The destructor of `array` runs on every path; it does nothing after
`array.release()`. -/
def parseChecked (arg : ArrayArg) (array : Nat) (s : State) : R (Option Nat × State) := do
  use [some array] s
  if arg.tooManyDims || arg.notCArray then
    let s ← xdecref (some array) (raise s)
    .ok (none, s)
  else if arg.sameType then .ok (some array, s)
  else if arg.castable = false then
    let s ← xdecref (some array) (raise s)
    .ok (none, s)
  else
    let (converted, s) ← cast arg.castFails array s
    use [converted] s
    let s ← xdecref (some array) s
    .ok (converted, s)

/-- `parseNumPyArray`, numpyHelpers.cpp 232-273. -/
def parseNumPyArray (arg : ArrayArg) (obj : Nat) (s : State) : R (Option Nat × State) := do
  let (there, s) ← importArray arg.imported s
  if there = false then .ok (none, s)
  else
    let (array, s) ← newRef [some obj] s
    match array with
    | none => .ok (none, s)
    | some a => parseChecked arg a s

/-! ## The classes -/

/-- `internal::create( wrapper )`: PyArray.cpp 284-304, PySortedArray.cpp 239-259,
PyArrayOfArrays.cpp 313-332, PyArrayOfSets.cpp 327-346, PyCRSMatrix.cpp 435-454.  `type` is the class. -/
def createWrapper (imported hasType : Bool) (type : Nat) (s : State) : R (Option Nat × State) := do
  let (ret, s) ← newRef [some type] s
  match ret with
  | none => .ok (none, s)
  | some r =>
    let (dtype, s) ← getNumPyTypeObject imported hasType s
    match dtype with
    | none => .ok (none, s)
    | some d =>
      let s ← store (some r) (some d) s
      .ok (some r, s)

/-- What a method returns: `Py_RETURN_NONE`, a Python integer or string, or a NumPy array. -/
inductive Result where
  | none_
  | value
  | numpy
  deriving DecidableEq, Repr

/-- What the code of a method looks like: whether it verifies that the object is initialised
(`VERIFY_INITIALIZED`), whether it looks at the access level (`VERIFY_RESIZEABLE`), the number of
arguments it converts to NumPy arrays, whether it looks at the outcome of the conversion, and what it
returns. -/
structure Method where
  verifies : Bool
  resizes : Bool
  arrays : Nat
  checksArrays : Bool
  result : Result
  deriving DecidableEq, Repr

/-- One call of a method: the state of the object, the arguments and the outcome of the tests. -/
structure Call where
  /-- the wrapper pointer of the object is not null -/
  initialized : Bool
  /-- the access level is `RESIZEABLE` -/
  resizeable : Bool
  /-- `PyArg_ParseTuple` succeeds -/
  parses : Bool
  /-- the tests between `PyArg_ParseTuple` and the conversion of the arrays pass -/
  early : Bool
  /-- the array arguments, borrowed from the argument tuple -/
  objs : List (ArrayArg × Nat)
  /-- the tests after the conversion of the arrays pass -/
  late : Bool
  /-- `Py_None` -/
  none_ : Nat
  /-- for a NumPy result: whether NumPy is imported, the value type has a NumPy type, and its descriptor -/
  imported : Bool
  hasType : Bool
  descr : Nat
  deriving Repr

/-- The conversion of the array arguments of a method, one after the other. -/
def parseAll : List (ArrayArg × Nat) → State → R (List (Option Nat) × State)
  | [], s => .ok ([], s)
  | (arg, obj) :: rest, s => do
    let (a, s) ← parseNumPyArray arg obj s
    let (as, s) ← parseAll rest s
    .ok (a :: as, s)

/-- The destructors of the converted arrays at the end of a method. -/
def dropAll : List (Option Nat) → State → R State
  | [], s => .ok s
  | r :: rest, s => do
    let s ← xdecref r s
    dropAll rest s

/-- The value a method returns once all tests have passed. -/
def giveResult (m : Method) (c : Call) (s : State) : R (Option Nat × State) :=
  match m.result with
  | .none_ => do
    let s ← xincref (some c.none_) s
    .ok (some c.none_, s)
  | .value => newRef [] s
  | .numpy => createNumpyArray c.imported c.hasType c.descr s

/-- The part of a method after the conversion of the arrays.  C++ evaluates the operand of `return`
before it runs the destructors. -/
def finish (m : Method) (c : Call) (arrays : List (Option Nat)) (s : State) : R (Option Nat × State) :=
  if m.checksArrays && arrays.any Option.isNone then do
    let s ← dropAll arrays s
    .ok (none, s)
  else if c.late = false then do
    let s ← dropAll arrays (raise s)
    .ok (none, s)
  else do
    let (r, s) ← giveResult m c s
    let s ← dropAll arrays s
    .ok (r, s)

/-- The body of a method after the `VERIFY` macros. -/
def body (m : Method) (c : Call) (s : State) : R (Option Nat × State) :=
  if c.parses = false then .ok (none, raise s)
  else if c.early = false then .ok (none, raise s)
  else do
    let (arrays, s) ← parseAll (c.objs.take m.arrays) s
    finish m c arrays s

/-- A call of a method.  Without `VERIFY_INITIALIZED`, the methods go on to dereference the wrapper
pointer, which is null in an object that was made by calling the class from Python. -/
def callMethod (m : Method) (c : Call) (s : State) : R (Option Nat × State) :=
  if m.verifies && !c.initialized then .ok (none, raise s)
  else if c.initialized = false then .error (.ub .dangling)
  else if m.resizes && !c.resizeable then .ok (none, raise s)
  else body m c s

/-- `PyArray_resizeAll`, PyArray.cpp 157-184. -/
def arrayResizeAll : Method := ⟨true, true, 1, true, .none_⟩
/-- `PyArray_resize`, PyArray.cpp 134-151. -/
def arrayResize : Method := ⟨true, true, 0, true, .none_⟩
/-- `PyArray_toNumPy`, PyArray.cpp 192-200, and `PySortedArray_toNumPy`, PySortedArray.cpp 148-156. -/
def toNumPy : Method := ⟨true, false, 0, true, .numpy⟩
/-- `PySortedArray_insert` and `PySortedArray_remove`, PySortedArray.cpp 91-112 and 120-141. -/
def sortedInsert : Method := ⟨true, true, 1, true, .value⟩
/-- `PyArrayOfArrays_getitem` and `PyArrayOfSets_getitem`, PyArrayOfArrays.cpp 91-106 and
PyArrayOfSets.cpp 91-106. -/
def getItem : Method := ⟨true, false, 0, true, .numpy⟩
/-- `PyArrayOfArrays_insertIntoArray` and `PyArrayOfArrays_insert`, PyArrayOfArrays.cpp 154-177 and
185-207. -/
def arraysInsert : Method := ⟨false, true, 1, true, .none_⟩
/-- `PyArrayOfArrays_eraseFrom` and `PyArrayOfSets_insertSet`, PyArrayOfArrays.cpp 213-229 and
PyArrayOfSets.cpp 189-210. -/
def arraysErase : Method := ⟨false, true, 0, true, .none_⟩
/-- `PyArrayOfSets_insertIntoSet`, PyArrayOfSets.cpp 156-183. -/
def setsInsert : Method := ⟨false, true, 1, true, .value⟩
/-- `PyArrayOfSets_removeFromSet`, PyArrayOfSets.cpp 220-242: the outcome of the conversion is not
looked at. -/
def setsRemove : Method := ⟨false, true, 1, false, .value⟩
/-- `PyCRSMatrix_getColumns` and `PyCRSMatrix_getEntries`, PyCRSMatrix.cpp 113-129 and 134-150. -/
def matrixGetRow : Method := ⟨true, false, 0, true, .numpy⟩
/-- `PyCRSMatrix_resize` and `PyCRSMatrix_compress`, PyCRSMatrix.cpp 195-213 and 218-228. -/
def matrixResize : Method := ⟨true, true, 0, true, .none_⟩
/-- `PyCRSMatrix_insertNonZeros`, PyCRSMatrix.cpp 234-269. -/
def matrixInsert : Method := ⟨true, true, 2, true, .value⟩
/-- `PyCRSMatrix_removeNonZeros`, PyCRSMatrix.cpp 277-305. -/
def matrixRemove : Method := ⟨true, true, 1, true, .value⟩
/-- `PyCRSMatrix_addToRow`, PyCRSMatrix.cpp 313-347. -/
def matrixAddToRow : Method := ⟨true, true, 2, true, .none_⟩
/-- The methods that return a number (`num_rows`, `num_columns`, `get_access_level`,
`get_single_parameter_resize_index`), PyCRSMatrix.cpp 88-108 and 353-360, PyArray.cpp 97-104 and 206-214,
and likewise in the other classes. -/
def getNumber : Method := ⟨true, false, 0, true, .value⟩
/-- The `set_access_level` methods, PyArray.cpp 221-239, and likewise in the other classes. -/
def setAccessLevel : Method := ⟨true, false, 0, true, .none_⟩

/-- The three arrays of `getEntriesColumnsAndOffsets`, PyCRSMatrix.hpp 300-313. -/
def threeArrays (imported hasType : Bool) (descrs : Nat × Nat × Nat) (s : State) :
    R ((Option Nat × Option Nat × Option Nat) × State) := do
  let (a, s) ← createNumpyArray imported hasType descrs.1 s
  let (b, s) ← createNumpyArray imported hasType descrs.2.1 s
  let (c, s) ← createNumpyArray imported hasType descrs.2.2 s
  .ok ((a, b, c), s)

/-- The end of `PyCRSMatrix_toSciPy`, PyCRSMatrix.cpp 179-188.  `sciPySparse` and `constructor` are
`PyObjectRef`s, the three arrays are not; the format `O` makes the call borrow them. -/
def callSciPy (a b c : Option Nat) (s : State) : R (Option Nat × State) := do
  let (sparse, s) ← newRef [] s
  let (constructor, s) ← newRef [sparse] s
  let (r, s) ← newRef [constructor, a, b, c] s
  let s ← xdecref constructor s
  let s ← xdecref sparse s
  .ok (r, s)

/-- `PyCRSMatrix_toSciPy`, PyCRSMatrix.cpp 156-189, of an initialised object.  `exportable`: the matrix is
compressed and has rows. -/
def toSciPy (exportable imported hasType : Bool) (descrs : Nat × Nat × Nat) (s : State) :
    R (Option Nat × State) :=
  if exportable = false then .ok (none, raise s)
  else do
    let ((a, b, c), s) ← threeArrays imported hasType descrs s
    if a.isNone || b.isNone || c.isNone then .ok (none, raise s)
    else callSciPy a b c s

/-! ## PyFunc -/

/-- The arguments of `PythonFunction::operator()` are converted one after the other, even after a failure,
PyFunc.hpp 83-90. -/
def createArgs : Nat → State → R (List (Option Nat) × State)
  | 0, s => .ok ([], s)
  | n + 1, s => do
    let (a, s) ← newRef [] s
    let (as, s) ← createArgs n s
    .ok (a :: as, s)

/-- The loop of `callPyFunc` that moves the arguments to the tuple, PyFunc.cpp 47-51. -/
def storeAll (into : Option Nat) : List (Option Nat) → State → R State
  | [], s => .ok s
  | a :: rest, s => do
    let s ← store into a s
    storeAll into rest s

/-- `callPyFunc`, PyFunc.cpp 38-54, followed by the destructors of the arguments: they still own their
references if no tuple could be made. -/
def callPyFunc (func : Nat) (args : List (Option Nat)) (s : State) : R State := do
  let (tup, s) ← newRef [] s
  match tup with
  | none => dropAll args s
  | some t => do
    let s ← storeAll (some t) args s
    let (result, s) ← newRef [some func, some t] s
    let s ← xdecref result s
    xdecref (some t) s

/-- `PythonFunction::operator()`, PyFunc.hpp 80-103, with `n` arguments.  The result tells whether no
`PythonError` is thrown. -/
def pythonFunction (func n : Nat) (s : State) : R (Bool × State) := do
  let (args, s) ← createArgs n s
  if args.any Option.isNone then
    let s ← dropAll args s
    .ok (false, s)
  else
    let s ← callPyFunc func args s
    .ok (!s.err, s)

/-! ## PyObjectRef -/

/-- Operations on a collection of `PyObjectRef` variables, pythonHelpers.hpp 143-262. -/
inductive RefOp where
  /-- `PyObjectRef x{ f() }` for an API function that returns a new reference, 158-160 -/
  | own
  /-- `PyObjectRef x( y )`, 167-168 -/
  | copy (i : Nat)
  /-- `PyObjectRef x( std::move( y ) )`, 175-176 -/
  | move (i : Nat)
  /-- `x = y`, 190-195 -/
  | assign (i j : Nat)
  /-- `x = std::move( y )`, 203-208 -/
  | assignMove (i j : Nat)
  /-- `x = f()`, 216-222 -/
  | assignNew (i : Nat)
  /-- `x.release()`: the reference is handed out, 252-257 -/
  | release (i : Nat)
  /-- the destructor, after which the variable is not used, 181-182 -/
  | destroy (i : Nat)
  deriving DecidableEq, Repr

/-- The variables (`m_object` of each; a destroyed variable is kept as null) and the references that were
handed out. -/
structure Vars where
  vars : List (Option Nat)
  out : List (Option Nat)
  deriving DecidableEq, Repr

/-- `m_object` of variable `i`. -/
def Vars.get (v : Vars) (i : Nat) : Option Nat := (v.vars[i]?).getD none

/-- Effect of an operation.  An operation on a variable that does not exist does nothing. -/
def RefOp.run (v : Vars) (s : State) : RefOp → R (Vars × State)
  | .own => do
    let (r, s) ← newRef [] s
    .ok ({ v with vars := v.vars ++ [r] }, s)
  | .copy i => do
    let s ← xincref (v.get i) s
    .ok ({ v with vars := v.vars ++ [v.get i] }, s)
  | .move i => .ok ({ v with vars := v.vars.set i none ++ [v.get i] }, s)
  | .assign i j =>
    if i < v.vars.length then do
      let s ← xincref (v.get j) s
      .ok ({ v with vars := v.vars.set i (v.get j) }, s)
    else .ok (v, s)
  | .assignMove i j =>
    if i < v.vars.length then .ok ({ v with vars := (v.vars.set i (v.get j)).set j none }, s)
    else .ok (v, s)
  | .assignNew i =>
    if i < v.vars.length then do
      let (r, s) ← newRef [] s
      let s ← xdecref (v.get i) s
      .ok ({ v with vars := v.vars.set i r }, s)
    else .ok (v, s)
  | .release i => .ok ({ vars := v.vars.set i none, out := v.get i :: v.out }, s)
  | .destroy i => do
    let s ← xdecref (v.get i) s
    .ok ({ v with vars := v.vars.set i none }, s)

/-- A list of operations on `PyObjectRef` variables. -/
def runRefs : List RefOp → Vars → State → R (Vars × State)
  | [], v, s => .ok (v, s)
  | op :: rest, v, s => do
    let (v, s) ← op.run v s
    runRefs rest v s

/-! ## Histories -/

/-- A Python program calls functions one after the other and keeps what they return.  It handles every
exception before the next call. -/
def runCalls : List (State → R (Option Nat × State)) → State → R (List (Option Nat) × State)
  | [], s => .ok ([], s)
  | f :: rest, s => do
    let (r, s) ← f s
    let (rs, s) ← runCalls rest { s with err := false }
    .ok (r :: rs, s)

/-- The program, at the end of which everything it kept is dropped. -/
def runProgram (fs : List (State → R (Option Nat × State))) (s : State) : R State := do
  let (rs, s) ← runCalls fs s
  dropAll rs s

end LvArray.PyRefs

import Verif.PyRefsVars

/-!
# C60: the Python bindings keep reference counts exact

A Python object lives exactly as long as something refers to it.  Every function of the bindings must
therefore leave the count of every object equal to the number of references to it, whatever the Python C
API answers, and return null if and only if it leaves an exception set.
-/

namespace LvArray.Props
open LvArray.PyRefs

/-- Counts of owned references given by a list (zero beyond its end). -/
def ownedList (l : List Nat) : Owned := fun i => (l[i]?).getD 0

theorem exact_of_list {h : Heap} {l : List Nat} (h1 : ∀ i < h.length, h.count i = holders h i + ownedList l i)
    (h2 : ∀ o ∈ h, ∀ x ∈ o.holds, x < h.length) (h3 : l.length ≤ h.length) : Exact h (ownedList l) := by
  intro i
  by_cases hi : i < h.length
  · exact h1 i hi
  · have e1 : h.count i = 0 := by
      unfold Heap.count
      rw [List.getElem?_eq_none (by omega)]
    have e2 : holders h i = 0 := by
      unfold holders
      rw [List.sum_eq_zero_iff_forall_eq_nat]
      intro x hx
      rw [List.mem_map] at hx
      obtain ⟨o, ho, rfl⟩ := hx
      rw [List.count_eq_zero]
      intro hm
      exact hi (h2 o ho i hm)
    have e3 : ownedList l i = 0 := by
      unfold ownedList
      rw [List.getElem?_eq_none (by omega)]
      rfl
    omega

/-- A heap for the examples: `None`, a descriptor, an argument that stores a reference to the descriptor,
a class, a module, and the table of imported modules, which stores a reference to the module. -/
def refHeap : Heap := [⟨1, []⟩, ⟨2, []⟩, ⟨1, [1]⟩, ⟨1, []⟩, ⟨1, []⟩, ⟨1, [4]⟩]

/-- What the callers own: one reference to each, except to the module, which is only stored. -/
def refOwned : Owned := ownedList [1, 1, 1, 1, 0, 1]

theorem refHeap_exact : Exact refHeap refOwned :=
  exact_of_list (by decide) (by decide) (by decide)

/-! ## Functions that obey the rules -/

/-- **C60** (initialising the module). -/
theorem C60_module (types : List Nat) (constants : Nat) : Obeys (getModule types constants) types := by
  intro s owned hx hl he
  obtain ⟨r, s', e, x, f⟩ := getModule_ok types constants hx hl
  exact ⟨r, s', e, x, by rw [f, he]; cases r <;> simp⟩

/-- Success, and a failure after two of the types. -/
example :
    (getModule [3, 3] 1 ⟨refHeap, false, [.fresh [], .fresh [], .fresh [], .fresh [], .fresh [], .fresh []]⟩).toOption.map
      (fun p => (p.1, p.2.heap.count 3, p.2.heap.count 6)) = some (some 6, 3, 1) ∧
    (getModule [3, 3] 1 ⟨refHeap, false, [.fresh [], .fresh [], .fresh [], .fresh [], .fails]⟩).toOption.map
      (fun p => (p.1, p.2.heap.count 3, p.2.heap.count 6)) = some (none, 1, 0) := by decide

/-- **C60** (adding a class to a module). -/
theorem C60_addType (module type : Nat) : ObeysStatus (addTypeToModule module type) [module, type] := by
  intro s owned hx hl he
  obtain ⟨b, s', e, x, f⟩ := addTypeToModule_ok hx (hl module (by simp)) (hl type (by simp))
  exact ⟨b, s', e, x, by rw [f, he]; cases b <;> simp⟩

/-- **C60** (exporting an array to NumPy). -/
theorem C60_numpy (imported hasType : Bool) (descr : Nat) :
    Obeys (createNumpyArray imported hasType descr) [descr] := by
  intro s owned hx hl he
  obtain ⟨r, s', e, x, f⟩ := createNumpyArray_ok imported hasType hx (hl descr (by simp))
  exact ⟨r, s', e, x, by rw [f, he]; cases r <;> simp⟩

example : Exact refHeap refOwned ∧ Lends refOwned [1] ∧
    (createNumpyArray true true 1 ⟨refHeap, false, [.fresh []]⟩).toOption.map
      (fun p => (p.1, p.2.heap.count 1, p.2.heap.count 6)) = some (some 6, 3, 1) :=
  ⟨refHeap_exact, by unfold Lends; decide, by decide⟩

/-- **C60** (the `dtype` of a value type). -/
theorem C60_dtype (imported hasType : Bool) : Obeys (getNumPyTypeObject imported hasType) [] := by
  intro s owned hx hl he
  obtain ⟨r, s', e, x, f⟩ := getNumPyTypeObject_ok imported hasType hx
  exact ⟨r, s', e, x, by rw [f, he]; cases r <;> simp⟩

/-- **C60** (calling a Python function from C++): a `PythonError` is thrown if and only if an exception is
set. -/
theorem C60_function (func n : Nat) : ObeysStatus (pythonFunction func n) [func] := by
  intro s owned hx hl he
  obtain ⟨b, s', e, x, f⟩ := pythonFunction_ok n hx (hl func (by simp)) he
  exact ⟨b, s', e, x, by rw [f]; cases b <;> simp⟩

/-- Two arguments are created and freed; the function returns `None`. -/
example : (pythonFunction 3 2 ⟨refHeap, false, [.fresh [], .fresh [1], .fresh [], .existing 0]⟩).toOption.map
      (fun p => (p.1, p.2.heap)) =
    some (true, refHeap ++ [⟨0, []⟩, ⟨0, []⟩, ⟨0, []⟩]) := by decide

/-- **C60** (histories): a Python program that calls such functions in any order, keeps what they return
and drops it at the end never makes an object dangle and leaves every count as it was. -/
theorem C60_program (fs : List ((State → R (Option Nat × State)) × List Nat)) (s : State) (owned : Owned)
    (hf : ∀ f ∈ fs, Obeys f.1 f.2) (hx : Exact s.heap owned) (hl : ∀ f ∈ fs, Lends owned f.2)
    (he : s.err = false) : ∃ s', runProgram (fs.map Prod.fst) s = .ok s' ∧ Exact s'.heap owned :=
  runProgram_ok fs s owned hf hx hl he

/-- A program of four calls: the module, two exports to NumPy, of which one fails, and a `dtype`. -/
example : ∃ s', runProgram [getModule [3] 1, createNumpyArray true true 1, createNumpyArray true false 1,
      getNumPyTypeObject false true] ⟨refHeap, false, [.fresh [], .fresh [], .fresh [], .fails, .fresh [1]]⟩ = .ok s' ∧
      Exact s'.heap refOwned :=
  C60_program [(getModule [3] 1, [3]), (createNumpyArray true true 1, [1]), (createNumpyArray true false 1, [1]),
      (getNumPyTypeObject false true, [])] _ refOwned
    (by
      intro f hf
      simp only [List.mem_cons, List.not_mem_nil, or_false] at hf
      rcases hf with rfl | rfl | rfl | rfl
      · exact C60_module [3] 1
      · exact C60_numpy true true 1
      · exact C60_numpy true false 1
      · exact C60_dtype false true)
    refHeap_exact
    (by
      intro f hf
      simp only [List.mem_cons, List.not_mem_nil, or_false] at hf
      unfold Lends
      rcases hf with rfl | rfl | rfl | rfl <;> decide)
    rfl

/-! ## Converting arguments, and the methods -/

/-- **C60** (converting an argument to an array), unless `PyArray_Cast` fails.  Missing: that case, see
`C60_cast_crash`. -/
theorem C60_parse_partial (arg : ArrayArg) (obj : Nat) (hc : arg.castFails = false) :
    Obeys (parseNumPyArray arg obj) [obj] := by
  intro s owned hx hl he
  obtain ⟨r, s', e, x, f⟩ := parseNumPyArray_ok hx (hl obj (by simp)) hc
  exact ⟨r, s', e, x, by rw [f, he]; cases r <;> simp⟩

/-- An argument that needs a conversion. -/
def castArg : ArrayArg := ⟨true, false, false, false, true, false⟩

example : castArg.castFails = false ∧ Lends refOwned [2] ∧
    (parseNumPyArray castArg 2 ⟨refHeap, false, [.fresh [2]]⟩).toOption.map
      (fun p => (p.1, p.2.heap)) = some (some 7, refHeap ++ [⟨0, []⟩, ⟨1, []⟩]) :=
  ⟨rfl, by unfold Lends; decide, by decide⟩

/-- The real code dereferences null when `PyArray_Cast` fails. -/
theorem C60_cast_crash :
    Exact refHeap refOwned ∧
    parseNumPyArray { castArg with castFails := true } 2 ⟨refHeap, false, [.fresh [2]]⟩ =
      .error (.ub .dangling) :=
  ⟨refHeap_exact, by decide⟩

/-- **C60** (methods): every method that looks at the outcome of the conversion of its arguments obeys the
rules, if it verifies that the object is initialised or if the object is.  Missing: `PyArray_Cast` may not
fail, and the two cases of `C60_uninitialized_crash` and `C60_erase_from_error`. -/
theorem C60_methods_partial (m : Method) (c : Call) (hm : m.checksArrays = true)
    (hi : m.verifies = true ∨ c.initialized = true) (hc : ∀ a ∈ c.objs, a.1.castFails = false) :
    Obeys (callMethod m c) c.args := by
  intro s owned hx hl he
  obtain ⟨r, s', e, x, f⟩ := callMethod_ok m c hx hl hc hi
  exact ⟨r, s', e, x, by rw [f hm he]; cases r <;> simp⟩

/-- The methods of the bindings to which the theorem applies for every object, and those to which it applies
for initialised objects. -/
example :
    (∀ m ∈ [arrayResizeAll, arrayResize, toNumPy, sortedInsert, getItem, matrixGetRow, matrixResize,
      matrixInsert, matrixRemove, matrixAddToRow, getNumber, setAccessLevel],
        m.checksArrays = true ∧ m.verifies = true) ∧
    (∀ m ∈ [arraysInsert, arraysErase, setsInsert], m.checksArrays = true) := by decide

/-- A call of `insert_nonzeros` with two arguments. -/
def insertCall : Call :=
  { initialized := true, resizeable := true, parses := true, early := true, objs := [(castArg, 2), (castArg, 3)],
    late := true, none_ := 0, imported := true, hasType := true, descr := 1 }

example : Lends refOwned insertCall.args ∧
    (callMethod matrixInsert insertCall ⟨refHeap, false, [.existing 2, .fresh [3], .fresh []]⟩).toOption.map
      (fun p => (p.1, p.2.heap)) =
    some (some 9, refHeap ++ [⟨0, []⟩, ⟨0, []⟩, ⟨0, []⟩, ⟨1, []⟩]) :=
  ⟨by unfold Lends; decide, by decide⟩

/-- Without the verification the counts are still exact on initialised objects, for every method (also for
`ArrayOfSets.erase_from`, which breaks the other rule). -/
theorem C60_methods_exact (m : Method) (c : Call) (hi : m.verifies = true ∨ c.initialized = true)
    (hc : ∀ a ∈ c.objs, a.1.castFails = false) (s : State) (owned : Owned) (hx : Exact s.heap owned)
    (hl : Lends owned c.args) :
    ∃ r s', callMethod m c s = .ok (r, s') ∧ Exact s'.heap (owned.plus r) := by
  obtain ⟨r, s', e, x, _⟩ := callMethod_ok m c hx hl hc hi
  exact ⟨r, s', e, x⟩

/-- `pylvarray.ArrayOfArrays()` makes an object whose methods `insert`, `insert_into` and `erase_from`
dereference null; the same for `ArrayOfSets`. -/
theorem C60_uninitialized_crash (s : State) (c : Call) (hc : c.initialized = false) :
    ∀ m ∈ [arraysInsert, arraysErase, setsInsert, setsRemove], callMethod m c s = .error (.ub .dangling) := by
  intro m hm
  simp only [List.mem_cons, List.not_mem_nil, or_false] at hm
  rcases hm with rfl | rfl | rfl | rfl <;>
    simp [callMethod, hc, arraysInsert, arraysErase, setsInsert, setsRemove]

/-- `ArrayOfSets.erase_from` returns a value although an exception is set, whenever its argument cannot be
converted. -/
theorem C60_erase_from_error :
    (callMethod setsRemove { insertCall with objs := [(castArg, 2)] }
      ⟨refHeap, false, [.fails, .fresh []]⟩).toOption.map (fun p => (p.1, p.2.err)) = some (some 6, true) := by
  decide

/-! ## Functions that break the rules -/

/-- **C60** (wrapping a container): if an object is returned then the counts are exact.  Missing: the
object that was created is lost when its `dtype` cannot be found, see `C60_create_leak`. -/
theorem C60_create_partial (imported hasType : Bool) (type : Nat) (s : State) (owned : Owned)
    (hx : Exact s.heap owned) (ht : 0 < owned type) :
    ∃ r s', createWrapper imported hasType type s = .ok (r, s') ∧ s'.err = (s.err || r.isNone) ∧
      (r ≠ none → Exact s'.heap (owned.plus r)) := by
  obtain ⟨r, s', e, f, l, x, hl⟩ := createWrapper_ok imported hasType hx ht
  refine ⟨r, s', e, f, fun hr => ?_⟩
  have : l = none := hl (by cases r <;> simp_all)
  rw [this, plus_none] at x
  exact x

example : 0 < refOwned 3 ∧
    (createWrapper true true 3 ⟨refHeap, false, [.fresh [], .existing 1]⟩).toOption.map
      (fun p => (p.1, p.2.heap.count 1, p.2.heap.count 6)) = some (some 6, 3, 1) := by decide

/-- A wrapper of a container whose value type NumPy does not know is never freed. -/
theorem C60_create_leak :
    ∃ s', createWrapper true false 3 ⟨refHeap, false, [.fresh []]⟩ = .ok (none, s') ∧
      s'.heap.count 6 = 1 ∧ holders s'.heap 6 = 0 ∧ ¬ Exact s'.heap refOwned := by
  refine ⟨⟨refHeap ++ [⟨1, []⟩], true, []⟩, by decide, by decide, by decide, ?_⟩
  intro h
  have := h 6
  revert this
  decide

/-- **C60** (`to_scipy`): every call that returns an object loses the references to the three arrays: the
counts are exact only if those are taken to be owned by somebody, so they are never freed. -/
theorem C60_to_scipy_leak (imported hasType : Bool) (descrs : Nat × Nat × Nat) (s s' : State) (owned : Owned)
    (r : Nat) (hx : Exact s.heap owned) (hl : Lends owned [descrs.1, descrs.2.1, descrs.2.2])
    (hs : toSciPy true imported hasType descrs s = .ok (some r, s')) :
    (∃ a b c : Nat, Exact s'.heap (owned.plusAll [some r, some a, some b, some c])) ∧
      ¬ Exact s'.heap (owned.plus (some r)) := by
  obtain ⟨a, b, c, s1, e1, x1, _⟩ := threeArrays_ok imported hasType hx
    (hl descrs.1 (by simp)) (hl descrs.2.1 (by simp)) (hl descrs.2.2 (by simp))
  simp only [toSciPy, Bool.true_eq_false, if_false, e1, bind, Except.bind] at hs
  cases a with
  | none => simp at hs
  | some a =>
    cases b with
    | none => simp at hs
    | some b =>
      cases c with
      | none => simp at hs
      | some c =>
        simp only [Option.isNone_some, Bool.or_self, Bool.false_eq_true, if_false] at hs
        have x2 := callSciPy_ok x1 (plus_pos (plus_pos (plus_self_pos _ _) _) _)
          (plus_pos (plus_self_pos _ _) _) (plus_self_pos _ _) hs
        refine ⟨⟨a, b, c, ?_⟩, ?_⟩
        · have : owned.plusAll [some r, some a, some b, some c] =
              (((owned.plus (some a)).plus (some b)).plus (some c)).plus (some r) := by
            funext i
            simp only [Owned.plusAll, Owned.plus, List.count_cons, List.count_nil, beq_iff_eq]
            omega
          rw [this]
          exact x2
        · intro h
          have h1 := h a
          have h2 := x2 a
          simp only [plus_apply, if_true] at h1 h2
          omega

example : Lends refOwned [1, 1, 1] ∧
    (toSciPy true true true (1, 1, 1)
      ⟨refHeap, false, [.fresh [], .fresh [], .fresh [], .existing 4, .fresh [], .fresh [6, 7, 8]]⟩).toOption.map
      (fun p => (p.1, [6, 7, 8].map p.2.heap.count, [6, 7, 8].map (holders p.2.heap))) =
    some (some 10, [2, 2, 2], [1, 1, 1]) := ⟨by unfold Lends; decide, by decide⟩

/-- `to_scipy` dereferences null when SciPy is not installed. -/
theorem C60_to_scipy_crash :
    toSciPy true true true (1, 1, 1) ⟨refHeap, false, [.fresh [], .fresh [], .fresh [], .fails]⟩ =
      .error (.ub .dangling) := by decide

/-- The end of a program that has added `pylvarray` to its own module: the module and the table of imported
modules are dropped. -/
def endOfProgram (module modules : Nat) (s : State) : R State := do
  let s ← xdecref (some module) s
  xdecref (some modules) s

/-- `addPyLvArrayModule` releases a reference it has given away: afterwards the module `pylvarray` is stored
twice with a count of one, and it is used after it was freed at the end of the program. -/
theorem C60_addModule_dangling :
    ∃ s', addPyLvArrayModule 3 ⟨refHeap, false, [.existing 4, .fresh []]⟩ = .ok (true, s') ∧
      s'.heap.count 4 = 1 ∧ holders s'.heap 4 = 2 ∧ endOfProgram 3 5 s' = .error (.ub .dangling) := by
  refine ⟨_, rfl, by decide, by decide, by decide⟩

/-- **C60** (lists of strings): the counts are exact if the function returns.  Missing: an exception may be
left set although a list is returned, and a null list is dereferenced, see `C60_strings_error`. -/
theorem C60_strings_partial (n : Nat) (s s' : State) (owned : Owned) (r : Option Nat)
    (hx : Exact s.heap owned) (hs : createPyListOfStrings n s = .ok (r, s')) :
    Exact s'.heap (owned.plus r) := by
  obtain ⟨r1, s1, e1, x1, _⟩ := newRef_ok hx lends_nil
  rw [List.map_nil] at e1
  simp only [createPyListOfStrings, e1, bind, Except.bind] at hs
  cases r1 with
  | some l =>
    obtain ⟨s2, e2, x2⟩ := fillStrings_ok n s1 _ x1 (plus_self_pos owned l)
    simp only [e2, Except.ok.injEq, Prod.mk.injEq] at hs
    rw [← hs.1, ← hs.2]
    exact x2
  | none =>
    cases n with
    | zero =>
      simp only [fillStrings, Except.ok.injEq, Prod.mk.injEq] at hs
      rw [← hs.1, ← hs.2]
      exact x1
    | succ n =>
      exfalso
      rw [plus_none] at x1
      obtain ⟨r2, s2, e2, _, _⟩ := newRef_ok x1 lends_nil
      rw [List.map_nil] at e2
      simp [fillStrings, e2, store, use, bind, Except.bind] at hs

/-- A string that is not valid UTF-8 gives a list with an exception set; no memory for the list is undefined
behaviour. -/
theorem C60_strings_error :
    (createPyListOfStrings 1 ⟨refHeap, false, [.fresh [], .fails]⟩).toOption.map
      (fun p => (p.1, p.2.err)) = some (some 6, true) ∧
    createPyListOfStrings 1 ⟨refHeap, false, [.fails]⟩ = .error (.ub .dangling) := by decide

/-! ## PyObjectRef -/

/-- No operation of the program assigns a `PyObjectRef` to a `PyObjectRef` that is not null. -/
def NoOverwrite : List RefOp → Vars → State → Prop
  | [], _, _ => True
  | op :: rest, v, s =>
    (match op with
      | .assign i _ => v.get i = none
      | .assignMove i _ => v.get i = none
      | _ => True) ∧
    ∀ v' s', op.run v s = .ok (v', s') → NoOverwrite rest v' s'

theorem runRefs_ok : ∀ (ops : List RefOp) (v : Vars) (s : State) (owned : Owned), NoOverwrite ops v s →
    Exact s.heap (owned.plusAll v.owns) →
    ∃ v' s', runRefs ops v s = .ok (v', s') ∧ Exact s'.heap (owned.plusAll v'.owns)
  | [], v, s, owned, _, hx => ⟨v, s, rfl, hx⟩
  | op :: ops, v, s, owned, hn, hx => by
    obtain ⟨v1, s1, e1, x1⟩ := refOp_ok op (by
      have := hn.1
      cases op <;> simp only [RefOp.fine] <;> first | exact this | trivial) hx
    obtain ⟨v2, s2, e2, x2⟩ := runRefs_ok ops v1 s1 owned (hn.2 v1 s1 e1) x1
    refine ⟨v2, s2, ?_, x2⟩
    rw [runRefs, e1]
    simp only [bind, Except.bind, e2]

/-- **C60** (`PyObjectRef`): for every sequence of constructions, copies, moves, assignments, releases and
destructions in which no `PyObjectRef` is assigned to one that refers to an object, once all variables are
destroyed the counts are as before, up to the references that were released on purpose.  Missing: those
assignments, see `C60_assign_leak`. -/
theorem C60_refs_partial (ops : List RefOp) (s : State) (owned : Owned) (hn : NoOverwrite ops ⟨[], []⟩ s)
    (hx : Exact s.heap owned) :
    ∃ v s' s'', runRefs ops ⟨[], []⟩ s = .ok (v, s') ∧ dropAll v.vars s' = .ok s'' ∧
      Exact s''.heap (owned.plusAll v.out) := by
  obtain ⟨v, s1, e1, x1⟩ := runRefs_ok ops ⟨[], []⟩ s owned hn (by
    change Exact s.heap (owned.plusAll [])
    rw [plusAll_nil]
    exact hx)
  obtain ⟨s2, e2, x2, _⟩ := dropAll_ok v.vars s1 (owned.plusAll v.out) (by
    have : (owned.plusAll v.out).plusAll v.vars = owned.plusAll v.owns := by
      funext i
      simp only [Owned.plusAll, Vars.owns, List.count_append]
      omega
    rw [this]
    exact x1)
  exact ⟨v, s1, s2, e1, e2, x2⟩

/-- A program with two new references, a copy, a move, an assignment of a new reference, and a release. -/
def refProgram : List RefOp := [.own, .own, .copy 0, .move 1, .assignNew 0, .assign 1 2, .release 3, .destroy 2]

example : NoOverwrite refProgram ⟨[], []⟩ ⟨refHeap, false, [.fresh [], .existing 4, .fresh [1]]⟩ := by
  unfold refProgram
  refine ⟨trivial, fun v s e => ?_⟩
  cases e
  refine ⟨trivial, fun v s e => ?_⟩
  cases e
  refine ⟨trivial, fun v s e => ?_⟩
  cases e
  refine ⟨trivial, fun v s e => ?_⟩
  cases e
  refine ⟨trivial, fun v s e => ?_⟩
  cases e
  refine ⟨rfl, fun v s e => ?_⟩
  cases e
  refine ⟨trivial, fun v s e => ?_⟩
  cases e
  exact ⟨trivial, fun v s e => trivial⟩

/-- `a = b` for two `PyObjectRef`s that own references leaks the object of `a`; so do `a = std::move( b )`
and `a = std::move( a )`. -/
theorem C60_assign_leak :
    ∀ ops ∈ [[RefOp.own, .own, .assign 0 1], [.own, .own, .assignMove 0 1], [.own, .assignMove 0 0]],
      ∃ v s' s'', runRefs ops ⟨[], []⟩ ⟨refHeap, false, [.fresh [], .fresh []]⟩ = .ok (v, s') ∧
        dropAll v.vars s' = .ok s'' ∧ v.out = [] ∧ s''.heap.count 6 = 1 ∧ holders s''.heap 6 = 0 := by
  intro ops h
  simp only [List.mem_cons, List.not_mem_nil, or_false] at h
  rcases h with rfl | rfl | rfl
  · exact ⟨⟨[some 7, some 7], []⟩, ⟨refHeap ++ [⟨1, []⟩, ⟨2, []⟩], false, []⟩,
      ⟨refHeap ++ [⟨1, []⟩, ⟨0, []⟩], false, []⟩, by decide, by decide, rfl, by decide, by decide⟩
  · exact ⟨⟨[some 7, none], []⟩, ⟨refHeap ++ [⟨1, []⟩, ⟨1, []⟩], false, []⟩,
      ⟨refHeap ++ [⟨1, []⟩, ⟨0, []⟩], false, []⟩, by decide, by decide, rfl, by decide, by decide⟩
  · exact ⟨⟨[none], []⟩, ⟨refHeap ++ [⟨1, []⟩], false, [.fresh []]⟩,
      ⟨refHeap ++ [⟨1, []⟩], false, [.fresh []]⟩, by decide, by decide, rfl, by decide, by decide⟩

end LvArray.Props

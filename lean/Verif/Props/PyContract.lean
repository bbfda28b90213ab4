import Verif.PyArr
import Verif.PySets
import Verif.PyScipy
import Verif.PySafe
import Verif.Props.PyAccess
import Verif.Props.ArrayOfArrays
import Verif.Props.ArrayOfSets
import Verif.Props.SortedSet
import Verif.Props.Sparse

/-!
# C53, C54, C55: Python programs

C53: a Python program that keeps to the contract gets from a wrapped container what the mathematical container of
`Spec/Python.lean` gives it, and leaves the container in the state the specification says.  C54: `to_scipy`.  C55: which programs
cannot crash, and ways to crash.

The element types that have a NumPy type are trivially copyable, hence `c.trivial = true`.
-/

namespace LvArray.Props

open Spec Python

/-! ### C53 -/

/-- **C53 (ArrayOfArrays).** Let `a` be an `ArrayOfArrays` after any legal history.  For every Python program within the contract
(the specification is defined), the program runs to its end without undefined behaviour and without aborting, every call returns
the value or raises the exception of the specification on lists of lists, every element read from an array has the value the
container has at that time, and afterwards C++ sees the contents the specification says. -/
theorem C53_arrayOfArrays {T : Type} [Inhabited T] (c : Cfg) (ht : c.trivial = true) (a : AoA T) (L : List (List T × Nat))
    (h : Reach c a L) (ops : List (Op (arrayOfArrays T))) (p : PyObj (pyRows T c.debug)) (outs)
    (hs : (pyCreate (pyRows T c.debug) (L.map (·.1))).run ops = some (p, outs)) :
    ∃ o a', (create (arrayOfArrays T) a).run c ops = .ok (o, outs) ∧ o.wrapped = some a' ∧ Shows c a' p.state := by
  obtain ⟨o, a', h1, h2, h3⟩ := (rows_refines ht).run (w := a) ⟨L, reach_good h, rfl⟩ ops hs
  obtain ⟨L', hg, hL⟩ := (h3 : RowsRel a' p.state)
  refine ⟨o, a', h1, h2, ?_⟩
  rw [← hL]
  exact shows_of_good hg

section
variable {T : Type} [LinearOrder T] [Inhabited T]

/-- **C53 (ArrayOfSets).** -/
theorem C53_arrayOfSets (c : Cfg) (ht : c.trivial = true) (a : AoA T) (sets : List (Finset T)) (h : ReachSets c a sets)
    (ops : List (Op (arrayOfSets T))) (p : PyObj (pySets T)) (outs) (hs : (pyCreate (pySets T) sets).run ops = some (p, outs)) :
    ∃ o a', (create (arrayOfSets T) a).run c ops = .ok (o, outs) ∧ o.wrapped = some a' ∧ ShowsSets c a' p.state := by
  obtain ⟨o, a', h1, h2, h3⟩ := (sets_refines ht).run (w := a) (reachSets_good h) ops hs
  exact ⟨o, a', h1, h2, showsSets_of_good h3⟩

/-- What the accessors of a `SortedArray` report: the size, the values in increasing order, membership. -/
def ShowsSet (c : Cfg) (a : SortedArr T) (S : Finset T) : Prop :=
  a.size = S.card ∧ (∀ (i : Nat) (hi : i < S.card), a.get c i = .ok ((S.sort (· ≤ ·))[i]'(by simpa using hi))) ∧
    ∀ v, a.contains c v = .ok (decide (v ∈ S))

/-- **C53 (SortedArray).** -/
theorem C53_sortedArray (c : Cfg) (history : List (SetOp T)) (S : Finset T) (results : List (SetOut T))
    (h : Spec.setRun none ∅ history = some (S, results)) (ops : List (Op (sortedArray T))) (p : PyObj (pySorted T)) (outs)
    (hs : (pyCreate (pySorted T) S).run ops = some (p, outs)) :
    ∃ a o a', (SortedArr.init T none).run c history = .ok (a, results) ∧
      (create (sortedArray T) a).run c ops = .ok (o, outs) ∧ o.wrapped = some a' ∧ ShowsSet c a' p.state := by
  obtain ⟨a, e, g⟩ := set_run_good c none history _ ∅ S results (set_init_good none) h
  obtain ⟨o, a', h1, h2, h3⟩ := (sorted_refines (c := c)).run (w := a) g ops hs
  have h3 : SGood none a' p.state := h3
  exact ⟨a, o, a', e, h1, h2, h3.size, fun i hi => SortedArr.get_good c h3 i hi, fun v => SortedArr.contains_good c h3 v⟩

end

/-- **C53 (CRSMatrix).** -/
theorem C53_crsMatrix {V : Type} [Add V] (c : Cfg) (ht : c.trivial = true) (colMax : Nat) (m : Crs V) (M : Spec.Matrix V)
    (h : ReachMatrix c colMax m M) (ops : List (Op (crsMatrix V colMax))) (p : PyObj (pyMatrix V colMax)) (outs)
    (hs : (pyCreate (pyMatrix V colMax) M).run ops = some (p, outs)) :
    ∃ o m', (create (crsMatrix V colMax) m).run c ops = .ok (o, outs) ∧ o.wrapped = some m' ∧ ShowsMatrix c m' p.state := by
  obtain ⟨o, m', h1, h2, h3⟩ := (matrix_refines ht colMax).run (w := m) (reachMatrix_good h) ops hs
  exact ⟨o, m', h1, h2, showsMatrix_of_good h3⟩

/-- What the accessors of an `Array` report: the lengths, the dimension that is resized, and the specified elements. -/
def ShowsBox {T : Type} [Inhabited T] (c : Cfg) (a : ArrayN T) (s : Box T) : Prop :=
  a.dims = s.dims ∧ a.resizeIndex = s.resizeIndex ∧
    ∀ idx x, InBounds s.dims idx → s.elem idx = some x → a.get c idx = .ok x

/-- **C53 (Array).** `a` is any well-formed array on the heap (every history leads to such arrays, `C11_histories`) of any number
of dimensions and any layout. -/
theorem C53_array {T : Type} [Inhabited T] (c : Cfg) (a : ArrayN T) (hw : Wf a) (hk : a.buf.kind = .malloc) (s : Box T)
    (h : ShowsBox c a s) (ops : List (Op (array T))) (p : PyObj (pyArray T)) (outs)
    (hs : (pyCreate (pyArray T) s).run ops = some (p, outs)) :
    ∃ o a', (create (array T) a).run c ops = .ok (o, outs) ∧ o.wrapped = some a' ∧ Wf a' ∧ ShowsBox c a' p.state := by
  obtain ⟨o, a', h1, h2, h3⟩ := (box_refines (c := c)).run (w := a)
    (⟨hw, hk, h.1, h.2.1, fun idx x hi hx => h.2.2 idx x (by rw [← h.1]; exact hi) hx⟩ : BoxRel c a s) ops hs
  have h3 : BoxRel c a' p.state := h3
  exact ⟨o, a', h1, h2, h3.wf, h3.dims, h3.index, fun idx x hi hx => h3.elem idx x (by rw [h3.dims]; exact hi) hx⟩

/-! ### C54 -/

/-- **C54.** `to_scipy` of a matrix after any legal history either raises `RuntimeError`, because the matrix has no rows or some row
has unused capacity, or returns the compressed sparse row form of the matrix. -/
theorem C54_to_scipy {V : Type} [Add V] (c : Cfg) (colMax : Nat) (m : Crs V) (M : Spec.Matrix V) (h : ReachMatrix c colMax m M)
    (level : Int) :
    (toSciPy c level m = .ok (.error .runtimeError) ∧
      (M.rows = [] ∨ ∃ i n k, m.shape.sizeOfArray c i = .ok n ∧ m.shape.capacityOfArray c i = .ok k ∧ n ≠ k)) ∨
    ∃ data indices indptr, toSciPy c level m = .ok (.ok (data, indices, indptr, decide (1 ≤ level))) ∧
      IsCsr M data indices indptr := by
  obtain ⟨L, hg, hL, h1⟩ := toSciPy_ok (c := c) (reachMatrix_good h) level
  rcases h1 with ⟨h1, h2⟩ | ⟨-, -, d, i, q, h1, h2⟩
  · refine .inl ⟨h1, h2.imp_right ?_⟩
    rintro ⟨r, hr, hne⟩
    obtain ⟨i, hi, rfl⟩ := List.mem_iff_getElem.1 hr
    exact ⟨i, _, _, hg.shape.sizeOf' hi, hg.shape.capacityOf' hi, hne⟩
  · exact .inr ⟨d, i, q, h1, h2⟩

/-- **C54 (after compress).** After `compress`, `to_scipy` returns the compressed sparse row form of every matrix with a row. -/
theorem C54_after_compress {V : Type} [Add V] (c : Cfg) (colMax : Nat) (m : Crs V) (M : Spec.Matrix V)
    (h : ReachMatrix c colMax m M) (hr : M.rows ≠ []) (level : Int) :
    ∃ m' data indices indptr, m.compress c = .ok m' ∧
      toSciPy c level m' = .ok (.ok (data, indices, indptr, decide (1 ≤ level))) ∧ IsCsr M data indices indptr := by
  have hg := reachMatrix_good h
  obtain ⟨L, hL1, hL2⟩ := hg.rows
  obtain ⟨m', h1, h2, h3⟩ := hL1.compress (c := c)
  have hg' : CrsGood m' M := ⟨h2.trans hg.cols, ⟨_, h3, by rw [← hL2]; simp [LShape.tight, Function.comp_def]⟩, hg.inRange⟩
  obtain ⟨L', hL', -, h4⟩ := toSciPy_ok (c := c) hg' level
  rcases h4 with ⟨-, h5⟩ | ⟨-, -, d, i, q, h5, h6⟩
  · exfalso
    rcases h5 with h5 | ⟨r, hr', hne⟩
    · exact hr h5
    · obtain ⟨i, hi, rfl⟩ := List.mem_iff_getElem.1 hr'
      have e : L'.length = (L.map LShape.tight).length := by rw [← hL'.shape.num, h3.shape.num]
      have s1 := hL'.shape.sizeOf' (c := c) hi
      rw [h3.shape.sizeOf' (by omega)] at s1
      have s2 := hL'.shape.capacityOf' (c := c) hi
      rw [h3.shape.capacityOf' (by omega)] at s2
      have s1 := Except.ok.inj s1
      have s2 := Except.ok.inj s2
      rw [← s1, ← s2] at hne
      simp [LShape.tight] at hne
  · exact ⟨m', d, i, q, h1, h5, h6⟩

/-! ### C55 -/

/-- A program that takes care: whenever it has come to some step, with results `outs` so far and a container that shows `s`, it does not
use an array that was obtained before a resizing call, and it does not make a call that is bad for a container with contents `s`
(at a lower access level than `RESIZEABLE` the calls in question raise). -/
def Careful {T S : Type} {K : Class T} (c : Cfg) (w₀ : K.W) (Shows : K.W → S → Prop) (Resizes : K.M → Prop) (Bad : S → K.M → Prop)
    (ops : List (Op K)) : Prop :=
  ∀ before op rest o outs w s, ops = before ++ op :: rest → (create K w₀).run c before = .ok (o, outs) → o.wrapped = some w →
    Shows w s → (∀ k, usesArray k op → ¬ Stale Resizes before outs k) ∧ ∀ m, op = .call m → 2 ≤ o.level → ¬ Bad s m

theorem careful_safe {T S : Type} {K : Class T} {A : PyClass K} {c : Cfg} {Rel : K.W → A.S → Prop} {Val : K.W → Window → A.P → Prop}
    {Shows : K.W → S → Prop} {Resizes : K.M → Prop} {Bad : S → K.M → Prop} (hR : Refines c A Rel Val) (hread : Readable A Rel Val)
    (hch : ∀ level s m s' o, A.call level s m = some (.changes false s' o) → Resizes m)
    (hbad : ∀ level w s m, Rel w s → A.call level s m = none → ∃ s', Shows w s' ∧ 2 ≤ level ∧ Bad s' m)
    {w : K.W} {s : A.S} (h : Rel w s) {ops : List (Op K)} (hc : Careful c w Shows Resizes Bad ops)
    (hshow : ∀ w s, Rel w s → ∃ s', Shows w s') : ∃ r, (create K w).run c ops = .ok r := by
  rcases hR.safe hread hch h ops with h1 | ⟨pre, op, post, o, outs, w', s', h1, h2, h3, h4, h5⟩
  · exact h1
  · rcases h5 with ⟨k, h5, h6⟩ | ⟨m, rfl, h5⟩
    · obtain ⟨s'', h7⟩ := hshow _ _ h4
      exact absurd h6 ((hc _ _ _ _ _ _ _ h1 h2 h3 h7).1 k h5)
    · obtain ⟨s'', h7, h8, h9⟩ := hbad _ _ _ _ h4 h5
      exact absurd h9 ((hc _ _ _ _ _ _ _ h1 h2 h3 h7).2 m rfl h8)

theorem resizing_none {S P O : Type} {level : Int} {r : Option (PyOut S P O)} (h : resizing level r = none) : 2 ≤ level ∧ r = none := by
  unfold resizing at h
  split at h
  · cases h
  · exact ⟨by omega, h⟩

theorem resizing_changes {S P O : Type} {level : Int} {r : Option (PyOut S P O)} {k s o}
    (h : resizing level r = some (.changes k s o)) : r = some (.changes k s o) := by
  unfold resizing at h
  split at h
  · cases h
  · exact h

theorem nth_ne {X : Type} (xs : List X) (idx : List Int) : nth xs idx ≠ some none := by
  intro h
  obtain ⟨j, -, hj, he⟩ := nth_some h
  cases he

/-- Methods of `ArrayOfArrays` that resize. -/
def rowsResizes {T : Type} : ArrayOfArraysM T → Prop
  | .delItem _ | .insertInto _ _ _ | .insert _ _ | .eraseFrom _ _ => True
  | _ => False

/-- In debug builds: inserting nothing into an array. -/
def rowsBad {T : Type} (debug : Bool) (_ : List (List T)) : ArrayOfArraysM T → Prop
  | .insertInto _ _ (some vs) => debug = true ∧ vs = []
  | _ => False

/-- **C55 (ArrayOfArrays).** A Python program that does not use arrays that were obtained before a resizing call cannot crash: whatever
the arguments, it runs to its end.  (In debug builds it may not insert nothing.) -/
theorem C55_arrayOfArrays_partial {T : Type} [Inhabited T] (c : Cfg) (ht : c.trivial = true) (a : AoA T) (L : List (List T × Nat))
    (h : Reach c a L) (ops : List (Op (arrayOfArrays T)))
    (hc : Careful (K := arrayOfArrays T) c a (Shows c) rowsResizes (rowsBad c.debug) ops) :
    ∃ r, (create (arrayOfArrays T) a).run c ops = .ok r := by
  refine careful_safe (rows_refines ht) ((rows_refines ht).readable fun _ _ _ => nth_ne _ _) ?_ ?_ (s := (L.map (·.1) : List (List T)))
    ⟨L, reach_good h, rfl⟩ hc ?_
  · intro level (rows : List (List T)) (m : ArrayOfArraysM T) rows' o hm
    have hm : pyRowsCall c.debug level rows m = _ := hm
    cases m with
    | len => cases hm
    | getItem i => simp only [pyRowsCall] at hm; split at hm <;> cases hm
    | setItem i => simp only [pyRowsCall] at hm; cases resizing_changes hm
    | delItem | insertInto | insert | eraseFrom => trivial
  · intro level (w : AoA T) (rows : List (List T)) (m : ArrayOfArraysM T) hr hm
    have hm : pyRowsCall c.debug level rows m = _ := hm
    obtain ⟨L', hg, hL⟩ := (hr : RowsRel w rows)
    refine ⟨rows, by rw [← hL]; exact shows_of_good hg, ?_⟩
    cases m with
    | len => cases hm
    | getItem i => simp only [pyRowsCall] at hm; split at hm <;> cases hm
    | setItem i => cases (resizing_none hm).2
    | delItem i => have := (resizing_none hm).2; split at this <;> cases this
    | eraseFrom i j => have := (resizing_none hm).2; simp only at this; split at this <;> cases this
    | insert i vs => have := (resizing_none hm).2; split at this <;> cases vs <;> cases this
    | insertInto i j vs =>
      obtain ⟨h1, h2⟩ := resizing_none hm
      refine ⟨h1, ?_⟩
      simp only at h2
      split at h2
      · cases vs with
        | none => cases h2
        | some vs =>
          simp only at h2
          split at h2
          · assumption
          · cases h2
      · cases h2
  · intro (w : AoA T) (rows : List (List T)) hr
    obtain ⟨L', hg, hL⟩ := (hr : RowsRel w rows)
    exact ⟨rows, by rw [← hL]; exact shows_of_good hg⟩

section
variable {T : Type} [LinearOrder T] [Inhabited T]

/-- Methods of `ArrayOfSets` that resize. -/
def setsResizes : ArrayOfSetsM T → Prop
  | .delItem _ | .insertInto _ _ | .insert _ _ | .eraseFrom _ _ => True
  | _ => False

/-- Values that are not strictly increasing. -/
def setsBad (_ : List (Finset T)) : ArrayOfSetsM T → Prop
  | .insertInto _ (some vs) | .eraseFrom _ (some vs) => ¬ vs.Pairwise (· < ·)
  | _ => False

/-- **C55 (ArrayOfSets).** A Python program that passes strictly increasing values and does not use arrays that were obtained before a
resizing call cannot crash. -/
theorem C55_arrayOfSets_partial (c : Cfg) (ht : c.trivial = true) (a : AoA T) (sets : List (Finset T)) (h : ReachSets c a sets)
    (ops : List (Op (arrayOfSets T))) (hc : Careful (K := arrayOfSets T) c a (ShowsSets c) setsResizes setsBad ops) :
    ∃ r, (create (arrayOfSets T) a).run c ops = .ok r := by
  refine careful_safe (sets_refines ht) ((sets_refines ht).readable fun _ _ _ => nth_ne _ _) ?_ ?_ (reachSets_good h) hc ?_
  · intro level (sets : List (Finset T)) (m : ArrayOfSetsM T) sets' o hm
    have hm : pySetsCall level sets m = _ := hm
    cases m with
    | len => cases hm
    | getItem i => simp only [pySetsCall] at hm; split at hm <;> cases hm
    | setItem i => simp only [pySetsCall] at hm; cases resizing_changes hm
    | delItem | insertInto | insert | eraseFrom => trivial
  · intro level (w : AoA T) (sets : List (Finset T)) (m : ArrayOfSetsM T) hr hm
    have hm : pySetsCall level sets m = _ := hm
    refine ⟨sets, showsSets_of_good hr, ?_⟩
    cases m with
    | len => cases hm
    | getItem i => simp only [pySetsCall] at hm; split at hm <;> cases hm
    | setItem i => cases (resizing_none hm).2
    | delItem i => have := (resizing_none hm).2; split at this <;> cases this
    | insert i n =>
      have := (resizing_none hm).2
      split at this
      · split at this <;> cases this
      · cases this
    | insertInto i vs | eraseFrom i vs =>
      obtain ⟨h1, h2⟩ := resizing_none hm
      refine ⟨h1, ?_⟩
      split at h2
      · cases vs with
        | none => cases h2
        | some vs =>
          simp only at h2
          split at h2
          · cases h2
          · assumption
      · cases h2
  · intro (w : AoA T) (sets : List (Finset T)) hr
    exact ⟨sets, showsSets_of_good hr⟩

/-- Methods of `SortedArray` that resize. -/
def sortedResizes : SortedArrayM T → Prop
  | .insert _ | .remove _ => True
  | _ => False

/-- Values that are not strictly increasing. -/
def sortedBad (_ : Finset T) : SortedArrayM T → Prop
  | .insert (some vs) | .remove (some vs) => ¬ vs.Pairwise (· < ·)
  | _ => False

omit [Inhabited T] in
theorem showsSet_of_good {c : Cfg} {a : SortedArr T} {S : Finset T} (h : SGood none a S) : ShowsSet c a S :=
  ⟨h.size, fun i hi => SortedArr.get_good c h i hi, fun v => SortedArr.contains_good c h v⟩

/-- **C55 (SortedArray).** A Python program that passes strictly increasing values and does not use arrays that were obtained before a
resizing call cannot crash. -/
theorem C55_sortedArray_partial (c : Cfg) (history : List (SetOp T)) (S : Finset T) (results : List (SetOut T))
    (h : Spec.setRun none ∅ history = some (S, results)) :
    ∃ a, (SortedArr.init T none).run c history = .ok (a, results) ∧ ∀ ops : List (Op (sortedArray T)),
      Careful (K := sortedArray T) c a (ShowsSet c) sortedResizes sortedBad ops → ∃ r, (create (sortedArray T) a).run c ops = .ok r := by
  obtain ⟨a, e, g⟩ := set_run_good c none history _ ∅ S results (set_init_good none) h
  refine ⟨a, e, fun ops hc => ?_⟩
  refine careful_safe (sorted_refines (c := c)) ((sorted_refines (c := c)).readable fun _ _ _ => nth_ne _ _) ?_ ?_ (s := (S : Finset T)) g hc ?_
  · intro level (S : Finset T) (m : SortedArrayM T) S' o hm
    have hm : pySortedCall level S m = _ := hm
    cases m with
    | toNumPy => cases hm
    | insert | remove => trivial
  · intro level (w : SortedArr T) (S : Finset T) (m : SortedArrayM T) hr hm
    have hm : pySortedCall level S m = _ := hm
    refine ⟨S, showsSet_of_good hr, ?_⟩
    cases m with
    | toNumPy => cases hm
    | insert vs | remove vs =>
      cases vs with
      | none => cases (resizing_none hm).2
      | some vs =>
        obtain ⟨h1, h2⟩ := resizing_none hm
        refine ⟨h1, ?_⟩
        split at h2
        · cases h2
        · assumption
  · intro (w : SortedArr T) (S : Finset T) hr
    exact ⟨S, showsSet_of_good hr⟩

end

/-- Methods of `Array` that resize. -/
def arrayResizes : ArrayM → Prop
  | .resize _ | .resizeAll _ => True
  | _ => False

/-- `resize_all` with a negative length. -/
def arrayBad (_ : List Nat) : ArrayM → Prop
  | .resizeAll (some lengths) => ∃ n ∈ lengths, n < 0
  | _ => False

/-- **C55 (Array).** A Python program that does not call `resize_all` with a negative length and does not use arrays that were obtained
before a resizing call cannot crash. -/
theorem C55_array_partial {T : Type} [Inhabited T] (c : Cfg) (a : ArrayN T) (hw : Wf a) (hk : a.buf.kind = .malloc)
    (ops : List (Op (array T)))
    (hc : Careful (K := array T) c a (fun (a : ArrayN T) dims => a.dims = dims) arrayResizes arrayBad ops) :
    ∃ r, (create (array T) a).run c ops = .ok r := by
  refine careful_safe (box_refines (c := c)) ?_ ?_ ?_
    (s := ({ dims := a.dims, resizeIndex := a.resizeIndex, elem := fun _ => none } : Box T))
    (⟨hw, hk, rfl, rfl, fun _ _ _ h => by cases h⟩ : BoxRel c a _) hc ?_
  · intro (w : ArrayN T) (s : Box T) win _ idx x hr hv hg
    have hr : BoxRel c w s := hr
    obtain ⟨h1, -⟩ := (box_refines (c := c)).read hr hv hg
    rw [hv.2.1, inside_iff] at h1
    obtain ⟨xs, hrep, hxs⟩ := hr.wf.data
    obtain ⟨-, hrange, -, -⟩ := C01_bijection c w.perm w.dims hr.wf.perm hr.wf.len
    obtain ⟨m, hm, hm0, hm1⟩ := hrange idx h1
    have e := view_call (c := c) hr.wf h1
    rw [hr.wf.view, hm] at e
    have e : m = ((offset w.strides idx : Nat) : Int) := Except.ok.inj e
    have hlt : offset w.strides idx < xs.length := by omega
    refine ⟨xs[offset w.strides idx], ?_⟩
    rw [hv.1, hv.2.2, Nat.zero_add]
    show w.buf.read _ = _
    unfold Buf.read
    rw [if_pos (by have := hrep.2; omega), hrep.1, cellsOf_lt hlt]
  · intro level (s : Box T) (m : ArrayM) s' o hm
    have hm : pyArrayCall level s m = _ := hm
    cases m with
    | getResizeIndex | toNumPy => cases hm
    | setResizeIndex d => have := resizing_changes hm; split at this <;> cases this
    | resize | resizeAll => trivial
  · intro level (w : ArrayN T) (s : Box T) (m : ArrayM) hr hm
    have hm : pyArrayCall level s m = _ := hm
    refine ⟨w.dims, rfl, ?_⟩
    cases m with
    | getResizeIndex | toNumPy => cases hm
    | setResizeIndex d => have := (resizing_none hm).2; split at this <;> cases this
    | resize d => have := (resizing_none hm).2; split at this <;> cases this
    | resizeAll ds =>
      cases ds with
      | none => cases (resizing_none hm).2
      | some ds =>
        obtain ⟨h1, h2⟩ := resizing_none hm
        refine ⟨h1, ?_⟩
        split at h2
        · cases h2
        · split at h2
          · assumption
          · cases h2
  · intro w s hr
    exact ⟨_, rfl⟩

/-- Methods of `CRSMatrix` that resize. -/
def matrixResizes {V : Type} : CrsM V → Prop
  | .resize _ _ _ | .compress | .insertNonZeros _ _ _ | .removeNonZeros _ _ => True
  | _ => False

/-- Columns that are not strictly increasing, or not in range, or not present where something is added, more values than columns;
fewer columns than an entry that stays needs, or more columns than their type has values. -/
def matrixBad {V : Type} (colMax : Nat) (M : Spec.Matrix V) : CrsM V → Prop
  | .resize r n _ => n > (colMax : Int) + 1 ∨ ∃ (i : Nat) (f : Nat → Option V) (k : Nat), (i : Int) < r ∧ M.rows[i]? = some f ∧ (f k).isSome ∧ n ≤ k
  | .insertNonZeros _ (some ks) _ => ¬ ks.Pairwise (· < ·) ∨ ∃ k ∈ ks, M.numCols ≤ k
  | .removeNonZeros _ (some ks) => ¬ ks.Pairwise (· < ·)
  | .addToRow i (some ks) (some vs) => ks.length ≠ vs.length ∨ ∃ f, M.rows[i.toNat]? = some f ∧ ∃ k ∈ ks, f k = none
  | _ => False

/-- **C55 (CRSMatrix).** A Python program that passes strictly increasing columns in range, adds to entries that exist, does not cut off
entries when it resizes, and does not use arrays that were obtained before a resizing call, cannot crash. -/
theorem C55_crsMatrix_partial {V : Type} [Add V] (c : Cfg) (ht : c.trivial = true) (colMax : Nat) (m : Crs V) (M : Spec.Matrix V)
    (h : ReachMatrix c colMax m M) (ops : List (Op (crsMatrix V colMax)))
    (hc : Careful (K := crsMatrix V colMax) c m (ShowsMatrix c) matrixResizes (matrixBad colMax) ops) :
    ∃ r, (create (crsMatrix V colMax) m).run c ops = .ok r := by
  refine careful_safe (matrix_refines ht colMax) ((matrix_refines ht colMax).readable fun _ _ _ => nth_ne _ _) ?_ ?_
    (reachMatrix_good h) hc ?_
  · intro level (s : Spec.Matrix V) (f : CrsM V) s' o hm
    have hm : pyMatrixCall colMax level s f = _ := hm
    cases f with
    | numRows | numColumns => cases hm
    | getColumns i | getEntries i => simp only [pyMatrixCall] at hm; split at hm <;> cases hm
    | resize | compress | insertNonZeros | removeNonZeros => trivial
    | addToRow i ks vs =>
      match ks, vs with
      | none, _ | some _, none => cases resizing_changes hm
      | some ks, some vs =>
        have := resizing_changes hm
        split at this
        · cases this
        · simp only at this
          split at this <;> cases this
  · intro level (w : Crs V) (s : Spec.Matrix V) (f : CrsM V) hr hm
    have hm : pyMatrixCall colMax level s f = _ := hm
    refine ⟨s, showsMatrix_of_good hr, ?_⟩
    cases f with
    | numRows | numColumns => cases hm
    | getColumns i | getEntries i => simp only [pyMatrixCall] at hm; split at hm <;> cases hm
    | compress => cases (resizing_none hm).2
    | resize r n k =>
      obtain ⟨h1, h2⟩ := resizing_none hm
      refine ⟨h1, ?_⟩
      split at h2
      · cases h2
      · rename_i hneg
        split at h2
        · cases h2
        · rename_i hb
          by_cases hn : n ≤ (colMax : Int) + 1
          · refine .inr ?_
            apply Classical.byContradiction
            intro hx
            refine hb ⟨hn, fun f hf k hk => ?_⟩
            rw [List.mem_take_iff_getElem] at hf
            obtain ⟨i, hi, rfl⟩ := hf
            have hk2 : (s.rows[i] k).isSome = true := (List.mem_filter.1 hk).2
            exact Int.not_le.1 fun hle => hx ⟨i, _, k, by omega, List.getElem?_eq_getElem (by omega), hk2, hle⟩
          · exact .inl (by omega)
    | insertNonZeros i ks es =>
      match ks, es with
      | none, _ | some _, none => cases (resizing_none hm).2
      | some ks, some es =>
        obtain ⟨h1, h2⟩ := resizing_none hm
        refine ⟨h1, ?_⟩
        split at h2
        · cases h2
        · split at h2
          · cases h2
          · rename_i hb
            by_cases hp : ks.Pairwise (· < ·)
            · refine .inr ?_
              apply Classical.byContradiction
              intro hx
              exact hb ⟨hp, fun k hk => Nat.not_le.1 fun hle => hx ⟨k, hk, hle⟩⟩
            · exact .inl hp
    | removeNonZeros i ks =>
      cases ks with
      | none => cases (resizing_none hm).2
      | some ks =>
        obtain ⟨h1, h2⟩ := resizing_none hm
        refine ⟨h1, ?_⟩
        split at h2
        · cases h2
        · split at h2
          · cases h2
          · assumption
    | addToRow i ks vs =>
      match ks, vs with
      | none, _ | some _, none => cases (resizing_none hm).2
      | some ks, some vs =>
        obtain ⟨h1, h2⟩ := resizing_none hm
        refine ⟨h1, ?_⟩
        split at h2
        · cases h2
        · rename_i hi
          have hi := Decidable.not_not.1 hi
          simp only at h2
          split at h2
          · cases h2
          · rename_i hb
            by_cases hl : ks.length = vs.length
            · refine .inr ?_
              have hlt : i.toNat < s.rows.length := by have := hi.1; have := hi.2; omega
              refine ⟨s.rows[i.toNat], List.getElem?_eq_getElem hlt, ?_⟩
              apply Classical.byContradiction
              intro hx
              refine hb ⟨hl, fun k hk => ?_⟩
              rw [List.getD_eq_getElem?_getD, List.getElem?_eq_getElem hlt, Option.getD_some]
              exact Option.isSome_iff_ne_none.2 fun hn => hx ⟨k, hk, hn⟩
            · exact .inl hl
  · intro (w : Crs V) (s : Spec.Matrix V) hr
    exact ⟨s, showsMatrix_of_good hr⟩

/-! ### Ways to crash, and other disagreements -/

/-- The release build and the debug build. -/
private abbrev rel : Cfg := { trivial := true, boundsCheck := false, debug := false }
private abbrev dbg : Cfg := { trivial := true, boundsCheck := true, debug := true }

/-- Run a program on an object made by `mk` and look at the result. -/
private def after {T : Type} {K : Class T} {A : Type} (c : Cfg) (mk : R K.W) (ops : List (Op K)) (look : K.W → R A) : R (Option A) := do
  let w ← mk
  let r ← (create K w).run c ops
  match r.1.wrapped with
  | none => .ok none
  | some w => do
    let x ← look w
    .ok (some x)

/-- The exceptions a program sees. -/
private def exceptions {T : Type} {K : Class T} (c : Cfg) (mk : R (Obj K)) (ops : List (Op K)) : R (List (Option Exn)) := do
  let o ← mk
  let r ← o.run c ops
  .ok (r.2.map fun
    | .error e => some e
    | .ok _ => none)

/-- **C55, disagreement.** `SortedArray.insert` of values that are not sorted does not raise: the array is not sorted afterwards and
does not find a value it holds; a debug build aborts the process. -/
theorem C55_unsorted_insert :
    after (K := sortedArray Nat) rel (.ok (SortedArr.init Nat none))
      [.setAccessLevel 2 none, .call (.insert (some [3, 2, 1]))]
      (fun a => do
        let x ← a.get rel 0
        let y ← a.get rel 1
        let b ← a.contains rel 1
        .ok (x, y, b)) = .ok (some (3, 2, false)) ∧
    after (K := sortedArray Nat) dbg (.ok (SortedArr.init Nat none))
      [.setAccessLevel 2 none, .call (.insert (some [3, 2, 1]))] (fun a => .ok a.size) = .error .abort := by
  decide +kernel

/-- **C55, disagreement.** `CRSMatrix.insert_nonzeros` accepts columns the matrix does not have. -/
theorem C55_column_out_of_range :
    after (K := crsMatrix Nat 100) rel (Crs.mk' rel 100 1 4 2)
      [.setAccessLevel 2 none, .call (.insertNonZeros 0 (some [9]) (some [5]))]
      (fun m => do let k ← m.getColumn rel 0 0; .ok (m.numCols, k)) = .ok (some (4, 9)) := by
  decide +kernel

/-- **C55, disagreement.** `CRSMatrix.add_to_row` with fewer columns than values reads past the end of the columns. -/
theorem C55_add_to_row_lengths :
    after (K := crsMatrix Nat 100) rel (do let m ← Crs.mk' rel 100 1 4 2; let r ← m.insertNonZero rel true 0 2 7; .ok r.1)
      [.setAccessLevel 2 none, .call (.addToRow 0 (some [2]) (some [5, 6]))] (fun m => .ok m.numCols)
      = .error (.ub .outOfBounds) := by
  decide +kernel

/-- **C55, disagreement.** An array obtained before the container grows refers to released memory. -/
theorem C55_stale_array :
    after (K := arrayOfArrays Nat) dbg (do let a ← AoA.mk' dbg 1 2; a.emplaceBack dbg 0 7)
      [.setAccessLevel 2 none, .call (.getItem 0), .call (.insertInto 0 0 (some [1, 2, 3])), .read 0 [0]] (fun _ => .ok ())
      = .error (.ub .dangling) := by
  decide +kernel

/-- **C55, disagreement.** `Array.resize_all` with a negative length aborts the process. -/
theorem C55_resize_all_negative :
    after (K := array Nat) dbg ((ArrayN.init Nat [0, 1]).resize dbg [2, 3] 0)
      [.setAccessLevel 2 none, .call (.resizeAll (some [-1, 2]))] (fun _ => .ok ()) = .error .abort := by
  decide +kernel

/-- **C55, disagreement.** `pylvarray.ArrayOfArrays()` is an object without a container; `len` raises, the methods that resize use
a null pointer. -/
theorem C55_uninitialised :
    exceptions (K := arrayOfArrays Nat) dbg (.ok (generic _)) [.call .len, .getAccessLevel]
      = .ok [some .runtimeError, some .runtimeError] ∧
    exceptions (K := arrayOfArrays Nat) dbg (.ok (generic _)) [.call (.insert 0 (some [1]))] = .error (.ub .dangling) := by
  decide +kernel

/-- And so do those of `ArrayOfSets`. -/
theorem C55_uninitialised_sets :
    exceptions (K := arrayOfSets Nat) dbg (.ok (generic _)) [.call .len, .getAccessLevel]
      = .ok [some .runtimeError, some .runtimeError] ∧
    exceptions (K := arrayOfSets Nat) dbg (.ok (generic _)) [.call (.insertInto 0 (some [1]))] = .error (.ub .dangling) := by
  decide +kernel

theorem generic_raises {T : Type} {K : Class T} (c : Cfg) : ∀ (ops : List (Op K)),
    (∀ m, Op.call m ∈ ops → K.verifies m = true) →
    ∃ rs, (generic K).run c ops = .ok (generic K, rs) ∧ rs.length = ops.length ∧ ∀ r, r ∈ rs → ∃ e, r = .error e
  | [], _ => ⟨[], rfl, rfl, fun r hr => by simp at hr⟩
  | op :: ops, h => by
    obtain ⟨rs, h1, h2, h3⟩ := generic_raises c ops fun m hm => h m (List.mem_cons_of_mem _ hm)
    have hstep : ∃ e, (generic K).step c op = .ok (generic K, .error e) := by
      cases op with
      | call m =>
        have := h m (by simp)
        exact ⟨.runtimeError, by simp only [Obj.step, Obj.method, generic, this, if_true]⟩
      | getAccessLevel => exact ⟨_, rfl⟩
      | setAccessLevel l sp => exact ⟨_, rfl⟩
      | read k idx => exact ⟨_, rfl⟩
      | write k idx x => exact ⟨_, rfl⟩
    obtain ⟨e, he⟩ := hstep
    refine ⟨.error e :: rs, by simp only [Obj.run, he, bind_ok, h1], by simp [h2], fun r hr => ?_⟩
    rcases List.mem_cons.1 hr with rfl | hr
    · exact ⟨e, rfl⟩
    · exact h3 r hr

/-- **C55.** `pylvarray.Array()`, `pylvarray.SortedArray()` and `pylvarray.CRSMatrix()` are objects without a container; whatever a
program does with one, every call raises. -/
theorem C55_uninitialised_raises {T : Type} [Inhabited T] [LT T] [DecidableLT T] [DecidableEq T] {V : Type} [Add V] [Inhabited V] (c : Cfg)
    (colMax : Nat) (p : List (Op (array T))) (q : List (Op (sortedArray T))) (r : List (Op (crsMatrix V colMax))) :
    (∃ rs, (generic (array T)).run c p = .ok (generic _, rs) ∧ rs.length = p.length ∧ ∀ x, x ∈ rs → ∃ e, x = .error e) ∧
    (∃ rs, (generic (sortedArray T)).run c q = .ok (generic _, rs) ∧ rs.length = q.length ∧ ∀ x, x ∈ rs → ∃ e, x = .error e) ∧
    (∃ rs, (generic (crsMatrix V colMax)).run c r = .ok (generic _, rs) ∧ rs.length = r.length ∧ ∀ x, x ∈ rs → ∃ e, x = .error e) :=
  ⟨generic_raises c p fun _ _ => rfl, generic_raises c q fun _ _ => rfl, generic_raises c r fun _ _ => rfl⟩

/-- **C53, disagreement.** `ArrayOfSets.erase_from` of something that cannot be converted raises `SystemError` instead of the error
of the conversion that `insert_into` raises. -/
theorem C53_erase_from_conversion :
    exceptions (K := arrayOfSets Nat) dbg (do let a ← AoA.mk' dbg 1 2; .ok (create _ a))
      [.setAccessLevel 2 none, .call (.insertInto 0 none), .call (.eraseFrom 0 none)]
      = .ok [none, some .conversion, some .systemError] := by
  decide +kernel

/-! ### The hypotheses are met -/

/-- A program within the contract of `ArrayOfArrays`, which changes an element, sees the change through an older array, grows the
container, and asks for a new array. -/
example :
    ((pyCreate (pyRows Nat true) [[7, 8], []]).run
      [.setAccessLevel 2 none, .call (.getItem 0), .call (.getItem 0), .write 0 [1] 9, .read 1 [1], .read 1 [2],
       .call (.insert 1 (some [4])), .call (.getItem 1), .read 2 [0]]).map (fun r => (r.1.state : List (List Nat))) = some [[7, 9], [4], []] := by
  decide +kernel

/-- And the object in question is reachable. -/
example : ∃ a, Reach (T := Nat) dbg a [([7, 8], 2), ([], 2)] := by
  obtain ⟨a, h⟩ : ∃ a, (do let a0 ← AoA.mk' (T := Nat) dbg 2 2; AoA.run dbg a0 [.emplaceBack 0 7, .emplaceBack 0 8]) = .ok a :=
    ⟨_, rfl⟩
  obtain ⟨a0, h0, h1⟩ := bind_eq_ok.1 h
  exact ⟨a, 2, 2, _, a0, (fun _ op hop => by simp at hop; rcases hop with rfl | rfl <;> trivial), h0, h1, rfl⟩

/-- Adding to a row keeps arrays valid. -/
example :
    ((pyCreate (pyMatrix Nat 100) { numCols := 4, rows := [fun k => if k = 2 then some 7 else none] }).run
      [.setAccessLevel 2 none, .call (.getEntries 0), .call (.addToRow 0 (some [2]) (some [3])), .write 0 [0] 5,
       .call (.addToRow 0 (some [2]) (some [1])), .call (.insertNonZeros 0 (some [0, 3]) (some [1, 1]))]).map
      (fun r => r.1.state.rows.map fun f => (columnsOf 4 f).map fun k => (k, f k)) =
      some [[(0, some 1), (2, some 6), (3, some 1)]] := by
  decide +kernel

/-- A set and an array. -/
example :
    ((pyCreate (pySorted Nat) ({5} : Finset Nat)).run [.setAccessLevel 2 (some 0), .call (.insert (some [1, 5, 9])), .call (.remove (some [5]))]).map
      (fun r => (r.1.state : Finset Nat)) = some {1, 9} := by
  decide +kernel

example :
    ((pyCreate (pySets Nat) [{5}, ∅]).run [.setAccessLevel 2 none, .call (.insertInto 1 (some [1, 5, 9])), .call (.delItem 0)]).map
      (fun r => (r.1.state : List (Finset Nat))) = some [{1, 5, 9}] := by
  decide +kernel

example :
    ((pyCreate (pyArray Nat) { dims := [2, 3], resizeIndex := 0, elem := fun _ => some 0 }).run
      [.setAccessLevel 2 (some 0), .call .toNumPy, .write 0 [1, 2] 5, .call (.resize 3), .call (.setResizeIndex 1), .call .toNumPy]).map
      (fun r => (r.1.state.dims, r.1.state.elem [1, 2], r.1.state.elem [2, 2])) = some ([3, 3], some 5, some 0) := by
  decide +kernel

/-- A program as C55 asks for: it grows the container, gets an array and assigns through it, passes an index out of range (which raises
and invalidates nothing), uses the array again, and resizes at the end. -/
private def carefulProgram : List (Op (arrayOfArrays Nat)) :=
  [.setAccessLevel 2 none, .call (.insert 0 (some [4, 5])), .call (.getItem 0), .write 0 [1] 9, .call (.eraseFrom 8 0), .read 0 [1],
    .call (.delItem 0)]

/-- 0: raised, 1: returned an array, 2: returned something else. -/
private def kindOf {T : Type} {K : Class T} : Except Exn (Res K) → Nat
  | .error _ => 0
  | .ok (.view _ _) => 1
  | .ok _ => 2

private theorem gaveArray_iff {T : Type} {K : Class T} (r : Except Exn (Res K)) : gaveArray r = true ↔ kindOf r = 1 := by
  cases r with
  | error => simp [gaveArray, kindOf]
  | ok r => cases r <;> simp [gaveArray, kindOf]

private def kindsOf (ops : List (Op (arrayOfArrays Nat))) : R (List Nat) := do
  let a ← AoA.mk' (T := Nat) dbg 1 2
  let r ← (create (arrayOfArrays Nat) a).run dbg ops
  .ok (r.2.map kindOf)

private theorem kindsOf_run {ops : List (Op (arrayOfArrays Nat))} {a : AoA Nat} {o outs} (h : AoA.mk' (T := Nat) dbg 1 2 = .ok a)
    (h1 : (create (arrayOfArrays Nat) a).run dbg ops = .ok (o, outs)) : kindsOf ops = .ok (outs.map kindOf) := by
  unfold kindsOf
  rw [h, bind_ok, h1, bind_ok]

example (a : AoA Nat) (ha : AoA.mk' (T := Nat) dbg 1 2 = .ok a) :
    Careful (K := arrayOfArrays Nat) dbg a (Shows dbg) rowsResizes (rowsBad true) carefulProgram := by
  intro before op rest o outs w s e hrun _ _
  have hk := kindsOf_run ha hrun
  constructor
  · intro k hu
    rintro ⟨i, j, m, r, x, hij, h1, h2, h3, h4, h5, h6⟩
    have h7 : (outs.map kindOf)[i]? = some 1 := by rw [List.getElem?_map, h1, Option.map_some, (gaveArray_iff r).1 h2]
    have h8 : (outs.map kindOf)[j]? ≠ some 0 := by
      rw [List.getElem?_map, h6, Option.map_some]
      cases x <;> simp [kindOf]
    unfold carefulProgram at e
    rcases before with _ | ⟨b0, _ | ⟨b1, _ | ⟨b2, _ | ⟨b3, _ | ⟨b4, _ | ⟨b5, _ | ⟨b6, before⟩⟩⟩⟩⟩⟩⟩
    all_goals simp only [List.nil_append, List.cons_append, List.cons.injEq, reduceCtorEq, false_and, and_false] at e
    · obtain ⟨rfl, -⟩ := e; exact hu
    · obtain ⟨-, rfl, -⟩ := e; exact hu
    · obtain ⟨-, -, rfl, -⟩ := e; exact hu
    · obtain ⟨rfl, rfl, rfl, -⟩ := e
      rw [show kindsOf _ = .ok [2, 2, 1] by decide +kernel] at hk
      rw [← Except.ok.inj hk] at h7
      match i, j, hij, h7, h4 with
      | 0, _, _, h7, _ => cases h7
      | 1, _, _, h7, _ => cases h7
      | i + 2, j, hij, _, h4 => rw [List.getElem?_eq_none (by simp; omega)] at h4; cases h4
    · obtain ⟨-, -, -, -, rfl, -⟩ := e; exact hu
    · obtain ⟨rfl, rfl, rfl, rfl, rfl, -⟩ := e
      rw [show kindsOf _ = .ok [2, 2, 1, 2, 0] by decide +kernel] at hk
      rw [← Except.ok.inj hk] at h7 h8
      match i, j, hij, h7, h8, h4 with
      | 0, _, _, h7, _, _ => cases h7
      | 1, _, _, h7, _, _ => cases h7
      | i + 2, 3, _, _, _, h4 => cases h4
      | i + 2, 4, _, _, h8, _ => exact h8 rfl
      | i + 2, j + 5, _, _, _, h4 => rw [List.getElem?_eq_none (by simp)] at h4; cases h4
    · obtain ⟨-, -, -, -, -, -, rfl, -⟩ := e; exact hu
    · simp at e
  · rintro m rfl - hb
    have hm : Op.call m ∈ carefulProgram := by rw [e]; simp
    simp only [carefulProgram, List.mem_cons, reduceCtorEq, List.not_mem_nil, or_false, false_or] at hm
    rcases hm with hm | hm | hm | hm <;> (cases hm; exact hb)

/-- What `to_scipy` returns before and after `compress`. -/
private def scipyTwice : R (Except Exn (List Nat × List Nat × List Nat × Bool) × Except Exn (List Nat × List Nat × List Nat × Bool)) := do
  let m ← Crs.mk' (V := Nat) dbg 100 2 4 2
  let r ← m.insertNonZeros dbg true 1 [0, 3] [7, 8]
  let x ← toSciPy dbg 0 r.1
  let m ← r.1.compress dbg
  let y ← toSciPy dbg 1 m
  .ok (x, y)

/-- `to_scipy` of a matrix with unused capacity and of a compressed one. -/
example : scipyTwice = .ok (.error .runtimeError, .ok ([7, 8], [0, 3], [0, 0, 2], true)) := by rfl

end LvArray.Props

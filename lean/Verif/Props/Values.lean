import Verif.HeapRefine

/-!
# C12, C13: every container class behaves like a value

Programs that declare, change, copy, move and destroy any number of containers of one class, in a heap that all of them share.
`Spec.stmtRun` says what such a program means when every variable is simply a value (`Spec/Values.lean`,
`Spec/Containers.lean`).
-/

namespace LvArray.Props

open LvArray Spec Heap Python

variable {Args Op Out T V : Type} [Inhabited T] {c : Cfg}

/-- From nothing, the program runs to the end without undefined behaviour and its calls return `outs`; afterwards the variables
have the shapes `shape` reports for their values, a variable that was destroyed is gone, and no two variables and no two buffers
of one variable share storage. -/
def BehavesAs (c : Cfg) (K : Class T Args Op Out) (A : Values Args Op Out) (shape : K.Obj → A.S → Prop)
    (prog : List (Stmt Args Op)) (vars : Vars A) (outs : List (Option Out)) : Prop :=
  ∃ w : World K, World.empty.run c prog = .ok (w, outs) ∧
    (∀ x s, vars x = some (.value s) → ∃ h o, w.vars x = some h ∧ w.load h = .ok o ∧ shape o s) ∧
    (∀ x, vars x = none → w.vars x = none) ∧
    (∀ x y hx hy p, w.vars x = some hx → w.vars y = some hy → p ∈ ptrs hx.slots → p ∈ ptrs hy.slots → x = y) ∧
    (∀ x h, w.vars x = some h → (ptrs h.slots).Nodup)

/-- After the program all storage belongs to a variable; when all variables are destroyed none is left. -/
def Releases (c : Cfg) (K : Class T Args Op Out) (prog : List (Stmt Args Op)) : Prop :=
  ∃ w outs, (World.empty (K := K)).run c prog = .ok (w, outs) ∧ (∀ p, ¬ w.leaked p) ∧
    ((∀ x, w.vars x = none) → ∀ p, w.heap.cells p = none)

theorem behaves {K : Class T Args Op Out} {A : Values Args Op Out} {Rel : K.Obj → A.S → Prop} {Weak Spent : K.Obj → Prop}
    (hR : Refines c K A Rel Weak Spent) {shape : K.Obj → A.S → Prop} (hs : ∀ {o s}, Rel o s → shape o s)
    {prog : List (Stmt Args Op)} {vars : Vars A} {outs : List (Option Out)}
    (h : stmtRun A (fun _ => none) prog = some (vars, outs)) : BehavesAs c K A shape prog vars outs := by
  obtain ⟨w, h1, h2⟩ := Inv.run hR prog Inv.empty h
  refine ⟨w, h1, fun x s e => ?_, h2.undecl, h2.sep, h2.nodup⟩
  obtain ⟨hd, o, k1, k2, k3⟩ := h2.decl x _ e
  exact ⟨hd, o, k1, k2, hs k3⟩

theorem releases {K : Class T Args Op Out} {A : Values Args Op Out} {Rel : K.Obj → A.S → Prop} {Weak Spent : K.Obj → Prop}
    (hR : Refines c K A Rel Weak Spent) {prog : List (Stmt Args Op)} (hl : (∀ x y, .moveTo x y ∉ prog) ∨ Inv.Releases c K Weak)
    {vars : Vars A} {outs : List (Option Out)} (h : stmtRun A (fun _ => none) prog = some (vars, outs)) : Releases c K prog := by
  obtain ⟨w, k1, k2, k3⟩ := Inv.run_noLeak hR prog hl Inv.empty Inv.empty_noLeak h
  refine ⟨w, outs, k1, k3, fun hv p => Classical.byContradiction fun hp => ?_⟩
  obtain ⟨x, hx, e, -⟩ := Inv.noLeak_owner k3 hp
  rw [hv x] at e
  cases e

/-- The allocations left after a program, and whether variables `0` to `n - 1` are gone. -/
def leftAfter (c : Cfg) (K : Class T Args Op Out) (n : Nat) (prog : List (Stmt Args Op)) : Option (List Nat × Bool) :=
  match (World.empty (K := K)).run c prog with
  | .ok (w, _) =>
    some ((List.range w.heap.fresh).filter (fun p => (w.heap.cells p).isSome), (List.range n).all fun x => (w.vars x).isNone)
  | .error _ => none

private def dbg : Cfg := { trivial := true, boundsCheck := true, debug := true }

/-! ## Array -/

/-- **C12, C13** for `Array` with any number of dimensions and any layout: copies are deep, self assignment changes nothing, a
move hands over the contents, a moved-from array can be assigned to, moved and destroyed. -/
theorem C12_C13_array_values (perm : List Nat) (hp : typeManipulation.isValidPermutation perm = true) (hn : perm ≠ [])
    (prog : List (Stmt Unit (BoxOp T))) (vars : Vars (boxValues T perm.length)) (outs : List (Option (Option T)))
    (h : stmtRun (boxValues T perm.length) (fun _ => none) prog = some (vars, outs)) :
    BehavesAs c (array T perm) (boxValues T perm.length)
      (fun (a : ArrayN T) (s : Box T) => a.dims = s.dims ∧ a.resizeIndex = s.resizeIndex ∧
        ∀ idx v, InBounds s.dims idx → s.elem idx = some v → a.get c idx = .ok v)
      prog vars outs :=
  behaves (array_refines c hp hn)
    (fun {o s} ⟨h, _⟩ => ⟨h.dims, h.index, fun idx v hi hv => h.elem idx v (by rw [h.dims]; exact hi) hv⟩) h

/-- **C13** for `Array`: storage is released.  Missing: programs with move assignment, for which it is false
(`C13_array_move_assignment_leaks`). -/
theorem C13_array_releases_partial (perm : List Nat) (hp : typeManipulation.isValidPermutation perm = true) (hn : perm ≠ [])
    (prog : List (Stmt Unit (BoxOp T))) (hm : ∀ x y, .moveTo x y ∉ prog)
    (h : (stmtRun (boxValues T perm.length) (fun _ => none) prog).isSome) : Releases c (array T perm) prog := by
  obtain ⟨r, h⟩ := Option.isSome_iff_exists.1 h
  exact releases (array_refines c hp hn) (.inl hm) h

-- a 2 x 3 array is copied, the copy changed, the original moved away and assigned to again
private def arrayProg : List (Stmt Unit (BoxOp Nat)) :=
  [.new 0 (), .call 0 (.resize [2, 3]), .call 0 (.set [1, 2] 7), .copyNew 1 0, .call 1 (.set [1, 2] 8), .call 0 (.get [1, 2]),
   .call 1 (.get [1, 2]), .moveNew 2 0, .call 2 (.get [1, 2]), .copy 0 1, .copy 0 0, .call 0 (.get [1, 2]), .call 0 (.get [0, 0]),
   .del 1, .del 0, .del 2]

example : typeManipulation.isValidPermutation [1, 0] = true ∧ ([1, 0] : List Nat) ≠ [] ∧ (∀ x y, .moveTo x y ∉ arrayProg) := by
  refine ⟨by decide, by decide, by simp [arrayProg]⟩

example : (stmtRun (boxValues Nat 2) (fun _ => none) arrayProg).map (·.2) =
    some [none, some none, some none, none, some none, some (some 7), some (some 8), none, some (some 7), none, none,
      some (some 8), some (some 0), none, none, none] := by decide +kernel

/-- **C13, disagreement.** After `x = std::move( y )` the storage `x` had is never released: with both arrays destroyed an
allocation is left. -/
theorem C13_array_move_assignment_leaks :
    leftAfter dbg (array Nat [1, 0]) 2
      [.new 0 (), .call 0 (.resize [2, 3]), .new 1 (), .call 1 (.resize [1, 1]), .moveTo 0 1, .del 0, .del 1] = some ([0], true) := by
  decide +kernel

/-! ## SortedArray -/

section
variable [LinearOrder T]

/-- **C12, C13** for `SortedArray`; a moved-from set is empty and can be used again. -/
theorem C12_C13_sorted_values (prog : List (Stmt Unit (SetOp T))) (vars : Vars (finsetValues T)) (outs : List (Option (SetOut T)))
    (h : stmtRun (finsetValues T) (fun _ => none) prog = some (vars, outs)) :
    BehavesAs c (sortedArray T) (finsetValues T) (fun (a : SortedArr T) (S : Finset T) => a.size = S.card)
      prog vars outs :=
  behaves (sorted_refines c) (fun h => SGood.size h) h

/-- **C13** for `SortedArray`: storage is released.  Missing: programs with move assignment, for which it is false
(`C13_sorted_move_assignment_leaks`). -/
theorem C13_sorted_releases_partial (prog : List (Stmt Unit (SetOp T))) (hm : ∀ x y, .moveTo x y ∉ prog)
    (h : (stmtRun (finsetValues T) (fun _ => none) prog).isSome) : Releases c (sortedArray T) prog := by
  obtain ⟨r, h⟩ := Option.isSome_iff_exists.1 h
  exact releases (sorted_refines c) (.inl hm) h

private def sortedProg : List (Stmt Unit (SetOp Nat)) :=
  [.new 0 (), .call 0 (.insertMany [2, 5, 9]), .copyNew 1 0, .call 1 (.remove 5), .call 0 (.contains 5), .call 1 (.contains 5),
   .moveNew 2 0, .call 0 (.contains 5), .call 0 (.insert 4), .call 2 (.contains 5), .copy 2 0, .copy 2 2, .call 2 (.contains 5),
   .del 0, .del 1, .del 2]

example : (∀ x y, .moveTo x y ∉ sortedProg) := by simp [sortedProg]

example : (stmtRun (finsetValues Nat) (fun _ => none) sortedProg).map (·.2) =
    some [none, some (.num 3), none, some (.bool true), some (.bool true), some (.bool false), none, some (.bool false),
      some (.bool true), some (.bool true), none, none, some (.bool false), none, none, none] := by decide +kernel

omit [Inhabited T] [LinearOrder T] in
/-- **C13, disagreement.** The same for `SortedArray`. -/
theorem C13_sorted_move_assignment_leaks :
    leftAfter dbg (sortedArray Nat) 2
      [.new 0 (), .call 0 (.insert 3), .new 1 (), .call 1 (.insert 4), .moveTo 0 1, .del 0, .del 1] = some ([0], true) := by
  decide +kernel

end

theorem rows_shape {a : AoA T} {rows : List (List T)} (h : RowsRel a rows) : a.shape.numArrays = rows.length ∧
    ∀ (i : Nat) (hi : i < rows.length), a.shape.sizeOfArray c i = .ok rows[i].length := by
  refine ⟨?_, fun i hi => RowsRel.sizeOf h hi⟩
  obtain ⟨L, hg, rfl⟩ := h
  rw [hg.shape.num, List.length_map]

theorem sets_shape [LinearOrder T] {a : AoA T} {sets : List (Finset T)} (h : SetsGood a sets) : a.shape.numArrays = sets.length ∧
    ∀ (i : Nat) (hi : i < sets.length), a.shape.sizeOfArray c i = .ok sets[i].card := by
  obtain ⟨h1, h2⟩ := rows_shape (c := c) (SetsGood.rowsRel h)
  rw [List.length_map] at h1
  refine ⟨h1, fun i hi => ?_⟩
  have := h2 i (by rw [List.length_map]; exact hi)
  simpa using this

theorem matrix_shape {m : Crs V} {M : Matrix V} (h : CrsGood m M) : m.numCols = M.numCols ∧ m.shape.numArrays = M.rows.length ∧
    ∀ (i : Nat) (hi : i < M.rows.length),
      m.shape.sizeOfArray c i = .ok ((List.range M.numCols).countP fun k => (M.rows[i] k).isSome) := by
  obtain ⟨L, hg, hL⟩ := h.rows
  have hl : L.length = M.rows.length := by simpa using congrArg List.length hL
  refine ⟨h.cols, by rw [hg.shape.num, hl], fun i hi => ?_⟩
  rw [hg.shape.sizeOf' (by omega)]
  have : L[i].1 = rowList M.numCols M.rows[i] := by
    have := congrArg (·[i]?) hL
    simpa [hi, hl] using this
  rw [this, rowList, List.length_filterMap_eq_countP]
  simp

/-! ## ArrayOfArrays, ArrayOfSets, SparsityPattern, CRSMatrix -/

/-- **C12, C13** for `ArrayOfArrays`: as above, and storage is always released. -/
theorem C12_C13_rows_values (ht : c.trivial = true) (prog : List (Stmt (Nat × Nat) (RowOp T))) (vars : Vars (rowsValues T c.debug))
    (outs : List (Option (Option T))) (h : stmtRun (rowsValues T c.debug) (fun _ => none) prog = some (vars, outs)) :
    BehavesAs c (arrayOfArrays T) (rowsValues T c.debug)
      (fun (a : AoA T) (rows : List (List T)) => a.shape.numArrays = rows.length ∧
        ∀ (i : Nat) (hi : i < rows.length), a.shape.sizeOfArray c i = .ok rows[i].length)
      prog vars outs ∧ Releases c (arrayOfArrays T) prog :=
  ⟨behaves (rows_refines ht) (fun h => rows_shape h) h, releases (rows_refines ht) (.inr rows_releases) h⟩

private def rowsProg : List (Stmt (Nat × Nat) (RowOp Nat)) :=
  [.new 0 (2, 1), .call 0 (.op (.emplaceBack 1 7)), .call 0 (.op (.emplaceBack 1 8)), .copyNew 1 0, .call 1 (.op (.eraseFromArray 1 0 1)),
   .call 0 (.get 1 0), .call 1 (.get 1 0), .new 2 (3, 2), .moveTo 2 0, .call 2 (.get 1 1), .copy 0 1, .call 0 (.get 1 0),
   .copy 0 0, .del 0, .del 1, .del 2]

example : (stmtRun (rowsValues Nat true) (fun _ => none) rowsProg).map (·.2) =
    some [none, some none, some none, none, some none, some (some 7), some (some 8), none, none, some (some 8), none, some (some 8),
      none, none, none, none] := by decide +kernel

/-- **C12, C13** for `ArrayOfSets`. -/
theorem C12_C13_sets_values [LinearOrder T] (ht : c.trivial = true) (prog : List (Stmt (Nat × Nat) (AoSOp T))) (vars : Vars (setsValues T))
    (outs : List (Option (AoSOut T))) (h : stmtRun (setsValues T) (fun _ => none) prog = some (vars, outs)) :
    BehavesAs c (arrayOfSets T) (setsValues T)
      (fun (a : AoA T) (sets : List (Finset T)) => a.shape.numArrays = sets.length ∧
        ∀ (i : Nat) (hi : i < sets.length), a.shape.sizeOfArray c i = .ok sets[i].card)
      prog vars outs ∧ Releases c (arrayOfSets T) prog :=
  ⟨behaves (sets_refines ht) (fun h => sets_shape h) h, releases (sets_refines ht) (.inr sets_releases) h⟩

private def setsProg : List (Stmt (Nat × Nat) (AoSOp Nat)) :=
  [.new 0 (2, 1), .call 0 (.insert 1 7), .call 0 (.insert 1 3), .copyNew 1 0, .call 1 (.remove 1 7), .call 0 (.contains 1 7),
   .call 1 (.contains 1 7), .new 2 (3, 2), .moveTo 2 0, .call 2 (.contains 1 7), .copy 0 1, .call 0 (.contains 1 7),
   .copy 0 0, .del 0, .del 1, .del 2]

example : (stmtRun (setsValues Nat) (fun _ => none) setsProg).map (·.2) =
    some [none, some (.bool true), some (.bool true), none, some (.bool true), some (.bool true), some (.bool false), none, none,
      some (.bool true), none, some (.bool false), none, none, none, none] := by decide +kernel

/-- **C12, C13** for `SparsityPattern`. -/
theorem C12_C13_pattern_values (ht : c.trivial = true) (colMax : Nat) (prog : List (Stmt (Nat × Nat × Nat) SpOp))
    (vars : Vars (patternValues colMax)) (outs : List (Option (AoSOut Nat)))
    (h : stmtRun (patternValues colMax) (fun _ => none) prog = some (vars, outs)) :
    BehavesAs c (sparsityPattern colMax) (patternValues colMax)
      (fun (p : Sp) (P : Pattern) => p.numCols = P.numCols ∧ p.sets.shape.numArrays = P.rows.length ∧
        ∀ (i : Nat) (hi : i < P.rows.length), p.sets.shape.sizeOfArray c i = .ok P.rows[i].card)
      prog vars outs ∧ Releases c (sparsityPattern colMax) prog :=
  ⟨behaves (pattern_refines ht colMax) (fun h => ⟨h.cols, sets_shape h.sets⟩) h, releases (pattern_refines ht colMax) (.inr (pattern_releases colMax)) h⟩

private def patternProg : List (Stmt (Nat × Nat × Nat) SpOp) :=
  [.new 0 (2, 10, 1), .call 0 (.insert 1 7), .call 0 (.insert 1 3), .copyNew 1 0, .call 1 (.remove 1 7), .call 0 (.isEmpty 1 7),
   .call 1 (.isEmpty 1 7), .new 2 (3, 4, 2), .moveTo 2 0, .call 2 (.isEmpty 1 7), .copy 0 1, .call 0 (.isEmpty 1 7),
   .copy 0 0, .del 0, .del 1, .del 2]

example : (stmtRun (patternValues 100) (fun _ => none) patternProg).map (·.2) =
    some [none, some (.bool true), some (.bool true), none, some (.bool true), some (.bool false), some (.bool true), none, none,
      some (.bool false), none, some (.bool true), none, none, none, none] := by decide +kernel

/-- **C12, C13** for `CRSMatrix`. -/
theorem C12_C13_matrix_values [Inhabited V] [Add V] (ht : c.trivial = true) (colMax : Nat) (prog : List (Stmt (Nat × Nat × Nat) (CrsOp V)))
    (vars : Vars (matrixValues V colMax)) (outs : List (Option (AoSOut (Nat ⊕ V))))
    (h : stmtRun (matrixValues V colMax) (fun _ => none) prog = some (vars, outs)) :
    BehavesAs c (crsMatrix V colMax) (matrixValues V colMax)
      (fun (m : Crs V) (M : Matrix V) => m.numCols = M.numCols ∧ m.shape.numArrays = M.rows.length ∧
        ∀ (i : Nat) (hi : i < M.rows.length),
          m.shape.sizeOfArray c i = .ok ((List.range M.numCols).countP fun k => (M.rows[i] k).isSome))
      prog vars outs ∧ Releases c (crsMatrix V colMax) prog :=
  ⟨behaves (matrix_refines ht colMax) (fun h => matrix_shape h) h, releases (matrix_refines ht colMax) (.inr (matrix_releases colMax)) h⟩

private def matrixProg : List (Stmt (Nat × Nat × Nat) (CrsOp Nat)) :=
  [.new 0 (2, 10, 1), .call 0 (.insert 1 7 50), .call 0 (.insert 1 3 60), .copyNew 1 0, .call 1 (.addToRow .binary 1 [(7, 5)]),
   .call 0 (.getEntry 1 1), .call 1 (.getEntry 1 1), .new 2 (3, 4, 2), .moveTo 2 0, .call 2 (.getEntry 1 0), .copy 0 1,
   .call 0 (.getEntry 1 1), .copy 0 0, .del 0, .del 1, .del 2]

example : (stmtRun (matrixValues Nat 100) (fun _ => none) matrixProg).map (·.2) =
    some [none, some (.bool true), some (.bool true), none, some .unit, some (.val (.inr 50)), some (.val (.inr 55)), none, none,
      some (.val (.inr 60)), none, some (.val (.inr 55)), none, none, none, none] := by decide +kernel

/-! ### What is left of a moved from object -/

/-- After a move, construction or assignment, the source owns no memory and its members are those of the moved from object. -/
theorem moved_leaves {K : Heap.Class T Args Op Out} {w w' : Heap.World K} {out : Option Out} {x y : Nat}
    (h : w.step c (.moveNew x y) = .ok (w', out) ∨ w.step c (.moveTo x y) = .ok (w', out)) :
    ∃ (l : Heap.Handle K) (b : Bool) (o : K.Obj), w'.vars y = some l ∧ Heap.ptrs l.slots = [] ∧ l.fields = K.fields (K.movedFrom b o) := by
  have hnull : ∀ l : List (Heap.Store T), Heap.ptrs (l.map Heap.Slot.null) = [] := by
    intro l
    induction l with
    | nil => rfl
    | cons a l ih => simpa [Heap.ptrs] using ih
  rcases h with h | h
  · simp only [Heap.World.step] at h
    obtain ⟨-, -, h⟩ := LvArray.bind_eq_ok.1 h
    obtain ⟨hy, -, h⟩ := LvArray.bind_eq_ok.1 h
    obtain ⟨oy, -, h⟩ := LvArray.bind_eq_ok.1 h
    cases h
    exact ⟨_, false, oy, by simp only [Heap.World.transfer]; exact if_pos rfl, hnull _, rfl⟩
  · simp only [Heap.World.step] at h
    obtain ⟨hx, -, h⟩ := LvArray.bind_eq_ok.1 h
    obtain ⟨ox, -, h⟩ := LvArray.bind_eq_ok.1 h
    obtain ⟨ox', -, h⟩ := LvArray.bind_eq_ok.1 h
    obtain ⟨hy, -, h⟩ := LvArray.bind_eq_ok.1 h
    obtain ⟨oy, -, h⟩ := LvArray.bind_eq_ok.1 h
    cases h
    exact ⟨_, true, oy, by simp only [Heap.World.transfer]; exact if_pos rfl, hnull _, rfl⟩

/-- **C13.** In every state of every program, what a move takes the contents from is left with no memory and, as its size functions
tell, empty: no values, no arrays, no rows and no columns. -/
theorem C13_moved_from_sorted [LinearOrder T] {w w' : Heap.World (sortedArray T)} {out : Option (SetOut T)} {x y : Nat}
    (h : w.step c (.moveNew x y) = .ok (w', out) ∨ w.step c (.moveTo x y) = .ok (w', out)) :
    ∃ l, w'.vars y = some l ∧ Heap.ptrs l.slots = [] ∧ l.fields = (0 : Nat) := by
  obtain ⟨l, b, o, h1, h2, h3⟩ := moved_leaves h
  exact ⟨l, h1, h2, h3⟩

theorem C13_moved_from_arrays {w w' : Heap.World (arrayOfArrays T)} {out : Option (Option T)} {x y : Nat}
    (h : w.step c (.moveNew x y) = .ok (w', out) ∨ w.step c (.moveTo x y) = .ok (w', out)) :
    ∃ l, w'.vars y = some l ∧ Heap.ptrs l.slots = [] ∧ l.fields = (0 : Nat) := by
  obtain ⟨l, b, o, h1, h2, h3⟩ := moved_leaves h
  exact ⟨l, h1, h2, h3⟩

theorem C13_moved_from_sets [LinearOrder T] {w w' : Heap.World (arrayOfSets T)} {out : Option (AoSOut T)} {x y : Nat}
    (h : w.step c (.moveNew x y) = .ok (w', out) ∨ w.step c (.moveTo x y) = .ok (w', out)) :
    ∃ l, w'.vars y = some l ∧ Heap.ptrs l.slots = [] ∧ l.fields = (0 : Nat) := by
  obtain ⟨l, b, o, h1, h2, h3⟩ := moved_leaves h
  exact ⟨l, h1, h2, h3⟩

/-- The members are the numbers of columns and rows. -/
theorem C13_moved_from_pattern {colMax : Nat} {w w' : Heap.World (sparsityPattern colMax)} {out : Option (AoSOut Nat)} {x y : Nat}
    (h : w.step c (.moveNew x y) = .ok (w', out) ∨ w.step c (.moveTo x y) = .ok (w', out)) :
    ∃ l, w'.vars y = some l ∧ Heap.ptrs l.slots = [] ∧ l.fields = ((0, 0) : Nat × Nat) := by
  obtain ⟨l, b, o, h1, h2, h3⟩ := moved_leaves h
  exact ⟨l, h1, h2, h3⟩

theorem C13_moved_from_matrix [Inhabited V] [Add V] {colMax : Nat} {w w' : Heap.World (crsMatrix V colMax)} {out : Option (AoSOut (Nat ⊕ V))}
    {x y : Nat} (h : w.step c (.moveNew x y) = .ok (w', out) ∨ w.step c (.moveTo x y) = .ok (w', out)) :
    ∃ l, w'.vars y = some l ∧ Heap.ptrs l.slots = [] ∧ l.fields = ((0, 0) : Nat × Nat) := by
  obtain ⟨l, b, o, h1, h2, h3⟩ := moved_leaves h
  exact ⟨l, h1, h2, h3⟩

/-- A move that succeeds. -/
example : ∃ (w : Heap.World (sparsityPattern 100)), (w.step dbg (.moveTo 2 0)).map (fun _ => ()) = .ok () ∧
    (Heap.World.empty (K := sparsityPattern 100)).run dbg [.new 0 (2, 10, 1), .call 0 (.insert 1 7), .new 2 (3, 4, 2)] =
      .ok (w, [none, some (.bool true), none]) :=
  ⟨_, rfl, rfl⟩

end LvArray.Props

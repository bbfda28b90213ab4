import Verif.TextOutLemmas
import Verif.Props.TextIO
import Verif.Props.SortedSet
import Verif.Props.ArrayOfArrays
import Verif.Props.Sparse

/-!
# C65: what is printed identifies the contents

`Spec.printedSet`, `Spec.printedRows`, `Spec.printedMatrix` and `Spec.pretty` describe the texts; `outputSet`, `outputRows`,
`outputMatrix` and `output` are `stream << object`.
-/

namespace LvArray.Props

open Layout Spec TextIO

set_option linter.unusedSectionVars false

variable {T V : Type}

/-! ### What is printed -/

theorem getD_getElem {X : Type} (xs : List X) (d : X) {i : Nat} (hi : i < xs.length) : xs.getD i d = xs[i] := by simp [hi]

theorem commas_ok (g : T → List Char) (get : Nat → R T) (xs : List T) (hn : xs ≠ []) (h : ∀ i (hi : i < xs.length), get i = .ok xs[i]) :
    (do let first ← firstItem xs.length (fun (i : Nat) => do .ok (g (← get i)))
        let items ← forUp (xs.length - 1) 1 (fun (i : Nat) text => do
          let v ← get i
          .ok (text ++ [',', ' '] ++ g v)) first
        .ok (['{', ' '] ++ items ++ [' ', '}']) : R (List Char)) = .ok (listed g xs) := by
  cases xs with
  | nil => exact absurd rfl hn
  | cons x xs =>
    have h0 : get 0 = .ok x := h 0 (by simp)
    rw [firstItem, if_pos (by simp), h0]
    simp only [bind_ok, List.length_cons, Nat.add_sub_cancel]
    rw [forUp_append _ (fun i => [',', ' '] ++ g ((x :: xs).getD i x)) xs.length 1 _ (fun i text h1 h2 => by
      rw [h i (by simp; omega), bind_ok, getD_getElem _ _ (by simp; omega)]
      simp), bind_ok, listed_cons, separated_eq]
    have : (List.range' 1 xs.length).map (fun i => [',', ' '] ++ g ((x :: xs).getD i x)) = xs.map fun x => [',', ' '] ++ g x := by
      apply List.ext_getElem
      · simp
      · intro i h1 h2
        simp at h1
        simp [Nat.add_comm 1 i, h1]
    rw [this]
    simp

theorem pretty_one (show' : T → List Char) (xs : List T) (f : List Int → T) (h : ∀ i (hi : i < xs.length), f [(i : Int)] = xs[i]) :
    pretty show' [xs.length] f = listed show' xs := by
  rw [pretty, listed]
  congr 2
  apply congrArg
  rw [List.range_eq_range', map_range_getElem xs show' (fun i => pretty show' [] fun idx => f ((i : Int) :: idx))]
  intro i hi
  rw [pretty, h i hi]

/-- A slice of a row is printed as a list. -/
theorem write_row {X : Type} (c : Cfg) (show' : X → List Char) (b : Buf X) (p : Nat) (xs : List X)
    (h : ∀ i (hi : i < xs.length), b.read (p + i) = .ok xs[i]) :
    write c show' b 1 { data := p, dims := [xs.length], strides := [0], usd := 0 } = .ok (listed show' xs) := by
  cases xs with
  | nil =>
    rw [write]
    simp [firstItem, forUp, listed_nil]
  | cons x xs =>
    rw [write_pretty c show' b 1 _ (fun idx => (x :: xs).getD (idx.headD 0).toNat x) rfl rfl]
    · rw [pretty_one]
      intro i hi
      simp at hi
      simp [hi]
    · intro idx hidx
      cases idx with
      | nil => exact absurd hidx (by simp [InBounds])
      | cons i is =>
        cases is with
        | cons _ _ => exact absurd hidx.2 (by simp [InBounds])
        | nil =>
          obtain ⟨⟨h1, h2⟩, -⟩ := hidx
          refine ⟨p + i.toNat, ?_, ?_⟩
          · rw [slice_call_ok c _ (show InBounds [(x :: xs).length] [i] from ⟨⟨h1, h2⟩, trivial⟩)]
            congr 1
            simp [indexing.getLinearIndex, indexing.condMul]
            omega
          · rw [h i.toNat (by omega)]
            rw [getD_getElem _ _ (by simp; simp at h2; omega)]
            rfl

theorem readSize {c : Cfg} {s : Shape} {i n : Nat} (h : s.sizeOfArray c i = .ok n) :
    s.checkBounds c i = .ok () ∧ s.sizes.read i = .ok n := by
  unfold Shape.sizeOfArray at h
  rw [bind_eq_ok] at h
  obtain ⟨u, h1, h2⟩ := h
  exact ⟨h1, h2⟩

theorem outputRows_ok (c : Cfg) (show' : T → List Char) {a : AoA T} {rows : List (List T)} (h : Shows c a rows) :
    outputRows c show' a = .ok (printedRows show' rows) := by
  unfold outputRows
  rw [h.1, forUp_append _ (fun i => decimal i ++ "\t{".toList ++
    ((rows.getD i []).map fun x => show' x ++ ", ".toList).flatten ++ "}\n".toList), bind_ok, printedRows,
    zipIdx_map_range rows (fun r => decimal r.2 ++ "\t{".toList ++ (r.1.map fun x => show' x ++ ", ".toList).flatten ++ "}\n".toList)]
  · rfl
  · intro i hi
    rw [getD_getElem _ _ hi]
  · intro i text _ hi
    obtain ⟨h1, h2⟩ := h.2 i (by omega)
    have hi' : i < rows.length := by omega
    rw [getD_getElem _ _ hi']
    unfold outputRow
    rw [h1, bind_ok, forUp_append _ (fun j => ((rows[i].map fun x => show' x ++ ", ".toList)).getD j [])]
    · rw [bind_ok, showInt_nat, map_range_getElem rows[i] (fun x => show' x ++ ", ".toList)]
      · simp
      · intro j hj
        simp [hj]
    · intro j text _ hj
      have hj' : j < rows[i].length := by omega
      rw [h2 j hj', bind_ok]
      simp [hj']

theorem outputMatrix_ok (c : Cfg) (show' : V → List Char) {m : Crs V} {L : Layout (Nat × V)} (h : CGood m L) :
    outputMatrix c show' m = .ok (printedMatrix show' (L.map (·.1))) := by
  unfold outputMatrix
  have hnum : m.shape.numArrays = (L.map (·.1)).length := by rw [h.shape.num]; simp
  rw [hnum, forUp_append _ (fun i => "row ".toList ++ decimal i ++ "\n\tcolumns: ".toList ++
    listed decimal (((L.map (·.1)).getD i []).map (·.1)) ++ "\n\tvalues: ".toList ++
    listed show' (((L.map (·.1)).getD i []).map (·.2)) ++ "\n".toList), bind_ok, printedMatrix,
    zipIdx_map_range (L.map (·.1)) (fun r => "row ".toList ++ decimal r.2 ++ "\n\tcolumns: ".toList ++ listed decimal (r.1.map (·.1)) ++
      "\n\tvalues: ".toList ++ listed show' (r.1.map (·.2)) ++ "\n".toList)]
  · rfl
  · intro i hi
    rw [getD_getElem _ _ hi]
  · intro i text _ hi
    have hi' : i < (L.map (·.1)).length := by omega
    rw [getD_getElem _ _ hi', List.getElem_map]
    have hlt : i < L.length := by simpa using hi'
    obtain ⟨A, r, B, hL, hA, hr⟩ : ∃ A r B, L = A ++ r :: B ∧ A.length = i ∧ L[i] = r :=
      ⟨L.take i, L[i], L.drop (i + 1), by rw [List.getElem_cons_drop, List.take_append_drop], by simp; omega, rfl⟩
    rw [hr]
    obtain ⟨xs, cap⟩ := r
    rw [hL] at h
    subst hA
    obtain ⟨e1, e2⟩ := readSize (h.shape.sizeOfAt (c := c) rfl)
    have hs : rowSlice c m.shape A.length = .ok { data := (total A : Nat), dims := [xs.length], strides := [0], usd := 0 } := by
      unfold rowSlice
      rw [e1, bind_ok, h.readOff, bind_ok, e2, bind_ok]
    have w1 := write_row c decimal m.columns (total A) (xs.map (·.1)) (fun i hi => (Crs.winC h IsRaw).read_front i hi)
    have w2 := write_row c show' m.entries (total A) (xs.map (·.2)) (fun i hi => (Crs.winE h IsRaw).read_front i hi)
    rw [List.length_map] at w1 w2
    have hd : (fun k : Nat => showInt (k : Int)) = decimal := funext showInt_nat
    rw [hs, hd]
    simp only [bind_ok]
    rw [w1, bind_ok, w2, bind_ok, showInt_nat]
    simp

/-! ### The property -/

/-- **C65, sets.** After any two histories printing the sets succeeds, for each the list of its elements in increasing order is
printed, and the texts are equal exactly when the sets are. -/
theorem C65_sets [LinearOrder T] [Inhabited T] (c c' : Cfg) (show' : T → List Char) (P : T → Prop) (hl : Legible show' P)
    (limit limit' : Option Nat) (ops ops' : List (SetOp T)) (S S' : Finset T) (outs outs' : List (SetOut T))
    (h : Spec.setRun limit ∅ ops = some (S, outs)) (h' : Spec.setRun limit' ∅ ops' = some (S', outs'))
    (hP : ∀ x ∈ S, P x) (hP' : ∀ x ∈ S', P x) :
    ∃ a a' text text', (SortedArr.init T limit).run c ops = .ok (a, outs) ∧ (SortedArr.init T limit').run c' ops' = .ok (a', outs') ∧
      outputSet c show' a = .ok text ∧ outputSet c' show' a' = .ok text' ∧ text = printedSet show' (S.sort (· ≤ ·)) ∧
      (text = text' ↔ S = S') := by
  have key : ∀ (c : Cfg) (limit : Option Nat) (ops : List (SetOp T)) (S : Finset T) (outs : List (SetOut T)),
      Spec.setRun limit ∅ ops = some (S, outs) → ∃ a, (SortedArr.init T limit).run c ops = .ok (a, outs) ∧
        outputSet c show' a = .ok (printedSet show' (S.sort (· ≤ ·))) := by
    intro c limit ops S outs h
    obtain ⟨a, e, hs, hg, -⟩ := C16_sortedArray_is_set c limit ops S outs h
    refine ⟨a, e, ?_⟩
    have hlen : (S.sort (· ≤ ·)).length = S.card := by simp
    unfold outputSet printedSet
    rw [hs, ← hlen]
    split
    · rename_i h0
      rw [List.length_eq_zero_iff.1 h0]
      rfl
    · rename_i h0
      have hne : S.sort (· ≤ ·) ≠ [] := fun e => h0 (by rw [e]; rfl)
      rw [if_neg (by simpa using hne)]
      exact commas_ok show' (fun i => a.get c i) _ hne (fun i hi => hg i (by omega))
  obtain ⟨a, e, t⟩ := key c limit ops S outs h
  obtain ⟨a', e', t'⟩ := key c' limit' ops' S' outs' h'
  refine ⟨a, a', _, _, e, e', t, t', rfl, fun heq => ?_, fun heq => by rw [heq]⟩
  have := printedSet_unique hl (by simpa using hP) (by simpa using hP') heq
  rw [← Finset.sort_toFinset S (· ≤ ·), this, Finset.sort_toFinset]

/-- **C65, arrays of arrays.** Printing succeeds after any history, one line for each array is printed, and the texts of two objects
are equal exactly when their contents are, whatever their capacities. -/
theorem C65_arrays_of_arrays [Inhabited T] (c c' : Cfg) (show' : T → List Char) (P : T → Prop) (hl : Legible show' P) {a a' : AoA T}
    {L L' : List (List T × Nat)} (h : Reach c a L) (h' : Reach c' a' L') (hP : ∀ r ∈ L, ∀ x ∈ r.1, P x) (hP' : ∀ r ∈ L', ∀ x ∈ r.1, P x) :
    ∃ text text', outputRows c show' a = .ok text ∧ outputRows c' show' a' = .ok text' ∧
      text = printedRows show' (L.map (·.1)) ∧ (text = text' ↔ L.map (·.1) = L'.map (·.1)) := by
  refine ⟨_, _, outputRows_ok c show' (shows_of_good (reach_good h)), outputRows_ok c' show' (shows_of_good (reach_good h')), rfl,
    fun heq => ?_, fun heq => by rw [heq]⟩
  exact printedRows_unique hl (by simpa using hP) (by simpa using hP') heq

/-- **C65, matrices.** Printing succeeds after any history, each row is printed as its columns in increasing order and their entries,
and the texts of two matrices are equal exactly when their rows are: the same entry, or none, for each row and column.  The number of
columns is not printed. -/
theorem C65_matrices [Add V] (c c' : Cfg) (show' : V → List Char) (P : V → Prop) (hl : Legible show' P) {colMax colMax' : Nat}
    {m m' : Crs V} {M M' : Spec.Matrix V} (h : ReachMatrix c colMax m M) (h' : ReachMatrix c' colMax' m' M')
    (hP : ∀ f ∈ M.rows, ∀ k v, f k = some v → P v) (hP' : ∀ f ∈ M'.rows, ∀ k v, f k = some v → P v) :
    ∃ text text', outputMatrix c show' m = .ok text ∧ outputMatrix c' show' m' = .ok text' ∧
      text = printedMatrix show' (M.rows.map (entriesOf M.numCols)) ∧ (text = text' ↔ M.rows = M'.rows) := by
  have key : ∀ {c : Cfg} {colMax : Nat} {m : Crs V} {M : Spec.Matrix V}, ReachMatrix c colMax m M →
      outputMatrix c show' m = .ok (printedMatrix show' (M.rows.map (entriesOf M.numCols))) := by
    intro c colMax m M h
    obtain ⟨L, hg, hL⟩ := (reachMatrix_good h).rows
    rw [outputMatrix_ok c show' hg, hL]
    rfl
  have hmem : ∀ {n : Nat} {f : Nat → Option V} {x : Nat × V}, x ∈ entriesOf n f → f x.1 = some x.2 :=
    fun hx => (mem_rowList.1 hx).2
  refine ⟨_, _, key h, key h', rfl, fun heq => ?_, fun heq => ?_⟩
  · have e := printedMatrix_unique hl
      (by
        intro r hr x hx
        obtain ⟨f, hf, rfl⟩ := List.mem_map.1 hr
        exact hP f hf _ _ (hmem hx))
      (by
        intro r hr x hx
        obtain ⟨f, hf, rfl⟩ := List.mem_map.1 hr
        exact hP' f hf _ _ (hmem hx)) heq
    have hr := (reachMatrix_good h).inRange
    have hr' := (reachMatrix_good h').inRange
    have hfun : ∀ (f f' : Nat → Option V), InRange M.numCols f → InRange M'.numCols f' →
        entriesOf M.numCols f = entriesOf M'.numCols f' → f = f' := by
      intro f f' hf hf' e
      have hiff : ∀ k v, f k = some v ↔ f' k = some v := by
        intro k v
        have h1 : (k, v) ∈ rowList M.numCols f ↔ (k, v) ∈ rowList M'.numCols f' := by
          show (k, v) ∈ entriesOf M.numCols f ↔ (k, v) ∈ entriesOf M'.numCols f'
          rw [e]
        rw [mem_rowList, mem_rowList] at h1
        refine ⟨fun h2 => (h1.1 ⟨hf k (by rw [h2]; rfl), h2⟩).2, fun h2 => (h1.2 ⟨hf' k (by rw [h2]; rfl), h2⟩).2⟩
      funext k
      cases e1 : f k with
      | some v => exact ((hiff k v).1 e1).symm
      | none =>
        cases e2 : f' k with
        | none => rfl
        | some v => rw [(hiff k v).2 e2] at e1; cases e1
    apply List.ext_getElem
    · simpa using congrArg List.length e
    · intro i h1 h2
      refine hfun _ _ (hr _ (List.getElem_mem h1)) (hr' _ (List.getElem_mem h2)) ?_
      have := congrArg (fun l => l[i]?) e
      simpa [h1, h2] using this
  · have hlen : ∀ f ∈ M.rows, entriesOf M.numCols f = entriesOf M'.numCols f := by
      intro f hf
      have hf' : InRange M'.numCols f := (reachMatrix_good h').inRange f (by rw [← heq]; exact hf)
      have hf0 := (reachMatrix_good h).inRange f hf
      exact eq_rowList hf' (rowList_increasing _ _) (fun x => by
        show x ∈ rowList M.numCols f ↔ _
        rw [mem_rowList]
        exact ⟨fun h => h.2, fun h => ⟨hf0 _ (by rw [h]; rfl), h⟩⟩)
    rw [← heq, List.map_congr_left hlen]

/-- **C65, arrays.** The texts of two arrays of the same rank with all dimensions positive, whatever their permutations, are equal
exactly when their dimensions and values are. -/
theorem C65_arrays (c c' : Cfg) (show' : T → List Char) (P : T → Prop) (hl : Legible show' P) (a a' : ArrayN T) (h : Wf a) (h' : Wf a')
    (hr : a.dims.length = a'.dims.length) (hpos : ∀ d ∈ a.dims, 0 < d) (hpos' : ∀ d ∈ a'.dims, 0 < d) (f f' : List Int → T)
    (hf : ∀ idx, InBounds a.dims idx → a.get c idx = .ok (f idx) ∧ P (f idx))
    (hf' : ∀ idx, InBounds a'.dims idx → a'.get c' idx = .ok (f' idx) ∧ P (f' idx)) :
    ∃ text text', output c show' a = .ok text ∧ output c' show' a' = .ok text' ∧
      (text = text' ↔ a.dims = a'.dims ∧ ∀ idx, InBounds a.dims idx → f idx = f' idx) := by
  refine ⟨_, _, C36_output c show' a h f (fun idx hi => (hf idx hi).1), C36_output c' show' a' h' f' (fun idx hi => (hf' idx hi).1),
    fun heq => ?_, fun heq => ?_⟩
  · have := (coded_pretty hl a.dims.length).uniq (a.dims, f) (a'.dims, f') [' '] [' '] ⟨rfl, hpos, fun idx hi => (hf idx hi).2⟩
      ⟨hr.symm, hpos', fun idx hi => (hf' idx hi).2⟩ (.inl rfl) (.inl rfl) (by rw [heq])
    exact this.1
  · obtain ⟨e1, e2⟩ := heq
    have key : ∀ (dims : List Nat) (f f' : List Int → T), (∀ idx, InBounds dims idx → f idx = f' idx) →
        pretty show' dims f = pretty show' dims f' := by
      intro dims
      induction dims with
      | nil => intro f f' h; rw [pretty, pretty, h [] trivial]
      | cons d ds ih =>
        intro f f' h
        rw [pretty, pretty]
        have : (List.range d).map (fun (i : Nat) => pretty show' ds fun idx => f ((i : Int) :: idx)) =
            (List.range d).map (fun (i : Nat) => pretty show' ds fun idx => f' ((i : Int) :: idx)) :=
          List.map_congr_left (fun i hi => ih _ _ (fun idx hidx => h _ ⟨⟨by omega, by have := List.mem_range.1 hi; omega⟩, hidx⟩))
        rw [this]
    rw [← e1]
    exact key _ _ _ e2

/-- **C65, C arrays.** One and two dimensional C arrays are printed like the array with the same values. -/
theorem C65_c_arrays (show' : T → List Char) (f g : List Int → T) (m n : Nat) (hm : 0 < m) (hn : 0 < n) :
    outputCArray (fun (i : Nat) => show' (f [(i : Int)])) n = .ok (pretty show' [n] f) ∧
    ∃ row : Nat → List Char, (∀ (i : Nat), outputCArray (fun (j : Nat) => show' (g [(i : Int), (j : Int)])) n = .ok (row i)) ∧
      outputCArray row m = .ok (pretty show' [m, n] g) := by
  have key : ∀ (item : Nat → List Char) (n : Nat), 0 < n →
      outputCArray item n = .ok ("{ ".toList ++ ", ".toList.intercalate ((List.range n).map item) ++ " }".toList) := by
    intro item n hn
    obtain ⟨k, rfl⟩ : ∃ k, n = k + 1 := ⟨n - 1, by omega⟩
    have e := forUp_restItems [',', ' '] item (fun i => .ok (item i)) k 1 (['{', ' '] ++ item 0) (fun _ _ _ => rfl)
    simp only [bind_ok] at e
    rw [show ", ".toList = [',', ' '] by rfl, intercalate_range, outputCArray]
    simp only [Nat.add_one_ne_zero, if_false, Nat.add_sub_cancel]
    rw [e, bind_ok]
    simp
  exact ⟨key _ n hn, _, fun i => key _ n hn, key _ m hm⟩

/-- **C65, console.** `print` reads only elements that exist and shows sizes, offsets (the sums of the capacities of the rows before)
and each entry with its row and column. -/
theorem C65_console [Add V] (c : Cfg) (fmt : Formats V) {colMax : Nat} {m : Crs V} {M : Spec.Matrix V} (h : ReachMatrix c colMax m M)
    (caps : List Nat) (hc : caps.length = M.rows.length)
    (hcap : ∀ i (hi : i < caps.length), m.shape.capacityOfArray c i = .ok caps[i]) :
    printMatrix fmt m = .ok (console fmt.int4 fmt.int9 fmt.entry (M.rows.map (entriesOf M.numCols)) caps) := by
  obtain ⟨L, hg, hL⟩ := (reachMatrix_good h).rows
  have hLM : L.map (·.1) = M.rows.map (entriesOf M.numCols) := hL
  rw [← hLM]
  have hlen : L.length = M.rows.length := by simpa using congrArg List.length hL
  have hcaps : caps = L.map (·.2) := by
    apply List.ext_getElem
    · simp [hc, hlen]
    · intro i h1 h2
      have e1 := hcap i h1
      have hi : i < L.length := by simpa using h2
      rw [hg.shape.capacityOf' hi] at e1
      simpa using e1.symm
  have hnum : m.shape.numArrays = L.length := by rw [hg.shape.num]
  have hoff : ∀ i, i ≤ L.length → m.shape.offsets.read i = .ok (caps.take i).sum := by
    intro i hi
    rw [hg.shape.readOff' hi, hcaps, total, List.map_take]
  have hsize : ∀ i (hi : i < L.length), m.shape.sizes.read i = .ok L[i].1.length := fun i hi =>
    (readSize (hg.shape.sizeOf' (c := c) hi)).2
  unfold printMatrix
  simp only [hnum]
  rw [forUp_append _ (fun i => fmt.int4 ((L.map (·.1)).getD i []).length ++ ", ".toList) L.length 0 _ (by
      intro i text _ hi
      have hi' : i < L.length := by omega
      rw [hsize i hi', bind_ok, getD_getElem _ _ (by simpa using hi')]
      simp), bind_ok,
    forUp_append _ (fun i => fmt.int4 (caps.take i).sum ++ ", ".toList) (L.length + 1) 0 _ (by
      intro i text _ hi
      rw [hoff i (by omega), bind_ok]
      simp), bind_ok,
    forUp_append _ (fun i => fmt.int4 ((L.map (·.1)).getD i []).length ++ "\n".toList ++
      (((L.map (·.1)).getD i []).map fun x => fmt.int4 i ++ " ".toList ++ fmt.int9 x.1 ++ " ".toList ++ fmt.entry x.2 ++ "\n".toList).flatten)
      L.length 0 _ (by
      intro i text _ hi
      have hi' : i < L.length := by omega
      rw [hsize i hi', bind_ok, getD_getElem _ _ (by simpa using hi'), List.getElem_map]
      obtain ⟨A, r, B, hL', hA, hr⟩ : ∃ A r B, L = A ++ r :: B ∧ A.length = i ∧ L[i] = r :=
        ⟨L.take i, L[i], L.drop (i + 1), by rw [List.getElem_cons_drop, List.take_append_drop], by simp; omega, rfl⟩
      rw [hr]
      obtain ⟨xs, cap⟩ := r
      have hg' := hg
      rw [hL'] at hg'
      subst hA
      rw [forUp_append _ (fun j => ((xs.map fun x => fmt.int4 A.length ++ " ".toList ++ fmt.int9 x.1 ++ " ".toList ++ fmt.entry x.2 ++
          "\n".toList)).getD j [])]
      · rw [map_range_getElem xs (fun x => fmt.int4 A.length ++ " ".toList ++ fmt.int9 x.1 ++ " ".toList ++ fmt.entry x.2 ++ "\n".toList)]
        · simp
        · intro j hj
          simp [hj]
      · intro j text _ hj
        have hj' : j < xs.length := by simpa using hj
        have w1 := (Crs.winC hg' IsRaw).read_front j (by simpa using hj')
        have w2 := (Crs.winE hg' IsRaw).read_front j (by simpa using hj')
        rw [hg'.readOff, bind_ok, w1, bind_ok, w2, bind_ok]
        simp [hj']), bind_ok]
  unfold console
  rw [← List.length_map (f := fun r : List (Nat × V) × Nat => r.1) (as := L),
    map_range_getElem (L.map (·.1)) (fun r => fmt.int4 r.length ++ ", ".toList),
    zipIdx_map_range (L.map (·.1)) (fun r => fmt.int4 r.1.length ++ "\n".toList ++
      (r.1.map fun x => fmt.int4 r.2 ++ " ".toList ++ fmt.int9 x.1 ++ " ".toList ++ fmt.entry x.2 ++ "\n".toList).flatten),
    List.range_eq_range']
  · simp
  · intro i hi
    rw [getD_getElem _ _ hi]
  · intro i hi
    rw [getD_getElem _ _ hi]

/-! ### Cases -/

/-- Every integer has a text that identifies it. -/
theorem legible_showInt : Legible showInt (fun _ => True) where
  inj x y _ _ h := by
    have h1 := (C36_integers (min x y) (max x y) x ⟨by omega, by omega⟩).back []
    have h2 := (C36_integers (min x y) (max x y) y ⟨by omega, by omega⟩).back []
    rw [h, h2] at h1
    simpa using h1.symm
  word x _ := by
    obtain ⟨h1, h2, -⟩ := C36_integers x x x ⟨by omega, by omega⟩
    exact ⟨h1, fun ch hch => ⟨(h2 ch hch).1, (h2 ch hch).2.2.2, (h2 ch hch).2.1, (h2 ch hch).2.2.1⟩⟩

-- an object with two arrays and unused capacity
example : (do
    let a ← AoA.mk' { trivial := true, boundsCheck := true, debug := true } 2 1
    let a ← AoA.run { trivial := true, boundsCheck := true, debug := true } a [.emplaceBack 0 (-7), .emplaceBack 0 (12 : Int)]
    outputRows { trivial := true, boundsCheck := true, debug := true } showInt a) = .ok "{\n0\t{-7, 12, }\n1\t{}\n}\n".toList := by
  decide +kernel

-- a matrix
example : (do
    let m ← Crs.mk' { trivial := true, boundsCheck := true, debug := true } 100 2 8 1
    let r ← Crs.run { trivial := true, boundsCheck := true, debug := true } 100 m [.insert 0 5 (50 : Int), .insert 0 1 (-1)]
    outputMatrix { trivial := true, boundsCheck := true, debug := true } showInt r.1) =
    .ok "{\nrow 0\n\tcolumns: { 1, 5 }\n\tvalues: { -1, 50 }\nrow 1\n\tcolumns: {  }\n\tvalues: {  }\n}\n".toList := by
  decide +kernel

-- sets
example : (do
    let r ← (SortedArr.init Int none).run { trivial := true, boundsCheck := true, debug := true } [.insert 5, .insert (-2)]
    outputSet { trivial := true, boundsCheck := true, debug := true } showInt r.1) = .ok "{ -2, 5 }".toList := by
  decide +kernel

/-- Why the texts of the values have to be words: an array with one string and an array with two strings are printed alike. -/
theorem C65_ambiguous_strings :
    printedRows id [["a, b".toList]] = printedRows id [["a".toList, "b".toList]] ∧
    printedSet id ["a, b".toList] = printedSet id ["a".toList, "b".toList] := by decide

/-- Why the dimensions have to be positive: the text of an array without elements does not tell its shape. -/
theorem C65_empty_shapes (show' : T → List Char) (f : List Int → T) (d : Nat) : pretty show' [0, d] f = "{  }".toList := rfl

end LvArray.Props

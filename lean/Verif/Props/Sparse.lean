import Verif.CrsMore
import Verif.Props.ArrayOfSets

/-!
# C29, C30, C32, C33, C25: `SparsityPattern` and `CRSMatrix`
-/

namespace LvArray.Props

open LvArray Layout Spec sortedArrayManipulation

set_option linter.unusedSectionVars false

/-! ### What the accessors show -/

/-- What the accessors of a `SparsityPattern` report: the numbers of columns, rows and non zeros per row, the columns of the non
zeros in iteration order, the answer of `empty( row, col )` for every column and the total number of non zeros. -/
def ShowsPattern (c : Cfg) (s : Sp) (P : Pattern) : Prop :=
  s.numCols = P.numCols ∧ ShowsSets c s.sets P.rows ∧
  (∀ i (hi : i < P.rows.length) k, s.isEmpty c i k = .ok (decide (k ∉ P.rows[i]))) ∧
  Sp.numNonZeros c s.sets.shape = .ok (P.rows.map (·.card)).sum

/-- `SparsityPattern s( r, n, k )`, then the legal history `ops`, leads to `s`; `P` is what the specification says. -/
def ReachPattern (c : Cfg) (colMax : Nat) (s : Sp) (P : Pattern) : Prop :=
  ∃ r n k ops outs s0, n ≤ colMax + 1 ∧ Sp.mk' c colMax r n k = .ok s0 ∧ Sp.run c colMax s0 ops = .ok (s, outs) ∧
    spRun colMax { numCols := n, rows := List.replicate r ∅ } ops = some (P, outs)

variable {V : Type}

/-- What the accessors of a `CRSMatrix` report: the numbers of columns, rows and non zeros per row, the `k`-th column of every
row, in increasing order, together with the entry of that column, the answer of `empty( row, col )` for every column, and the
total number of non zeros. -/
def ShowsMatrix (c : Cfg) (m : Crs V) (M : Spec.Matrix V) : Prop :=
  m.numCols = M.numCols ∧ m.shape.numArrays = M.rows.length ∧
  (∀ i (hi : i < M.rows.length),
    m.shape.sizeOfArray c i = .ok (columnsOf M.numCols M.rows[i]).length ∧
    (∀ k (hk : k < (columnsOf M.numCols M.rows[i]).length),
      m.getColumn c i k = .ok (columnsOf M.numCols M.rows[i])[k] ∧
      ∃ v, M.rows[i] (columnsOf M.numCols M.rows[i])[k] = some v ∧ m.getEntry c i k = .ok v) ∧
    ∀ col, m.isEmpty c i col = .ok (M.rows[i] col).isNone) ∧
  Sp.numNonZeros c m.shape = .ok (M.rows.map fun f => (columnsOf M.numCols f).length).sum

/-- `CRSMatrix m( r, n, k )`, then the legal history `ops`, leads to `m`; `M` is what the specification says. -/
def ReachMatrix [Add V] (c : Cfg) (colMax : Nat) (m : Crs V) (M : Spec.Matrix V) : Prop :=
  ∃ r n k ops outs m0, n ≤ colMax + 1 ∧ Crs.mk' c colMax r n k = .ok m0 ∧ Crs.run c colMax m0 ops = .ok (m, outs) ∧
    crsRun colMax { numCols := n, rows := List.replicate r (fun _ => none) } ops = some (M, outs)

theorem showsPattern_of_good {c : Cfg} (ht : c.trivial = true) {s : Sp} {P : Pattern} (h : SpGood s P) : ShowsPattern c s P := by
  have hs := showsSets_of_good (c := c) h.sets
  refine ⟨h.cols, hs, fun i hi k => ?_, ?_⟩
  · unfold Sp.isEmpty
    rw [(hs.2 i hi).2.2 k, bind_ok]
    simp
  · obtain ⟨s', h1, -⟩ := h.step_ok ht 0 .numNonZeros _ _ rfl
    simp only [Sp.step] at h1
    rw [bind_eq_ok] at h1
    obtain ⟨n, h2, h3⟩ := h1
    simp only [Except.ok.injEq, Prod.mk.injEq, AoSOut.num.injEq] at h3
    rw [h2, h3.2]

theorem reachPattern_good {c : Cfg} (ht : c.trivial = true) {colMax : Nat} {s : Sp} {P : Pattern}
    (h : ReachPattern c colMax s P) : SpGood s P := by
  obtain ⟨r, n, k, ops, outs, s0, h0, h1, h2, h3⟩ := h
  obtain ⟨s1, h4, h5⟩ := SpGood.mk_ok c colMax r n k h0
  rw [h1] at h4
  cases h4
  obtain ⟨s', h6, h7⟩ := h5.run_ok ht colMax ops P outs h3
  rw [h2] at h6
  cases h6
  exact h7

theorem showsMatrix_of_good [Add V] {c : Cfg} {m : Crs V} {M : Spec.Matrix V} (h : CrsGood m M) : ShowsMatrix c m M := by
  have hn : m.shape.numArrays = M.rows.length := by
    obtain ⟨L, hg, hL⟩ := h.rows
    rw [hg.shape.num]
    simpa using congrArg List.length hL
  refine ⟨h.cols, hn, fun i hi => ?_, ?_⟩
  · obtain ⟨A, cap, B, rfl, hg, hr, -⟩ := h.at_ (List.getElem?_eq_getElem hi)
    refine ⟨by rw [hg.shape.sizeOfAt rfl, columnsOf_length], fun k hk => ?_, fun col => ?_⟩
    · have hk' : k < (rowList M.numCols M.rows[A.length]).length := by rw [← columnsOf_length]; exact hk
      have hcol : (columnsOf M.numCols M.rows[A.length])[k] = (rowList M.numCols M.rows[A.length])[k].1 := by
        simp only [columnsOf_eq, List.getElem_map]
      refine ⟨by rw [Crs.getColumn_ok hg k hk', hcol], _, ?_, Crs.getEntry_ok hg k hk'⟩
      rw [hcol]
      exact (mem_rowList.1 (List.getElem_mem hk')).2
    · rw [Crs.isEmpty_ok hg (rowList_increasing _ _) col, decide_key hr col]
      simp
  · rcases h.step_ok (c := c) 0 .numNonZeros _ _ rfl with ⟨m', h1, -⟩ | ⟨_, h1⟩
    · simp only [Crs.step] at h1
      rw [bind_eq_ok] at h1
      obtain ⟨n, h2, h3⟩ := h1
      simp only [Except.ok.injEq, Prod.mk.injEq, AoSOut.num.injEq] at h3
      rw [h2, h3.2]
    · simp only [Crs.step] at h1
      obtain ⟨L, hg, hL⟩ := h.rows
      exfalso
      have hlen : L.length = M.rows.length := by simpa using congrArg List.length hL
      rw [numNonZeros_ok (M.rows.map fun f => (columnsOf M.numCols f).length)
        (by rw [hg.shape.num]; simp [hlen]) (by
        intro i hi
        obtain ⟨A, cap, B, rfl, hg', _⟩ := h.at_ (i := i) (List.getElem?_eq_getElem (by simpa using hi))
        rw [hg'.shape.sizeOfAt rfl]
        simp [columnsOf_length]), bind_ok] at h1
      cases h1

theorem reachMatrix_good [Add V] {c : Cfg} {colMax : Nat} {m : Crs V} {M : Spec.Matrix V} (h : ReachMatrix c colMax m M) :
    CrsGood m M := by
  obtain ⟨r, n, k, ops, outs, m0, h0, h1, h2, h3⟩ := h
  obtain ⟨m1, h4, h5⟩ := CrsGood.mk_ok (V := V) c colMax r n k h0
  rw [h1] at h4
  cases h4
  rcases h5.run_ok (c := c) colMax ops M outs h3 with ⟨m', h6, h7⟩ | ⟨_, h6⟩
  · rw [h2] at h6
    cases h6
    exact h7
  · rw [h2] at h6
    cases h6

/-! ### C29 -/

/-- **C29, sparsity patterns.** A `SparsityPattern` behaves like a list of sets of columns: for every history of legal calls
from construction on no call fails, every call returns what the specification returns (whether the column was new or present,
how many columns were added or removed), and afterwards the accessors show exactly the sets of the specification: the columns
of every row sorted, unique and in range.  Columns are integers, so trivially copyable. -/
theorem C29_sparsity_pattern (c : Cfg) (ht : c.trivial = true) (colMax r n k : Nat) (hn : n ≤ colMax + 1) (ops : List SpOp)
    (P : Pattern) (outs : List (AoSOut Nat))
    (hs : spRun colMax { numCols := n, rows := List.replicate r ∅ } ops = some (P, outs)) :
    ∃ s0 s, Sp.mk' c colMax r n k = .ok s0 ∧ Sp.run c colMax s0 ops = .ok (s, outs) ∧ ShowsPattern c s P ∧
      ∀ S ∈ P.rows, ∀ j ∈ S, j < P.numCols := by
  obtain ⟨s0, h1, h2⟩ := SpGood.mk_ok c colMax r n k hn
  obtain ⟨s, h3, h4⟩ := h2.run_ok ht colMax ops P outs hs
  exact ⟨s0, s, h1, h3, showsPattern_of_good ht h4, h4.inRange⟩

-- a history that grows a row in the middle and removes columns
example : spRun 100 { numCols := 8, rows := List.replicate 2 ∅ }
    [.insert 0 5, .insertMany 0 [1, 3, 5], .insert 1 7, .insert 1 7, .removeMany 0 [3, 4], .appendRow 2, .insert 2 0,
      .isEmpty 1 7, .numNonZeros] = some ({ numCols := 8, rows := [{1, 5}, {7}, {0}] },
    [.bool true, .num 2, .bool true, .bool false, .num 1, .unit, .bool true, .bool false, .num 4]) := by decide +kernel

/-- **C29, matrices.** A `CRSMatrix` with trivially copyable entries behaves like a list of partial functions from columns to
entries: for every history of legal calls from construction on no call fails, every call returns what the specification
returns, and afterwards the accessors show exactly the functions of the specification: every row's columns sorted, unique and in
range, and with each column its entry. -/
theorem C29_matrix [Add V] (c : Cfg) (ht : c.trivial = true) (colMax r n k : Nat) (hn : n ≤ colMax + 1) (ops : List (CrsOp V))
    (M : Spec.Matrix V) (outs : List (AoSOut (Nat ⊕ V)))
    (hs : crsRun colMax { numCols := n, rows := List.replicate r (fun _ => none) } ops = some (M, outs)) :
    ∃ m0 m, Crs.mk' c colMax r n k = .ok m0 ∧ Crs.run c colMax m0 ops = .ok (m, outs) ∧ ShowsMatrix c m M ∧
      ∀ f ∈ M.rows, ∀ j, (f j).isSome → j < M.numCols := by
  obtain ⟨m0, h1, h2⟩ := CrsGood.mk_ok (V := V) c colMax r n k hn
  rcases h2.run_ok (c := c) colMax ops M outs hs with ⟨m, h3, h4⟩ | ⟨h3, _⟩
  · exact ⟨m0, m, h1, h3, showsMatrix_of_good h4, h4.inRange⟩
  · rw [ht] at h3; cases h3

/-- **C29, matrices with any entry type (partial).** For entries that are not trivially copyable the only other outcome is the
relocation of memory without objects when the allocation grows (`C29_growth_moves_gaps`).  Missing: that outcome excluded, which
is false of the code. -/
theorem C29_any_type_partial [Add V] (c : Cfg) (colMax r n k : Nat) (hn : n ≤ colMax + 1) (ops : List (CrsOp V))
    (M : Spec.Matrix V) (outs : List (AoSOut (Nat ⊕ V)))
    (hs : crsRun colMax { numCols := n, rows := List.replicate r (fun _ => none) } ops = some (M, outs)) :
    ∃ m0, Crs.mk' c colMax r n k = .ok m0 ∧
      ((∃ m, Crs.run c colMax m0 ops = .ok (m, outs) ∧ ShowsMatrix c m M) ∨
       (c.trivial = false ∧ Crs.run c colMax m0 ops = .error (.ub .rawRead))) := by
  obtain ⟨m0, h1, h2⟩ := CrsGood.mk_ok (V := V) c colMax r n k hn
  refine ⟨m0, h1, ?_⟩
  rcases h2.run_ok (c := c) colMax ops M outs hs with ⟨m, h3, h4⟩ | h3
  · exact .inl ⟨m, h3, showsMatrix_of_good h4⟩
  · exact .inr h3

-- a history that grows rows, moves entries and adds to them
example : (crsRun 100 { numCols := 8, rows := List.replicate 2 (fun _ => (none : Option Nat)) }
    [.insert 0 5 50, .insertMany 0 [(1, 10), (3, 30), (5, 99)], .insert 1 7 70, .remove 0 3, .addToRow .unsorted 0 [(5, 2), (1, 1)],
      .getColumn 0 1, .getEntry 0 1, .getEntry 0 0, .numNonZeros]).map (·.2) =
    some [.bool true, .num 2, .bool true, .bool true, .unit, .val (.inl 5), .val (.inr 52), .val (.inr 11), .num 3] := by
  decide +kernel

/-- A matrix as in the hypotheses of the theorems above and below: two rows, the first with entries in columns 1 and 5. -/
theorem reachMatrix_example (c : Cfg) (ht : c.trivial = true) : ∃ (m : Crs Nat) (M : Spec.Matrix Nat), ReachMatrix c 100 m M ∧
    M.numCols = 8 ∧
    M.rows.map (fun f => ((f 1, f 2), (f 5, f 7))) = [((some 10, none), (some 50, none)), ((none, none), (none, some 70))] := by
  have h : (crsRun 100 { numCols := 8, rows := List.replicate 2 (fun _ => (none : Option Nat)) }
      [.insert 0 5 50, .insertMany 0 [(1, 10), (3, 30)], .insert 1 7 70, .remove 0 3]).map (fun r => (r.1.numCols,
        r.1.rows.map (fun f => ((f 1, f 2), (f 5, f 7))))) =
      some (8, [((some 10, none), (some 50, none)), ((none, none), (none, some 70))]) := by decide +kernel
  obtain ⟨⟨M, outs⟩, hs, hM⟩ := Option.map_eq_some_iff.mp h
  obtain ⟨m0, m, h1, h2, -⟩ := C29_matrix c ht 100 2 8 1 (by omega) _ M outs hs
  exact ⟨m, M, ⟨2, 8, 1, _, outs, m0, by omega, h1, h2, hs⟩, congrArg (·.1) hM, congrArg (·.2) hM⟩

/-- A pattern as in the hypotheses of the theorems below. -/
theorem reachPattern_example (c : Cfg) (ht : c.trivial = true) : ∃ s, ReachPattern c 100 s { numCols := 8, rows := [{1, 5}, {7}] } := by
  obtain ⟨s0, s, h1, h2, -⟩ := C29_sparsity_pattern c ht 100 2 8 1 (by omega)
    [.insertMany 0 [1, 3, 5], .insert 1 7, .removeMany 0 [3, 4]]
    { numCols := 8, rows := [{1, 5}, {7}] } [.num 3, .bool true, .num 1] (by decide +kernel)
  exact ⟨s, 2, 8, 1, _, _, s0, by omega, h1, h2, by decide +kernel⟩
/-- **C29, disagreement.** Growing a row of a matrix whose entries are not trivially copyable moves from memory that holds no
object as soon as a row in front of another one has spare capacity. -/
theorem C29_growth_moves_gaps :
    (Crs.mk' { trivial := false, boundsCheck := true, debug := true } 100 2 8 1 >>= fun (m : Crs Nat) =>
      Crs.run { trivial := false, boundsCheck := true, debug := true } 100 m
        [.insert 1 0 10, .insert 1 1 11] >>= fun _ => .ok ()) = .error (.ub .rawRead) := by
  decide +kernel

/-- **C29, disagreement (why columns have to be in range).** Inserting a column outside of the matrix is not reported, not even
with bounds checks and assertions; the row cannot grow beyond the number of columns, so the entry goes to the next row: row 1
changes from `{ 0 ↦ 20 }` to `{ 1 ↦ 30 }`. -/
theorem C29_column_out_of_range :
    (Crs.mk' { trivial := true, boundsCheck := true, debug := true } 100 2 1 1 >>= fun (m : Crs Nat) =>
      Crs.run { trivial := true, boundsCheck := true, debug := true } 100 m
        [.insert 0 0 10, .insert 1 0 20, .getColumn 1 0, .getEntry 1 0, .insert 0 1 30, .getColumn 1 0, .getEntry 1 0] >>= fun r =>
      .ok r.2) =
    .ok [.bool true, .bool true, .val (.inl 0), .val (.inr 20), .bool true, .val (.inl 1), .val (.inr 30)] := by
  decide +kernel

/-- The row a call on a `CRSMatrix` names. -/
def CrsOp.rowOf : CrsOp V → Option Nat
  | .insert i _ _ | .insertMany i _ | .remove i _ | .removeMany i _ | .isEmpty i _ | .getColumn i _ | .getEntry i _
  | .setRowCapacity i _ | .reserveNonZeros i _ | .addToRow _ i _ => some i
  | _ => none

/-- **C29 (bad row).** With bounds checks every call on a `CRSMatrix` that names a row that does not exist aborts. -/
theorem C29_bad_row_reported [Add V] (c : Cfg) (hb : c.boundsCheck = true) {colMax : Nat} {m : Crs V} {M : Spec.Matrix V}
    (h : ReachMatrix c colMax m M) (op : CrsOp V) (i : Nat) (hop : CrsOp.rowOf op = some i) (hi : M.rows.length ≤ i) :
    m.step c colMax op = .error .abort := by
  obtain ⟨L, hg, hL⟩ := (reachMatrix_good h).rows
  have hlen : L.length = M.rows.length := by simpa using congrArg List.length hL
  have hbo : m.shape.checkBounds c i = .error .abort := ShGood.checkBounds_abort hg.shape hb (by simp; omega)
  have hsz : m.shape.sizeOfArray c i = .error .abort := ShGood.sizeOf_abort hg.shape hb (by simp; omega)
  have hcp : m.shape.capacityOfArray c i = .error .abort := by unfold Shape.capacityOfArray; rw [hbo, bind_err]
  have hb2 : ∀ k, m.shape.checkBounds2 c i k = .error .abort := fun k =>
    ShGood.checkBounds2_abort hg.shape hb (by
      intro n h1
      rw [List.getElem?_eq_none (by simp [szs]; omega)] at h1
      cases h1)
  cases op <;> simp only [CrsOp.rowOf, Option.some.injEq, reduceCtorEq] at hop <;> try subst hop
  case insert => simp only [Crs.step, Crs.insertNonZero, Crs.insertNonZeroIn, hsz, bind_err]
  case insertMany => simp only [Crs.step, Crs.insertNonZeros, Crs.insertNonZerosIn, hsz, bind_err]
  case remove => simp only [Crs.step, Crs.removeNonZero, Crs.removeNonZeroIn, hsz, bind_err]
  case removeMany => simp only [Crs.step, Crs.removeNonZeros, Crs.removeNonZerosIn, hsz, bind_err]
  case isEmpty => simp only [Crs.step, Crs.isEmpty, hbo, bind_err]
  case getColumn => simp only [Crs.step, Crs.getColumn, hb2, bind_err]
  case getEntry => simp only [Crs.step, Crs.getEntry, hb2, bind_err]
  case setRowCapacity => simp only [Crs.step, Crs.setRowCapacity, Crs.setCapacityOfArray, hbo, bind_err]
  case reserveNonZeros => simp only [Crs.step, Crs.reserveNonZeros, hcp, bind_err]
  case addToRow how _ _ =>
    cases how
    · simp only [Crs.step, Crs.addToRow, hsz, bind_err]
    · simp only [Crs.step, Crs.addToRowBinarySearch, hsz]
      unfold errorIf; split <;> rfl
    · simp only [Crs.step, Crs.addToRowLinearSearch, hsz]
      unfold errorIf; split <;> rfl
    · simp only [Crs.step, Crs.addToRowBinarySearchUnsorted, hsz, bind_err]

/-- **C29 (views).** Inserting through a view works like inserting into the matrix while the row has room, and otherwise aborts
in builds with bounds checks; it never relocates, for every entry type. -/
theorem C29_view_insert [Add V] (c : Cfg) {colMax : Nat} {m : Crs V} {M : Spec.Matrix V} (h : ReachMatrix c colMax m M) (i : Nat)
    (hi : i < M.rows.length) (k : Nat) (hk : k < M.numCols) (v : V) (cap : Nat) (hcap : m.shape.capacityOfArray c i = .ok cap) :
    ((columnsOf M.numCols M.rows[i]).length < cap ∨ (M.rows[i] k).isSome →
      ∃ m', m.insertNonZero c false i k v = .ok (m', (M.rows[i] k).isNone) ∧
        ShowsMatrix c m' { M with rows := M.rows.set i fun j => if j = k then (M.rows[i] j).or (some v) else M.rows[i] j }) ∧
    (cap ≤ (columnsOf M.numCols M.rows[i]).length → (M.rows[i] k).isNone → c.boundsCheck = true →
      m.insertNonZero c false i k v = .error .abort) := by
  replace h := reachMatrix_good h
  obtain ⟨A, cap', B, rfl, hg, hr, hset⟩ := h.at_ (List.getElem?_eq_getElem hi)
  have hc : cap' = cap := by
    rw [hg.shape.capacityOfAt rfl] at hcap
    simpa using hcap
  subst hc
  have hx := rowList_increasing M.numCols M.rows[A.length]
  have hfit := hg.layC.fits ((rowList M.numCols M.rows[A.length]).map (·.1), cap') (by simp)
  simp only [List.length_map] at hfit
  rw [columnsOf_length]
  have hinc : ∀ n, (rowList M.numCols M.rows[A.length]).length + n ≤ cap' →
      Crs.inc c false A.length (rowList M.numCols M.rows[A.length]).length cap' m n = .ok m := by
    intro n hn
    show (errorIf (c.boundsCheck && decide (cap' < _ + n)) >>= fun _ => .ok m) = _
    rw [decide_eq_false (by omega), Bool.and_false, errorIf_false, bind_ok]
  constructor
  · intro hroom
    obtain ⟨m', ys, cap1, h1, h2, h3, h4, h5⟩ := Crs.insert_ok (ci := c.ix) (c := c) (own := false) hg hx k v (fun n hn => by
      have hle : (rowList M.numCols M.rows[A.length]).length + n ≤ cap' := by
        by_cases ha : ∀ x ∈ rowList M.numCols M.rows[A.length], x.1 ≠ k
        · rw [if_pos ha] at hn
          rcases hroom with hroom | hroom
          · omega
          · rw [noKey_iff hr] at ha
            rw [← Option.not_isSome, hroom] at ha
            cases ha
        · rw [if_neg ha] at hn; omega
      exact ⟨m, cap', hinc n hle, rfl, hg, hle⟩)
    have hr' := insert_inRange hr hk v
    have hys := rowList_insert hr hk h4 h5
    subst hys
    rw [decide_noKey hr k] at h1
    exact ⟨m', h1, showsMatrix_of_good (hset _ _ _ h3 h2 hr')⟩
  · intro hfull hnone hb
    refine Crs.insert_err hg hx k v ((noKey_iff hr k).2 hnone) .abort ?_
    show (errorIf (c.boundsCheck && decide (cap' < _ + 1)) >>= fun _ => .ok m) = _
    rw [hb, decide_eq_true (by omega)]
    rfl

/-- **C29 (views of patterns).** With bounds checks a view reports columns outside of the pattern. -/
theorem C29_view_column_reported (c : Cfg) (hb : c.boundsCheck = true) (s : Sp) (row : Nat) (cols : List Nat)
    (hk : ∃ k ∈ cols, s.numCols ≤ k) :
    s.viewInsertNonZeros c row cols = .error .abort ∧ s.removeNonZeros c row cols = .error .abort ∧
    ∀ k, s.numCols ≤ k → s.viewInsertNonZero c row k = .error .abort ∧ s.removeNonZero c row k = .error .abort := by
  have hchk : s.sets.shape.checkBounds c row = .ok () ∨ s.sets.shape.checkBounds c row = .error .abort := by
    unfold Shape.checkBounds errorIf
    split
    · exact .inr rfl
    · exact .inl rfl
  have hcol : Sp.columnCheck c s.numCols cols = .error .abort := by
    unfold Sp.columnCheck errorIf
    rw [if_pos]
    obtain ⟨k, h1, h2⟩ := hk
    simp only [hb, Bool.true_and, List.any_eq_true, decide_eq_true_eq]
    exact ⟨k, h1, h2⟩
  refine ⟨?_, ?_, fun k hk' => ?_⟩
  · unfold Sp.viewInsertNonZeros
    rcases hchk with e | e <;> rw [e]
    · rw [bind_ok, hcol, bind_err]
    · rfl
  · unfold Sp.removeNonZeros
    rcases hchk with e | e <;> rw [e]
    · rw [bind_ok, hcol, bind_err]
    · rfl
  · have hcol' : Sp.columnCheck c s.numCols [k] = .error .abort := by
      unfold Sp.columnCheck errorIf
      rw [if_pos]
      simp [hb, hk']
    constructor
    · unfold Sp.viewInsertNonZero
      rcases hchk with e | e <;> rw [e]
      · rw [bind_ok, hcol', bind_err]
      · rfl
    · unfold Sp.removeNonZero
      rcases hchk with e | e <;> rw [e]
      · rw [bind_ok, hcol', bind_err]
      · rfl

/-! ### C30: `addToRow` -/

/-- What adding the values `args` (pairs of a column and a value) does to a row: to the entry of every column the values given
for that column are added, one after the other. -/
def addAll [Add V] (f : Nat → Option V) (args : List (Nat × V)) : Nat → Option V :=
  fun k => (f k).map fun x => ((args.filter fun a => a.1 == k).map (·.2)).foldl (· + ·) x

theorem foldl_addEntry [Add V] (args : List (Nat × V)) (f : Nat → Option V) : args.foldl addEntry f = addAll f args := by
  induction args generalizing f with
  | nil => funext k; simp [addAll]
  | cons a args ih =>
    rw [List.foldl_cons, ih]
    funext k
    unfold addAll addEntry
    by_cases e : k = a.1
    · subst e
      cases f a.1 <;> simp
    · have : (a.1 == k) = false := by simpa using fun h => e h.symm
      simp [e, this]

/-- **C30.** All variants of `addToRow` add to the entries of the given columns the given values and change nothing else, if every
given column is present: in any order for `addToRowBinarySearchUnsorted`, in strictly increasing order for the others.  Every entry
type, every build configuration. -/
theorem C30_addToRow [Add V] (c : Cfg) {colMax : Nat} {m : Crs V} {M : Spec.Matrix V} (h : ReachMatrix c colMax m M) (i : Nat)
    (hi : i < M.rows.length) (args : List (Nat × V)) (hp : ∀ a ∈ args, (M.rows[i] a.1).isSome) :
    (∃ m', m.addToRowBinarySearchUnsorted c i args = .ok m' ∧
      ShowsMatrix c m' { M with rows := M.rows.set i (addAll M.rows[i] args) }) ∧
    (sortedUnique (args.map (·.1)) →
      (∃ m', m.addToRowBinarySearch c i args = .ok m' ∧
        ShowsMatrix c m' { M with rows := M.rows.set i (addAll M.rows[i] args) }) ∧
      (∃ m', m.addToRowLinearSearch c i args = .ok m' ∧
        ShowsMatrix c m' { M with rows := M.rows.set i (addAll M.rows[i] args) }) ∧
      (∃ m', m.addToRow c i args = .ok m' ∧
        ShowsMatrix c m' { M with rows := M.rows.set i (addAll M.rows[i] args) })) := by
  replace h := reachMatrix_good h
  obtain ⟨A, cap, B, rfl, hg, hr, hset⟩ := h.at_ (List.getElem?_eq_getElem hi)
  obtain ⟨hu, hso⟩ := hg.addToRow (c := c) (rowList_increasing _ _) args (fun a ha => (key_iff hr a.1).2 (hp a ha))
  rw [← rowList_foldl, foldl_addEntry] at hu hso
  have hr' : InRange M.numCols (addAll M.rows[A.length] args) := by rw [← foldl_addEntry]; exact foldl_inRange args hr
  have fin : ∀ {r : R (Crs V)}, (∃ m', r = .ok m' ∧ m'.numCols = m.numCols ∧
      CGood m' (A ++ (rowList M.numCols (addAll M.rows[A.length] args), cap) :: B)) →
      ∃ m', r = .ok m' ∧ ShowsMatrix c m' { M with rows := M.rows.set A.length (addAll M.rows[A.length] args) } := by
    rintro r ⟨m', h1, h2, h3⟩
    exact ⟨m', h1, showsMatrix_of_good (hset _ _ _ h3 h2 hr')⟩
  refine ⟨fin hu, fun hsort => ?_⟩
  obtain ⟨h1, h2, h3⟩ := hso (List.pairwise_map.1 hsort)
  exact ⟨fin h1, fin h2, fin h3⟩

-- a case with a repeated column, for the variant that allows it
example : (addAll (fun k => if k = 3 ∨ k = 5 then some (10 : Nat) else none) [(5, 1), (3, 7), (5, 2)]) 5 = some 13 ∧
    (addAll (fun k => if k = 3 ∨ k = 5 then some (10 : Nat) else none) [(5, 1), (3, 7), (5, 2)]) 3 = some 17 := by decide

/-- Such calls: columns of the first row, a column missing there, a row that does not exist. -/
example (c : Cfg) (ht : c.trivial = true) : ∃ (m : Crs Nat) (M : Spec.Matrix Nat), ∃ hi : 0 < M.rows.length, ReachMatrix c 100 m M ∧
    (∀ a ∈ [(5, 2), (1, 3), (5, 4)], (M.rows[0] a.1).isSome) ∧ (∃ a ∈ [(5, 2), (2, 3)], (M.rows[0] a.1).isNone) ∧
    CrsOp.rowOf (.insert 2 0 (7 : Nat)) = some 2 ∧ M.rows.length ≤ 2 := by
  obtain ⟨m, M, h, -, hM⟩ := reachMatrix_example c ht
  obtain ⟨n, rows⟩ := M
  obtain _ | ⟨f, _ | ⟨g, _ | ⟨_, _⟩⟩⟩ := rows <;> simp only [List.map_cons, List.map_nil, List.cons.injEq, Prod.mk.injEq, reduceCtorEq,
    and_false] at hM
  exact ⟨m, _, by simp, h, by simp [hM], ⟨(2, 3), by simp, by simp [hM]⟩, rfl, by simp⟩

/-- **C30 (missing columns).** With assertions on, the binary searches abort if one of the given columns is not in the row. -/
theorem C30_missing_column_reported [Add V] (c : Cfg) (hd : c.debug = true) {colMax : Nat} {m : Crs V} {M : Spec.Matrix V}
    (h : ReachMatrix c colMax m M) (i : Nat) (hi : i < M.rows.length) (args : List (Nat × V))
    (hp : ∃ a ∈ args, (M.rows[i] a.1).isNone) :
    m.addToRowBinarySearchUnsorted c i args = .error .abort ∧ m.addToRowBinarySearch c i args = .error .abort := by
  replace h := reachMatrix_good h
  obtain ⟨A, cap, B, rfl, hg, hr, hset⟩ := h.at_ (List.getElem?_eq_getElem hi)
  have hx := rowList_increasing M.numCols M.rows[A.length]
  have hp' : ∃ a ∈ args, ∀ x ∈ rowList M.numCols M.rows[A.length], x.1 ≠ a.1 := by
    obtain ⟨a, ha, hn⟩ := hp
    exact ⟨a, ha, (noKey_iff hr a.1).2 hn⟩
  have hs : m.shape.sizeOfArray c A.length = .ok (rowList M.numCols M.rows[A.length]).length := hg.shape.sizeOfAt rfl
  have hb : m.shape.checkBounds c A.length = .ok () := ShGood.checkBounds hg.shape (by simp)
  constructor
  · unfold Crs.addToRowBinarySearchUnsorted
    rw [hs, bind_ok, hb, bind_ok, hg.readOff, bind_ok]
    exact Crs.unsortedLoop_abort hd args m _ hg hx hp'
  · unfold Crs.addToRowBinarySearch
    by_cases hso : isSortedUnique less (args.map (·.1)) = true
    · have ha : Increasing Prod.fst args := by
        show args.Pairwise fun a b => a.1 < b.1
        rw [← List.pairwise_map (f := Prod.fst) (R := fun a b : Nat => a < b)]
        have := (C20_isSortedUnique less strictWeakOrder_less (args.map (·.1))).1 hso
        refine List.pairwise_iff_getElem.2 fun i j hi hj hij => ?_
        have h' := this i j hij hj
        simpa only [less, decide_eq_true_eq] using h'
      rw [hso, Bool.not_true, Bool.and_false, errorIf_false, bind_ok, hs, bind_ok, hb, bind_ok, hg.readOff, bind_ok]
      exact Crs.binaryLoop_abort hd args m [] _ hg hx ha hp'
    · rw [hd, Bool.not_eq_true _ |>.mp hso]
      rfl

/-- **C30, disagreement (missing columns).** The linear search, which `addToRow` uses for rows with at most 64 non zeros, does
not notice a missing column: without assertions the value goes to another column of the row (the entry of column 0 changes from
10 to 11 although the column given is 3), ... -/
theorem C30_missing_column_misplaced :
    (Crs.mk' { trivial := true, boundsCheck := true, debug := false } 100 1 8 3 >>= fun (m : Crs Nat) =>
      Crs.run { trivial := true, boundsCheck := true, debug := false } 100 m
        [.insert 0 0 10, .insert 0 5 20, .addToRow .auto 0 [(3, 1)], .getColumn 0 0, .getEntry 0 0] >>= fun r => .ok r.2) =
    .ok [.bool true, .bool true, .unit, .val (.inl 0), .val (.inr 11)] := by
  decide +kernel

/-- ... and with assertions the check may look at the next row: adding to columns 0 and 5 of row 0, which only has column 0,
changes the entry of column 5 of row 1 from 20 to 22. -/
theorem C30_missing_column_other_row :
    (Crs.mk' { trivial := true, boundsCheck := true, debug := true } 100 2 8 1 >>= fun (m : Crs Nat) =>
      Crs.run { trivial := true, boundsCheck := true, debug := true } 100 m
        [.insert 0 0 10, .insert 1 5 20, .addToRow .auto 0 [(0, 1), (5, 2)], .getColumn 1 0, .getEntry 1 0] >>= fun r => .ok r.2) =
    .ok [.bool true, .bool true, .unit, .val (.inl 5), .val (.inr 22)] := by
  decide +kernel

/-! ### C32: building from capacities -/

/-- **C32, matrices.** `resizeFromRowCapacities` yields empty rows with exactly the given capacities and the given number of
columns, whatever was there before. -/
theorem C32_matrix_from_capacities [Add V] (c : Cfg) {colMax : Nat} {m : Crs V} {M : Spec.Matrix V} (h : ReachMatrix c colMax m M)
    (n : Nat) (hn : n ≤ colMax + 1) (ks : List Nat) :
    ∃ m', m.resizeFromRowCapacities c colMax n ks = .ok m' ∧
      ShowsMatrix c m' { numCols := n, rows := List.replicate ks.length (fun _ => none) } ∧
      ∀ i (hi : i < ks.length), m'.shape.capacityOfArray c i = .ok ks[i] := by
  replace h := reachMatrix_good h
  obtain ⟨L, hg, hL⟩ := h.rows
  obtain ⟨m', h1, h2, h3⟩ := hg.weak.resizeFrom (c := c) hn ks
  refine ⟨m', h1, showsMatrix_of_good ⟨h2, ⟨_, h3, ?_⟩, ?_⟩, fun i hi => ?_⟩
  · have : rowList n (fun _ => (none : Option V)) = [] := by simp [rowList]
    simp [this, Function.comp_def, List.map_const']
  · intro f hf
    simp only [List.mem_replicate] at hf
    rw [hf.2]
    intro k hk; simp at hk
  · have := ShGood.capacityOf (c := c) (i := i) h3.shape (by simpa [caps] using hi)
    rw [this]
    simp [caps]

/-- **C32, patterns.** Likewise for `SparsityPattern`. -/
theorem C32_pattern_from_capacities (c : Cfg) (ht : c.trivial = true) {colMax : Nat} {s : Sp} {P : Pattern}
    (h : ReachPattern c colMax s P) (n : Nat) (hn : n ≤ colMax + 1) (ks : List Nat) :
    ∃ s', s.resizeFromRowCapacities c colMax n ks = .ok s' ∧
      ShowsPattern c s' { numCols := n, rows := List.replicate ks.length ∅ } ∧
      ∀ i (hi : i < ks.length), s'.sets.shape.capacityOfArray c i = .ok ks[i] := by
  replace h := reachPattern_good ht h
  obtain ⟨L, hg, hL⟩ := h.sets
  obtain ⟨a', h1, h2, _⟩ := hg.weak.resizeFromCapacities (c := c) ks
  unfold Sp.resizeFromRowCapacities
  rw [decide_eq_false (by omega), errorIf_false, bind_ok, h1, bind_ok]
  refine ⟨_, rfl, showsPattern_of_good ht ⟨rfl, ⟨_, h2, ?_⟩, ?_⟩, fun i hi => ?_⟩
  · simp [Function.comp_def, List.map_const']
  · intro S hS
    simp only [List.mem_replicate] at hS
    rw [hS.2]
    simp
  · have := ShGood.capacityOf (c := c) (i := i) h2.shape (by simpa [caps] using hi)
    simp only
    rw [this]
    simp [caps]

/-! ### C33: `assimilate` -/

/-- **C33.** Assimilating any pattern into any matrix gives a matrix with the same numbers of rows and columns and the same
columns and capacities in every row, in which every entry is `T()`; the pattern is left without rows.  From then on the matrix
behaves like any other (C29). -/
theorem C33_assimilate [Add V] [Inhabited V] (c c' : Cfg) (ht : c'.trivial = true) {colMax : Nat} {m : Crs V} {M : Spec.Matrix V}
    (hm : ReachMatrix c colMax m M) {s : Sp} {P : Pattern} (hs : ReachPattern c' colMax s P) :
    ∃ m' s', m.assimilate c s = .ok (m', s') ∧
      ShowsMatrix c m' { numCols := P.numCols, rows := P.rows.map fun S k => if k ∈ S then some default else none } ∧
      (∀ i, m'.shape.capacityOfArray c i = s.sets.shape.capacityOfArray c i) ∧
      s'.numCols = 0 ∧ s'.sets.shape.numArrays = 0 ∧
      ∀ ops M' outs, crsRun colMax { numCols := P.numCols, rows := P.rows.map fun S k => if k ∈ S then some default else none }
          ops = some (M', outs) →
        (∃ m'', Crs.run c colMax m' ops = .ok (m'', outs) ∧ ShowsMatrix c m'' M') ∨
        (c.trivial = false ∧ Crs.run c colMax m' ops = .error (.ub .rawRead)) := by
  obtain ⟨L, hg, -⟩ := (reachMatrix_good hm).rows
  have hP := reachPattern_good ht hs
  obtain ⟨L', hg', hL'⟩ := hP.sets
  obtain ⟨m', s', h1, h2, h3, h4⟩ := CGood.assimilate c hg.weak hg'
  have hgood := CrsGood.ofAssimilate hP hL' h2 h3
  refine ⟨m', s', h1, showsMatrix_of_good hgood, fun i => ?_, by rw [h4], by rw [h4]; rfl, fun ops M' outs hops => ?_⟩
  · have hshape : m'.shape = s.sets.shape := by
      unfold Crs.assimilate at h1
      simp only [bind_eq_ok, Except.ok.injEq, Prod.mk.injEq] at h1
      obtain ⟨_, _, _, _, _, _, _, _, e, _⟩ := h1
      rw [← e]; rfl
    rw [hshape]
  · rcases hgood.run_ok (c := c) colMax ops M' outs hops with ⟨m'', e1, e2⟩ | e
    · exact .inl ⟨m'', e1, showsMatrix_of_good e2⟩
    · exact .inr e

-- a pattern with rows `{ 1, 4 }` and `{ }`, assimilated into a matrix with one row
example : (Sp.mk' { trivial := true, boundsCheck := true, debug := true } 100 2 8 1 >>= fun s =>
      Sp.run { trivial := true, boundsCheck := true, debug := true } 100 s [.insertMany 0 [1, 4]] >>= fun s =>
      Crs.mk' { trivial := true, boundsCheck := true, debug := true } 100 1 3 1 >>= fun (m : Crs Nat) =>
      Crs.run { trivial := true, boundsCheck := true, debug := true } 100 m [.insert 0 2 5] >>= fun m =>
      m.1.assimilate { trivial := true, boundsCheck := true, debug := true } s.1 >>= fun r =>
      Crs.run { trivial := true, boundsCheck := true, debug := true } 100 r.1 [.getColumn 0 1, .getEntry 0 1, .numNonZeros] >>=
      fun q => .ok (r.1.numCols, r.1.shape.numArrays, q.2)) =
    .ok (8, 2, [.val (.inl 4), .val (.inr 0), .num 2]) := by decide +kernel

/-! ### C25: copies of matrices -/

/-- **C25, matrices.** The copy constructor of `CRSMatrix` always works. -/
theorem C25_matrix_copy_constructor [Add V] (c : Cfg) {colMax : Nat} {src : Crs V} {M : Spec.Matrix V}
    (hs : ReachMatrix c colMax src M) :
    ∃ dst, Crs.copyAssign c ⟨0, { numArrays := 0, offsets := .empty, sizes := .empty }, .empty, .empty⟩ src = .ok dst ∧
      ShowsMatrix c dst M := by
  have h := reachMatrix_good hs
  obtain ⟨L, hg, hL⟩ := h.rows
  obtain ⟨m', h1, h2, h3⟩ := CGood.copyAssign c (CWeak.fresh (V := V)) hg (.inr (.inl (by simp [staleOffset])))
    (.inr (.inl (by simp [staleOffset])))
  exact ⟨m', h1, showsMatrix_of_good ⟨h2.trans h.cols, ⟨L, h3, hL⟩, h.inRange⟩⟩

/-- **C25, matrices, partial.** Copy assignment makes `dst` show what `src` shows if both allocations of `dst` have room for all
rows of `src` with their capacities `cs`, or `dst` has no rows, or the entries are trivially copyable and as many rows of `src`
as `dst` has (all rows of `dst` if it has more) fit into the allocations of `dst`.  Missing: the other cases, in which the copy
fails (see `C25_fails_otherwise`). -/
theorem C25_matrix_copy_assignment_partial [Add V] (c : Cfg) {colMax : Nat} {dst src : Crs V} {D M : Spec.Matrix V}
    (hd : ReachMatrix c colMax dst D) (hs : ReachMatrix c colMax src M) (cs : List Nat) (hlen : cs.length = M.rows.length)
    (hcs : ∀ i (hi : i < cs.length), src.shape.capacityOfArray c i = .ok cs[i])
    (hroom : (cs.sum ≤ dst.columns.cap ∧ cs.sum ≤ dst.entries.cap) ∨ D.rows = [] ∨
      (c.trivial = true ∧ (cs.take D.rows.length).sum ≤ dst.columns.cap ∧ (cs.take D.rows.length).sum ≤ dst.entries.cap)) :
    ∃ dst', dst.copyAssign c src = .ok dst' ∧ ShowsMatrix c dst' M := by
  obtain ⟨Ld, hgd, hLd⟩ := (reachMatrix_good hd).rows
  have h := reachMatrix_good hs
  obtain ⟨L, hg, hL⟩ := h.rows
  have hlL : L.length = M.rows.length := by simpa using congrArg List.length hL
  have hlD : Ld.length = D.rows.length := by simpa using congrArg List.length hLd
  have hcaps : cs = caps L := by
    apply List.ext_getElem
    · simp [hlen, hlL]
    · intro i h1 h2
      have e1 := hcs i h1
      rw [ShGood.capacityOf (c := c) (i := i) hg.shape h2] at e1
      exact (Except.ok.inj e1).symm
  have hsum : cs.sum = total L := by rw [hcaps, caps_sum]
  have htake : ∀ n, (cs.take n).sum = total (L.take n) := fun n => by rw [hcaps, caps_take, caps_sum]
  have stale : ∀ cap, total Ld ≤ cap → (cs.take D.rows.length).sum ≤ cap → staleOffset Ld L ≤ cap := by
    intro cap h1 h2
    unfold staleOffset
    rw [htake, ← hlD] at h2
    split
    · exact h2
    · exact h1
  have hc1 : total Ld ≤ dst.columns.cap := by simpa using hgd.layC.room
  have hc2 : total Ld ≤ dst.entries.cap := by simpa using hgd.layE.room
  have key : CopyRoom c.ix dst.columns.cap Ld L ∧ CopyRoom c dst.entries.cap Ld L := by
    rcases hroom with ⟨h1, h2⟩ | h1 | ⟨h1, h2, h3⟩
    · exact ⟨.inl (by omega), .inl (by omega)⟩
    · have : Ld = [] := by
        rw [h1] at hlD
        exact List.length_eq_zero_iff.1 hlD
      subst this
      exact ⟨.inr (.inl (by simp [staleOffset])), .inr (.inl (by simp [staleOffset]))⟩
    · exact ⟨.inr (.inr ⟨rfl, stale _ hc1 h2⟩), .inr (.inr ⟨h1, stale _ hc2 h3⟩)⟩
  obtain ⟨m', h1, h2, h3⟩ := CGood.copyAssign c hgd.weak hg key.1 key.2
  exact ⟨m', h1, showsMatrix_of_good ⟨h2.trans h.cols, ⟨L, h3, hL⟩, h.inRange⟩⟩

-- copying a matrix with two rows over one with one row and enough room
example : (Crs.mk' { trivial := true, boundsCheck := true, debug := true } 100 1 4 9 >>= fun (d : Crs Nat) =>
      Crs.mk' { trivial := true, boundsCheck := true, debug := true } 100 2 8 3 >>= fun (s : Crs Nat) =>
      Crs.run { trivial := true, boundsCheck := true, debug := true } 100 s [.insert 1 2 5, .insert 1 1 7] >>= fun s =>
      d.copyAssign { trivial := true, boundsCheck := true, debug := true } s.1 >>= fun d' =>
      Crs.run { trivial := true, boundsCheck := true, debug := true } 100 d' [.getColumn 1 0, .getEntry 1 0] >>= fun q =>
      .ok (d.entries.cap, d'.numCols, q.2)) = .ok (9, 8, [.val (.inl 1), .val (.inr 7)]) := by decide +kernel

end LvArray.Props

import Verif.ParallelMatrices
import Verif.Props.Parallel
import Verif.Props.Sparse

/-!
# C58: distinct rows of a matrix can be modified in parallel
-/

namespace LvArray.Props

open LvArray Layout Spec Parallel

variable {V : Type}

/-- What the accessors report about row `i` of a matrix with `n` columns. -/
def ShowsMatrixRow (c : Cfg) (m : Crs V) (n i : Nat) (f : Nat → Option V) : Prop :=
  m.shape.sizeOfArray c i = .ok (columnsOf n f).length ∧
    ∀ k (hk : k < (columnsOf n f).length), m.getColumn c i k = .ok (columnsOf n f)[k] ∧
      ∃ v, f (columnsOf n f)[k] = some v ∧ m.getEntry c i k = .ok v

/-- The capacities of the rows. -/
def RowCapacities (c : Cfg) (m : Crs V) (caps : List Nat) : Prop :=
  ∀ i (hi : i < caps.length), m.shape.capacityOfArray c i = .ok caps[i]

theorem rowCapacities_of_good {c : Cfg} {m : Crs V} {L : Layout (Nat × V)} (h : CGood m L) : RowCapacities c m (L.map (·.2)) := by
  intro i hi
  simp only [List.length_map] at hi
  rw [h.shape.capacityOf' hi]
  simp

theorem showsMatrixRow_of {c : Cfg} {m : Crs V} {n i : Nat} {f : Nat → Option V}
    (h : m.shape.sizeOfArray c i = .ok (rowList n f).length ∧ ∀ j (hj : j < (rowList n f).length),
      m.getColumn c i j = .ok (rowList n f)[j].1 ∧ m.getEntry c i j = .ok (rowList n f)[j].2) : ShowsMatrixRow c m n i f := by
  refine ⟨by rw [columnsOf_length]; exact h.1, fun k hk => ?_⟩
  have hk' : k < (rowList n f).length := by rw [← columnsOf_length]; exact hk
  have hcol : (columnsOf n f)[k] = (rowList n f)[k].1 := by simp only [columnsOf_eq, List.getElem_map]
  rw [hcol]
  exact ⟨(h.2 k hk').1, _, (mem_rowList.1 (List.getElem_mem hk')).2, (h.2 k hk').2⟩

theorem parallel_matrix [Add V] {c : Cfg} {m : Crs V} {M : Spec.Matrix V} {caps : List Nat}
    {rows' : List ((Nat → Option V) × Nat)} (h : CrsGood m M) (hl : caps.length = M.rows.length) (hc : RowCapacities c m caps)
    (work : List (List (Nat × MatCall V))) (hap : Apart work) (outs : List (List (RowOut (Nat ⊕ V))))
    (hs : threadsRun (MatCall.step M.numCols) (M.rows.zip caps) work = some (rows', outs)) :
    ∃ N, ∀ sched, ∃ s ts, interleave (Parallel.Prog.turn ⟨c.ix, c⟩) m.shared (threads (matCode c) work) sched = .ok (s, ts) ∧
      (∀ t, t < work.length → N ≤ sched.count t → ∃ q, Returned ts t q) ∧
      (∀ t q, Returned ts t q → outs[t]? = some q ∧
        ∀ calls, work[t]? = some calls → ∀ call ∈ calls, ∃ r, rows'[call.1]? = some r ∧
          ShowsMatrixRow c (s.matrix M.numCols) M.numCols call.1 r.1) ∧
      (AllReturned ts → CrsGood (s.matrix M.numCols) { M with rows := rows'.map (·.1) } ∧
        RowCapacities c (s.matrix M.numCols) caps ∧ s.values.lostLive = 0 ∧ s.entries.lostLive = 0) := by
  obtain ⟨L, hg, hL⟩ := h.rows
  have hlen : L.length = M.rows.length := by simpa using congrArg List.length hL
  have hcaps : L.map (·.2) = caps := by
    apply List.ext_getElem (by simp; omega)
    intro i h1 h2
    have e1 := hc i h2
    have e2 := rowCapacities_of_good (c := c) hg i h1
    rw [e1] at e2
    exact (Except.ok.inj e2).symm
  have hrow : (M.rows.zip caps).map (fun r => (rowList M.numCols r.1, r.2)) = L := by
    apply List.ext_getElem (by simp; omega)
    intro i h1 h2
    have e1 : (L.map (·.1))[i]? = (M.rows.map (rowList M.numCols))[i]? := by rw [hL]
    have hi : i < M.rows.length := by omega
    simp [h2, hi] at e1
    simp only [List.getElem_map, List.getElem_zip, ← hcaps, ← e1]
  have hin : ∀ r ∈ M.rows.zip caps, InRange M.numCols r.1 := fun r hr => h.inRange _ (List.of_mem_zip hr).1
  have hzl : (M.rows.zip caps).length = (Layout.caps L).length := by rw [← hrow]; simp
  have hrows := rowsM (m := m) (n := M.numCols) (rows := M.rows.zip caps) (by rw [hrow]; exact hg) hin
  rw [hrow] at hrows
  obtain ⟨N, F, hF, hP⟩ := parallel_loop (c := ⟨c.ix, c⟩) (matCode_ok (c := c)) (sharedM_sim hg) hzl hrows hap hs
  obtain ⟨r1, r2, r3⟩ := threadsRun_rows hs
  refine ⟨N, fun sched => ?_⟩
  obtain ⟨s, ts, M', h1, h2, h3, h4, h5, h6, h7⟩ := hP sched
  refine ⟨s, ts, h1, ?_, ?_, ?_⟩
  · intro t ht hN
    have hp : ts[t]? = some (ts[t]'(by omega)) := List.getElem?_eq_getElem (by omega)
    obtain ⟨q, hq⟩ := h5 t _ hp hN
    exact ⟨q, hp.trans (congrArg some hq)⟩
  · intro t q hq
    obtain ⟨h8, h9⟩ := h6 t q hq
    refine ⟨h8, fun calls hc call hcall => ?_⟩
    have hd : rowsOf work t call.1 := ⟨calls, hc, call, hcall, rfl⟩
    have hi := r3 t call.1 hd
    have hi' : call.1 < rows'.length := by omega
    refine ⟨_, List.getElem?_eq_getElem hi', ?_⟩
    have := hF call.1 _ (List.getElem?_eq_getElem hi')
    rw [← h9 _ hd] at this
    exact showsMatrixRow_of (rowM_shows h3 (by omega) this)
  · intro hall
    have := h7 (allReturned_iff hall)
    subst this
    obtain ⟨h8, h9, h10⟩ := sharedM_join hg h3 hF (by rw [r1, hzl]; simp) h4
    refine ⟨⟨rfl, ⟨_, h8, by simp [Function.comp_def]⟩, ?_⟩, ?_, h8.layC.lost, h8.layE.lost⟩
    · intro f hf
      obtain ⟨r, hr, rfl⟩ := List.mem_map.1 hf
      exact h10 r hr
    · rw [← hcaps, ← h9]
      have := rowCapacities_of_good (c := c) h8
      rwa [List.map_map] at this

/-- **C58 (matrices).** Threads call `insertNonZero(s)`, `removeNonZero(s)`, the variants of `addToRow`, `empty`, `numNonZeros`,
`getColumns` and `getEntries` on views of one `CRSMatrix`; no row is used by two threads, and each call would be allowed if the
threads ran one after another.  Then for every number of threads and every schedule of their single accesses: no access fails;
every thread that gets enough turns returns, whatever the others do; what its calls have returned, and what its rows hold, is what
they would if the threads ran one after another; once all have returned this is so for the whole matrix, the capacities are
unchanged and no entry was lost.  `caps` are the capacities of the rows.  Every entry type and build configuration. -/
theorem C58_matrix_in_parallel [Add V] (c : Cfg) {colMax : Nat} {m : Crs V} {M : Spec.Matrix V} {caps : List Nat}
    {rows' : List ((Nat → Option V) × Nat)} (h : ReachMatrix c colMax m M) (hl : caps.length = M.rows.length)
    (hc : RowCapacities c m caps) (work : List (List (Nat × MatCall V))) (hap : Apart work)
    (outs : List (List (RowOut (Nat ⊕ V))))
    (hs : threadsRun (MatCall.step M.numCols) (M.rows.zip caps) work = some (rows', outs)) :
    ∃ N, ∀ sched, ∃ s ts, interleave (Parallel.Prog.turn ⟨c.ix, c⟩) m.shared (threads (matCode c) work) sched = .ok (s, ts) ∧
      (∀ t, t < work.length → N ≤ sched.count t → ∃ q, Returned ts t q) ∧
      (∀ t q, Returned ts t q → outs[t]? = some q ∧
        ∀ calls, work[t]? = some calls → ∀ call ∈ calls, ∃ r, rows'[call.1]? = some r ∧
          ShowsMatrixRow c (s.matrix M.numCols) M.numCols call.1 r.1) ∧
      (AllReturned ts → ShowsMatrix c (s.matrix M.numCols) { M with rows := rows'.map (·.1) } ∧
        RowCapacities c (s.matrix M.numCols) caps ∧ s.values.lostLive = 0 ∧ s.entries.lostLive = 0) := by
  obtain ⟨N, hN⟩ := parallel_matrix (reachMatrix_good h) hl hc work hap outs hs
  refine ⟨N, fun sched => ?_⟩
  obtain ⟨s, ts, h1, h2, h3, h4⟩ := hN sched
  exact ⟨s, ts, h1, h2, h3, fun hall => ⟨showsMatrix_of_good (h4 hall).1, (h4 hall).2⟩⟩

/-- **C58 (afterwards, matrices).** The matrix can then be used like any other: every later legal history of calls by one thread
behaves like on a matrix with these contents. -/
theorem C58_matrix_usable_afterwards [Add V] (c : Cfg) (ht : c.trivial = true) {colMax : Nat} {m : Crs V} {M : Spec.Matrix V}
    {caps : List Nat} {rows' : List ((Nat → Option V) × Nat)} (h : ReachMatrix c colMax m M) (hl : caps.length = M.rows.length)
    (hc : RowCapacities c m caps) (work : List (List (Nat × MatCall V))) (hap : Apart work)
    (outs : List (List (RowOut (Nat ⊕ V))))
    (hs : threadsRun (MatCall.step M.numCols) (M.rows.zip caps) work = some (rows', outs)) (sched : List Nat) (s : RowStore Nat V)
    (ts : List (Parallel.Prog Nat Nat V (List (RowOut (Nat ⊕ V)))))
    (hr : interleave (Parallel.Prog.turn ⟨c.ix, c⟩) m.shared (threads (matCode c) work) sched = .ok (s, ts)) (hall : AllReturned ts)
    (ops : List (CrsOp V)) (M' : Spec.Matrix V) (res : List (AoSOut (Nat ⊕ V)))
    (hv : crsRun colMax { M with rows := rows'.map (·.1) } ops = some (M', res)) :
    ∃ m', Crs.run c colMax (s.matrix M.numCols) ops = .ok (m', res) ∧ ShowsMatrix c m' M' := by
  obtain ⟨N, hN⟩ := parallel_matrix (reachMatrix_good h) hl hc work hap outs hs
  obtain ⟨s', ts', h1, -, -, h4⟩ := hN sched
  rw [hr] at h1
  cases h1
  rcases (h4 hall).1.run_ok (c := c) colMax ops M' res hv with ⟨m', h5, h6⟩ | ⟨h5, _⟩
  · exact ⟨m', h5, showsMatrix_of_good h6⟩
  · rw [ht] at h5; cases h5

/-! ### `setValues` -/

section total

variable {κ ρ ω : Type} {step : κ → ρ → Option (ρ × ω)} {call : κ} {g : ρ → ρ} {o : ω}

/-- One call for each of some rows. -/
theorem rowRun_each (hg : ∀ r, step call r = some (g r, o)) (is : List Nat) (rows : List ρ) (hi : ∀ i ∈ is, i < rows.length)
    (hn : is.Nodup) :
    ∃ rows', rowRun step rows (is.map fun i => (i, call)) = some (rows', is.map fun _ => o) ∧ rows'.length = rows.length ∧
      ∀ i : Nat, rows'[i]? = if i ∈ is then rows[i]?.map g else rows[i]? := by
  induction is generalizing rows with
  | nil => exact ⟨rows, rfl, rfl, fun i => by simp⟩
  | cons j is ih =>
    have hj : j < rows.length := hi j (by simp)
    obtain ⟨h1, h2⟩ := List.nodup_cons.1 hn
    obtain ⟨rows', h3, h4, h5⟩ := ih (rows.set j (g rows[j])) (fun i h => by simp; exact hi i (by simp [h])) h2
    refine ⟨rows', ?_, by simpa using h4, fun i => ?_⟩
    · simp only [List.map_cons, rowRun, List.getElem?_eq_getElem hj, hg, h3]
      rfl
    · rw [h5 i]
      by_cases e : i = j
      · subst e
        simp [h1, hj]
      · have e' : j ≠ i := fun h => e h.symm
        simp [e, List.getElem?_set_ne e']

theorem threadsRun_each (hg : ∀ r, step call r = some (g r, o)) (parts : List (List Nat)) (rows : List ρ)
    (hi : ∀ i ∈ parts.flatten, i < rows.length) (hn : parts.flatten.Nodup) :
    ∃ rows', threadsRun step rows (parts.map fun is => is.map fun i => (i, call)) =
        some (rows', parts.map fun is => is.map fun _ => o) ∧ rows'.length = rows.length ∧
      ∀ i : Nat, rows'[i]? = if i ∈ parts.flatten then rows[i]?.map g else rows[i]? := by
  induction parts generalizing rows with
  | nil => exact ⟨rows, rfl, rfl, fun i => by simp⟩
  | cons is parts ih =>
    rw [List.flatten_cons] at hi hn
    obtain ⟨n1, n2, n3⟩ := List.nodup_append.1 hn
    obtain ⟨r1, h1, h2, h3⟩ := rowRun_each hg is rows (fun i h => hi i (by simp [h])) n1
    obtain ⟨r2, h4, h5, h6⟩ := ih r1 (fun i h => by rw [h2]; exact hi i (List.mem_append_right _ h)) n2
    refine ⟨r2, ?_, h5.trans h2, fun i => ?_⟩
    · simp only [List.map_cons, threadsRun, h1, h4]
      rfl
    · rw [h6 i, h3 i, List.flatten_cons]
      by_cases e : i ∈ is
      · have : i ∉ parts.flatten := fun h => n3 i e i h rfl
        simp only [this, e, if_true, if_false, List.mem_append, true_or]
      · simp only [e, if_false, List.mem_append, false_or]

end total

theorem interleave_length {σ τ : Type} {step : σ → τ → R (σ × τ)} {s s' : σ} {ts ts' : List τ} {sched : List Nat}
    (h : interleave step s ts sched = .ok (s', ts')) : ts'.length = ts.length := by
  induction sched generalizing s ts with
  | nil => cases h; rfl
  | cons k ks ih =>
    simp only [interleave] at h
    split at h
    · exact ih h
    · obtain ⟨r, -, h2⟩ := bind_eq_ok.1 h
      exact (ih h2).trans (by simp)

/-- A loop over the rows whose body is `call`, where thread `t` gets the rows `parts[t]`.  Models `RAJA::forall`. -/
def loopOverRows {κ : Type} (parts : List (List Nat)) (call : κ) : List (List (Nat × κ)) :=
  parts.map fun is => is.map fun i => (i, call)

theorem loopOverRows_apart {κ : Type} {parts : List (List Nat)} (hn : parts.flatten.Nodup) (call : κ) :
    Apart (loopOverRows parts call) := by
  intro t u ct cu ht hu hne q hq r hr
  simp only [loopOverRows, List.getElem?_map, Option.map_eq_some_iff] at ht hu
  obtain ⟨is, ht, rfl⟩ := ht
  obtain ⟨js, hu, rfl⟩ := hu
  obtain ⟨i, hi, rfl⟩ := List.mem_map.1 hq
  obtain ⟨j, hj, rfl⟩ := List.mem_map.1 hr
  show i ≠ j
  rintro rfl
  rw [List.nodup_flatten, List.pairwise_iff_getElem] at hn
  obtain ⟨ht', rfl⟩ := List.getElem?_eq_some_iff.1 ht
  obtain ⟨hu', rfl⟩ := List.getElem?_eq_some_iff.1 hu
  rcases Nat.lt_or_gt_of_ne hne with h | h
  · exact hn.2 t u ht' hu' h hi hj
  · exact hn.2 u t hu' ht' h hj hi

/-- **C58 (`CRSMatrixView::setValues`).** Whatever policy distributes the rows over whatever number of threads, and however these
are scheduled, `setValues` sets every entry to the given value, and changes nothing else. -/
theorem C58_setValues_any_policy [Add V] (c : Cfg) {colMax : Nat} {m : Crs V} {M M' : Spec.Matrix V} {caps : List Nat}
    (h : ReachMatrix c colMax m M) (hl : caps.length = M.rows.length) (hc : RowCapacities c m caps) (v : V)
    (parts : List (List Nat)) (hp : parts.flatten.Perm (List.range M.rows.length))
    (hs : crsStep colMax M (.setValues v) = some (M', .unit)) :
    ∃ N, ∀ sched, ∃ s ts,
      interleave (Parallel.Prog.turn ⟨c.ix, c⟩) m.shared (threads (matCode c) (loopOverRows parts (.fill v))) sched = .ok (s, ts) ∧
      ((∀ t, t < parts.length → N ≤ sched.count t) → AllReturned ts) ∧
      (AllReturned ts → ShowsMatrix c (s.matrix M.numCols) M' ∧ RowCapacities c (s.matrix M.numCols) caps) := by
  cases hs
  have hnd : parts.flatten.Nodup := hp.nodup_iff.2 List.nodup_range
  obtain ⟨rows', h1, h2, h3⟩ := threadsRun_each (step := MatCall.step M.numCols) (call := MatCall.fill v)
    (g := fun r => ((fun j => (r.1 j).map fun _ => v), r.2)) (o := .unit) (fun _ => rfl) parts (M.rows.zip caps)
    (fun i hi => by
      have := List.mem_range.1 (hp.mem_iff.1 hi)
      simp; omega) hnd
  obtain ⟨N, hN⟩ := C58_matrix_in_parallel c h hl hc _ (loopOverRows_apart hnd _) _ h1
  refine ⟨N, fun sched => ?_⟩
  obtain ⟨s, ts, h4, h5, -, h7⟩ := hN sched
  refine ⟨s, ts, h4, fun hall t ht => ?_, fun hall => ?_⟩
  · have hlen : ts.length = parts.length := by
      have := interleave_length h4
      rw [this]; simp [threads, loopOverRows]
    exact h5 t (by simp [loopOverRows]; omega) (hall t (by omega))
  · obtain ⟨h8, h9, -⟩ := h7 hall
    have e : rows'.map (·.1) = M.rows.map fun f j => (f j).map fun _ => v := by
      apply List.ext_getElem?
      intro i
      rw [List.getElem?_map, List.getElem?_map, h3 i]
      by_cases hi : i < M.rows.length
      · have : i ∈ parts.flatten := hp.mem_iff.2 (List.mem_range.2 hi)
        have hi' : i < (M.rows.zip caps).length := by simp; omega
        simp [this, List.getElem?_eq_getElem hi', hi]
      · have hi' : ¬ i < (M.rows.zip caps).length := by simp; omega
        rw [List.getElem?_eq_none (by omega), List.getElem?_eq_none (by omega)]
        simp
    rw [e] at h8
    exact ⟨h8, h9⟩

/-! ### Non-vacuity -/

/-- Calls that lead to the rows `{2 ↦ 20, 5 ↦ 50}` with capacity 4, `{}` with capacity 2 and `{7 ↦ 70}` with capacity 3. -/
def parMatrixOps : List (CrsOp Nat) :=
  [.setRowCapacity 1 2, .setRowCapacity 2 3, .insertMany 0 [(2, 20), (5, 50)], .insert 2 7 70]

/-- The rows of this matrix. -/
def parMatrixRows : List (Nat → Option Nat) :=
  [fun j => [(2, 20), (5, 50)].lookup j, fun _ => none, fun j => [(7, 70)].lookup j]

/-- The hypotheses on the matrix can be met. -/
example : ∃ m : Crs Nat, (∃ M, ReachMatrix { trivial := false, boundsCheck := true, debug := true } 100 m M ∧
      M.numCols = 8 ∧ M.rows.map (columnsOf 8) = [[2, 5], [], [7]]) ∧
    RowCapacities { trivial := false, boundsCheck := true, debug := true } m [4, 2, 3] := by
  have e : (Crs.mk' { trivial := false, boundsCheck := true, debug := true } 100 3 8 4 >>= fun (m : Crs Nat) =>
      Crs.run { trivial := false, boundsCheck := true, debug := true } 100 m parMatrixOps >>= fun r => do
        .ok (r.2, ← r.1.shape.capacityOfArray { trivial := false, boundsCheck := true, debug := true } 0,
          ← r.1.shape.capacityOfArray { trivial := false, boundsCheck := true, debug := true } 1,
          ← r.1.shape.capacityOfArray { trivial := false, boundsCheck := true, debug := true } 2)) =
      .ok ([.unit, .unit, .num 2, .bool true], 4, 2, 3) := by decide +kernel
  obtain ⟨m0, h0, e⟩ := bind_eq_ok.1 e
  obtain ⟨⟨m, outs⟩, h1, e⟩ := bind_eq_ok.1 e
  obtain ⟨x, e1, e⟩ := bind_eq_ok.1 e
  obtain ⟨y, e2, e⟩ := bind_eq_ok.1 e
  obtain ⟨z, e3, e⟩ := bind_eq_ok.1 e
  cases e
  have hs : ((crsRun 100 { numCols := 8, rows := List.replicate 3 (fun _ => (none : Option Nat)) } parMatrixOps).map fun r =>
      (r.2, r.1.numCols, r.1.rows.map (columnsOf 8))) = some ([.unit, .unit, .num 2, .bool true], 8, [[2, 5], [], [7]]) := by
    decide +kernel
  obtain ⟨⟨M, outs⟩, h2, h3⟩ := Option.map_eq_some_iff.1 hs
  simp only [Prod.mk.injEq] at h3
  refine ⟨m, ⟨M, ⟨3, 8, 4, parMatrixOps, _, m0, by decide, h0, h1, ?_⟩, h3.2⟩, fun i hi => ?_⟩
  · rw [← h3.1]; exact h2
  · match i, hi with
    | 0, _ => exact e1
    | 1, _ => exact e2
    | 2, _ => exact e3

/-- Two threads; the second uses two rows. -/
def parMatrixWork : List (List (Nat × MatCall Nat)) :=
  [[(0, .insertMany [(0, 1), (3, 30)]), (0, .addToRow .linear [(0, 9), (5, 5)]), (0, .remove 2), (0, .getEntry 0)],
   [(2, .insert 1 10), (1, .insert 4 40), (2, .setEntry 1 71), (1, .fill 41), (2, .getColumn 1)]]

set_option synthInstance.maxSize 512 in
example : (threadsRun (MatCall.step 8) (parMatrixRows.zip [4, 2, 3]) parMatrixWork).map (fun q =>
      (q.1.map fun r => (columnsOf 8 r.1, (columnsOf 8 r.1).map r.1, r.2), q.2)) =
    some ([([0, 3, 5], [some 10, some 30, some 55], 4), ([4], [some 41], 2), ([1, 7], [some 10, some 71], 3)],
      [[.num 2, .unit, .bool true, .val (.inr 10)], [.bool true, .bool true, .unit, .unit, .val (.inl 7)]]) := by decide +kernel

/-- What a schedule leaves in the rows, and what the threads return. -/
def parMatrixRun (c : Cfg) (work : List (List (Nat × MatCall Nat))) (sched : List Nat) :
    R (List (R (List (Nat × Nat))) × List (Option (List (RowOut (Nat ⊕ Nat))))) :=
  Crs.mk' c 100 3 8 4 >>= fun m0 => Crs.run c 100 m0 parMatrixOps >>= fun m =>
    interleave (Parallel.Prog.turn ⟨c.ix, c⟩) m.1.shared (threads (matCode c) work) sched >>= fun r =>
    .ok ((List.range 3).map (fun i => do
        let n ← r.1.shape.sizeOfArray c i
        (List.range n).mapM fun k => do .ok (← (r.1.matrix 8).getColumn c i k, ← (r.1.matrix 8).getEntry c i k)),
      r.2.map fun | .ret q => some q | _ => none)

set_option synthInstance.maxSize 512 in
/-- The threads take turns access by access. -/
example : parMatrixRun { trivial := false, boundsCheck := true, debug := true } parMatrixWork
    ((List.replicate 120 [1, 0]).flatten) =
    .ok ([.ok [(0, 10), (3, 30), (5, 55)], .ok [(4, 41)], .ok [(1, 10), (7, 71)]],
      [some [.num 2, .unit, .bool true, .val (.inr 10)], some [.bool true, .bool true, .unit, .unit, .val (.inl 7)]]) := by
  decide +kernel

/-- `setValues` with three threads, one of which has nothing to do. -/
example : [[2], [], [1, 0]].flatten.Perm (List.range 3) := by decide

example : (parMatrixRun { trivial := true, boundsCheck := true, debug := true } (loopOverRows [[2], [], [1, 0]] (.fill 6))
    ((List.replicate 40 [2, 1, 0]).flatten)).map (·.1) = .ok [.ok [(2, 6), (5, 6)], .ok [], .ok [(7, 6)]] := by decide +kernel

/-- **C58 (the hypothesis is needed, matrices).** If two threads add to the same entry without an atomic policy, a schedule exists
in which one of the two sums is lost. -/
theorem C58_same_row_loses_sum :
    (parMatrixRun { trivial := true, boundsCheck := true, debug := true }
      [[(2, .addToRow .linear [(7, 1)])], [(2, .addToRow .linear [(7, 2)])]] ((List.replicate 40 [0, 1]).flatten)).map (·.1) =
      .ok [.ok [(2, 20), (5, 50)], .ok [], .ok [(7, 72)]] ∧
    ((threadsRun (MatCall.step 8) (parMatrixRows.zip [4, 2, 3])
      [[(2, .addToRow .linear [(7, 1)])], [(2, .addToRow .linear [(7, 2)])]]).map fun q => q.1.map fun r => r.1 7) =
      some [none, none, some 73] := by
  decide +kernel

end LvArray.Props

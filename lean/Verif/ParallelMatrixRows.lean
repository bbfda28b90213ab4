import Verif.ParallelMatrix
import Verif.ParallelSets

/-!
# The member functions of `CRSMatrixView`, run alone
-/

namespace LvArray.Parallel

open Prog

variable {V : Type} {d : Cfg} {i p : Nat}

theorem crsPtr_of_read {m : Crs V} (h : m.shape.offsets.read i = .ok p) : m.rowPtr i = p := by
  unfold Buf.read at h
  unfold Crs.rowPtr
  split at h
  · split at h
    · cases h
    · rename_i hv; cases h; rw [hv]
    · cases h
  · cases h

theorem Does.onEntries {P : Code Nat V Unit} {F : Buf V → Nat → R (Buf V)} (h : OnBuf entriesLens ⟨d, d⟩ i P F) :
    DoesU ⟨d, d⟩ i p Crs.shared P (fun m => F m.entries (m.rowPtr i) >>= fun b => .ok { m with entries := b }) := fun m hm => by
  have hp : m.rowPtr i = p := crsPtr_of_read hm
  refine ⟨?_, ?_⟩
  · rw [h _ p hm]
    simp only [hp, bindR_assoc, bind_ok]
    rfl
  · intro r hr
    obtain ⟨m', h1, h2⟩ := bind_eq_ok.1 hr
    obtain ⟨b, _, h3⟩ := bind_eq_ok.1 h1
    cases h2
    cases h3
    exact hm

theorem matFits (p nnz cap : Nat) (es : List V) :
    Fits ⟨d, d⟩ i p Crs.shared (Crs.target d false i nnz cap es) (matCallbacks d nnz cap es) nnz where
  buf := fun _ => rfl
  ptr := fun _ h => crsPtr_of_read h
  put := fun _ _ => rfl
  incrementSize := fun n m hm => by
    refine ⟨?_, ?_⟩
    · show (stopIf (d.boundsCheck && decide (cap < nnz + n))).run ⟨d, d⟩ (fun _ => i) m.shared = _
      rw [run_stopIf]
      simp only [Crs.target, Bool.false_eq_true, if_false, bindR_assoc, bind_ok]
    · intro r hr
      obtain ⟨m', h1, h2⟩ := bind_eq_ok.1 hr
      obtain ⟨_, _, h3⟩ := bind_eq_ok.1 h1
      cases h2
      cases h3
      exact hm
  insert := fun pos => by
    simp only [Crs.target, matCallbacks]
    cases es[0]? with
    | none => exact Does.fail _
    | some e => exact Does.onEntries (OnBuf.emplace (l := entriesLens) nnz pos e)
  set := fun pos colPos => by
    simp only [Crs.target, matCallbacks]
    cases es[colPos]? with
    | none => exact Does.fail _
    | some e => exact Does.onEntries (OnBuf.act (l := entriesLens) (.construct pos e))
  insertMany := fun nLeft colPos pos prevPos => by
    simp only [Crs.target, matCallbacks]
    cases es[colPos]? with
    | none => exact Does.fail _
    | some e =>
      refine (Does.onEntries (OnBuf.seq (OnBuf.shiftUp (l := entriesLens) prevPos pos nLeft)
        (OnBuf.act (l := entriesLens) (.construct (pos + nLeft - 1) e)))).congr fun m => ?_
      simp only [bindR_assoc, bind_ok]
      rfl
  remove := fun h pos => Does.onEntries (OnBuf.erase (l := entriesLens) nnz pos 1 h)
  removeMany := fun nRemoved curPos nextPos => Does.onEntries (OnBuf.shiftDown (l := entriesLens) nextPos (curPos + 1) nRemoved)

variable (m : Crs V)

theorem run_insertNonZero (col : Nat) (e : V) :
    (insertNonZero d col e).run ⟨d, d⟩ (fun _ => i) m.shared =
      (m.insertNonZeroIn d d false i col e >>= fun r => .ok (r.2, r.1.shared)) := by
  simp only [insertNonZero, Crs.insertNonZeroIn, bind_def, run_bind, run_capacity, run_base, run_size, bindR_assoc, bind_ok]
  refine bindR_congr _ fun n _ => bindR_congr _ fun cap _ => bindR_congr (m.shape.offsets.read i) fun p hp => ?_
  rw [(Does.insertOne (matFits p n cap [e]) n col m hp).1]
  simp only [bindR_assoc, bind_ok, run_setSize, run_ret]
  rfl

theorem run_insertNonZeros (cols : List Nat) (es : List V) :
    (insertNonZeros d cols es).run ⟨d, d⟩ (fun _ => i) m.shared =
      (m.insertNonZerosIn d d false i cols es >>= fun r => .ok (r.2, r.1.shared)) := by
  simp only [insertNonZeros, Crs.insertNonZerosIn, bind_def, run_bind, run_capacity, run_base, run_size, bindR_assoc, bind_ok]
  refine bindR_congr _ fun n _ => bindR_congr _ fun cap _ => bindR_congr (m.shape.offsets.read i) fun p hp => ?_
  rw [(Does.insertRange (matFits p n cap es) n cols m hp).1]
  simp only [bindR_assoc, bind_ok, run_setSize, run_ret]
  rfl

theorem run_removeNonZero (col : Nat) :
    (removeNonZero d col).run ⟨d, d⟩ (fun _ => i) m.shared =
      (m.removeNonZeroIn d d i col >>= fun r => .ok (r.2, r.1.shared)) := by
  simp only [removeNonZero, Crs.removeNonZeroIn, bind_def, run_bind, run_capacity, run_base, run_size, bindR_assoc, bind_ok]
  refine bindR_congr _ fun n _ => bindR_congr _ fun cap _ => bindR_congr (m.shape.offsets.read i) fun p hp => ?_
  rw [(Does.removeOne (matFits p n cap []) col m hp).1]
  simp only [bindR_assoc, bind_ok, run_setSize, run_ret]
  rfl

/-- The number of removed columns may not exceed the number of non zeros (it never does for a sorted row). -/
theorem run_removeNonZeros {m m' : Crs V} (cols : List Nat) (n k : Nat) (hn : m.shape.sizeOfArray d i = .ok n)
    (h : m.removeNonZerosIn d d i cols = .ok (m', k)) (hk : k ≤ n) :
    (removeNonZeros d cols).run ⟨d, d⟩ (fun _ => i) m.shared = .ok (k, m'.shared) := by
  unfold Crs.removeNonZerosIn at h
  rw [hn, bind_ok] at h
  obtain ⟨cap, h1, h⟩ := bind_eq_ok.1 h
  obtain ⟨p, h2, h⟩ := bind_eq_ok.1 h
  obtain ⟨⟨b, k'⟩, h3, h⟩ := bind_eq_ok.1 h
  obtain ⟨sh, h4, h⟩ := bind_eq_ok.1 h
  obtain ⟨en, h5, h⟩ := bind_eq_ok.1 h
  cases h
  have hp : m.shared.shape.offsets.read i = .ok p := h2
  obtain ⟨r, r'⟩ := Does.removeRange (matFits p n cap []) n cols m b k' hp h3 hk
  have h1' : m.shared.shape.capacityOfArray d i = .ok cap := h1
  have hn' : m.shared.shape.sizeOfArray d i = .ok n := hn
  simp only [removeNonZeros, bind_def, run_bind, run_capacity, run_base, run_size, bindR_assoc, bind_ok, h1', hn', hp]
  rw [r]
  have h4' : b.shared.shape.setSize d i (n - k') = .ok sh := h4
  simp only [bind_ok, run_setSize, h4']
  have h6 : ({ b.shared with shape := sh } : RowStore Nat V).shape.offsets.read i = .ok p := by
    have : sh.offsets = b.shape.offsets := by
      obtain ⟨_, _, e⟩ := bind_eq_ok.1 h4
      cases e; rfl
    show sh.offsets.read i = .ok p
    rw [this]; exact r'
  have h7 := OnBuf.destroy (l := entriesLens) (c := ⟨d, d⟩) (i := i) (n - k') k' _ p h6
  rw [show destroy onEntry (n - k') k' = destroy (entriesLens (T := Nat) (V := V)).on (n - k') k' from rfl, h7]
  have h8 : arrayManipulation.destroy d b.entries (p + (n - k')) k' = .ok en := by
    have : p + n - k' = p + (n - k') := by omega
    rw [← this]; exact h5
  have h9 : arrayManipulation.destroy ((entriesLens (T := Nat) (V := V)).cfg ⟨d, d⟩)
      ((entriesLens (T := Nat) (V := V)).get { b.shared with shape := sh }) (p + (n - k')) k' = .ok en := h8
  refine (congrArg (fun x => (x >>= fun b_1 => Except.ok ((), entriesLens.put _ b_1)) >>= fun r =>
    run (⟨d, d⟩ : Cfgs) (fun _ => i) (ret k') r.2) h9).trans ?_
  rfl

theorem run_isEmpty (col : Nat) :
    (isEmpty d col).run ⟨d, d⟩ (fun _ => i) m.shared = (m.isEmpty d i col >>= fun r => .ok (r, m.shared)) := by
  have h := run_contains (cs := ⟨d, d⟩) (i := i) (e := m.entries) (⟨m.shape, m.columns⟩ : AoA Nat) col
  have h' : (contains d col).run ⟨d, d⟩ (fun _ => i) m.shared = _ := h
  unfold isEmpty
  simp only [bind_def, run_bind]
  rw [h']
  unfold Crs.isEmpty AoS.contains
  simp only [bindR_assoc, bind_ok, run_ret]
  rfl

/-- The position is within the row or the check stops. -/
theorem run_checkBounds2M (k : Nat) : (checkBounds2 d k).run ⟨d, d⟩ (fun _ => i) m.shared =
    (m.shape.checkBounds2 d i k >>= fun _ => .ok ((), m.shared)) := run_checkBounds2 (cs := ⟨d, d⟩) k _

theorem run_getColumn (k : Nat) : (getValue d k).run ⟨d, d⟩ (fun _ => i) m.shared =
    (m.getColumn d i k >>= fun x => .ok (x, m.shared)) :=
  run_getValue (cs := ⟨d, d⟩) (e := m.entries) (⟨m.shape, m.columns⟩ : AoA Nat) k

theorem run_getEntry (k : Nat) : (getEntry d k).run ⟨d, d⟩ (fun _ => i) m.shared =
    (m.getEntry d i k >>= fun x => .ok (x, m.shared)) := by
  simp only [getEntry, Crs.getEntry, bind_def, run_bind, run_checkBounds2M, run_base, bindR_assoc, bind_ok]
  refine bindR_congr _ fun _ _ => bindR_congr (m.shape.offsets.read i) fun p hp => ?_
  have hp' : m.shared.shape.offsets.read i = .ok p := hp
  simp only [entry, run, readEntry, hp', bind_ok]
  rfl

/-- `getEntries( row )[ k ] = v`. -/
theorem run_setEntry (k : Nat) (v : V) : (setEntry d k v).run ⟨d, d⟩ (fun _ => i) m.shared =
    (m.shape.checkBounds2 d i k >>= fun _ => m.shape.offsets.read i >>= fun p => m.entries.write d (p + k) v >>= fun b =>
      .ok ((), ({ m with entries := b } : Crs V).shared)) := by
  simp only [setEntry, bind_def, run_bind, run_checkBounds2M, run_base, bindR_assoc, bind_ok]
  refine bindR_congr _ fun _ _ => bindR_congr (m.shape.offsets.read i) fun p hp => ?_
  rw [run_onEntry (cs := ⟨d, d⟩) (s := m.shared) (.assign k v) hp]
  rfl

theorem OnBuf.upRow {X T : Type} {l : Lens X T V} {c : Cfgs} {f : Nat → Code T V Unit} {g : Nat → Nat → Buf X → R (Buf X)} :
    ∀ (n lo : Nat), (∀ k, OnBuf l c i (f k) (fun x p => g p k x)) →
      OnBuf l c i (Parallel.up n lo f) (fun x p => forUp n lo (g p) x)
  | 0, _, _ => OnBuf.skip
  | n + 1, lo, h => (OnBuf.seq (h lo) (OnBuf.upRow n (lo + 1) h)).congr fun x p => rfl

/-- One row of `setValues`. -/
theorem run_fillRow (v : V) : (fillRow v).run ⟨d, d⟩ (fun _ => i) m.shared =
    (m.shape.sizeOfArray d i >>= fun n => m.shape.offsets.read i >>= fun p =>
      forUp n 0 (fun j b => Buf.write d b (p + j) v) m.entries >>= fun b =>
      .ok ((), ({ m with entries := b } : Crs V).shared)) := by
  simp only [fillRow, bind_def, run_bind, run_size, run_base, bindR_assoc, bind_ok]
  refine bindR_congr _ fun n _ => bindR_congr (m.shape.offsets.read i) fun p hp => ?_
  exact ((OnBuf.upRow (l := entriesLens) (c := ⟨d, d⟩) (g := fun p j b => Buf.write d b (p + j) v) n 0 fun j =>
    OnBuf.act (l := entriesLens) (.assign j v)) m.shared p hp).trans rfl

/-! ### `addToRow` -/

section add

variable [Add V]

theorem doesAddAt (pos : Nat) (v : V) :
    DoesU ⟨d, d⟩ i p Crs.shared (addAt pos v) (fun m => m.addAt d i pos v) := fun m hm => by
  have hp : m.rowPtr i = p := crsPtr_of_read hm
  refine ⟨?_, ?_⟩
  · simp only [addAt, Crs.addAt, bind_def, run_bind, bindR_assoc, bind_ok]
    simp only [entry, run, readEntry, hm, bind_ok, hp, bindR_assoc]
    refine bindR_congr (m.entries.read (p + pos)) fun x _ => ?_
    rw [run_onEntry (cs := ⟨d, d⟩) (s := m.shared) (.assign pos (x + v)) hm]
    rfl
  · intro r hr
    obtain ⟨m', h1, h2⟩ := bind_eq_ok.1 hr
    obtain ⟨_, _, h3⟩ := bind_eq_ok.1 h1
    obtain ⟨_, _, h3⟩ := bind_eq_ok.1 h3
    cases h2
    cases h3
    exact hm

omit [Add V] in
theorem readsColumn {β : Type} {P : Code Nat V β} {G : (Nat → R Nat) → R β} (h : Reads ⟨d, d⟩ i p P G) :
    Does ⟨d, d⟩ i p Crs.shared P (fun m => G (m.column i) >>= fun x => .ok (m, x)) :=
  Does.reads (matFits p 0 0 []) h

omit [Add V] in
theorem doesAssertColumn (nnz pos col : Nat) :
    DoesU ⟨d, d⟩ i p Crs.shared (assertColumn d nnz pos col : Code Nat V Unit)
      (fun m => m.assertColumn d i nnz pos col >>= fun _ => .ok m) := by
  have h : Reads ⟨d, d⟩ i p (assertColumn d nnz pos col : Code Nat V Unit)
      (fun read => if d.debug then (errorIf (decide (nnz ≤ pos)) >>= fun _ => read pos >>= fun x => errorIf (decide (x ≠ col)))
        else .ok ()) := by
    unfold assertColumn
    exact Reads.cond (Reads.seq (Reads.stop _) fun _ => Reads.seq (Reads.value pos) fun x => Reads.stop _) (Reads.ret ()) _
  refine (readsColumn h).congr fun m => ?_
  simp only [Crs.assertColumn, bindR_assoc, bind_ok]

omit [Add V] in
theorem doesAssertFound (pos col : Nat) :
    DoesU ⟨d, d⟩ i p Crs.shared (assertFound d pos col : Code Nat V Unit)
      (fun m => m.assertFound d i pos col >>= fun _ => .ok m) := by
  have h : Reads ⟨d, d⟩ i p (assertFound d pos col : Code Nat V Unit)
      (fun read => if d.debug then (read pos >>= fun x => errorIf (decide (x ≠ col))) else .ok ()) := by
    unfold assertFound
    exact Reads.cond (Reads.seq (Reads.value pos) fun x => Reads.stop _) (Reads.ret ()) _
  refine (readsColumn h).congr fun m => ?_
  simp only [Crs.assertFound, bindR_assoc, bind_ok]

omit [Add V] in
theorem doesLinearScan (curPos col : Nat) : ∀ (fuel j : Nat),
    Does ⟨d, d⟩ i p Crs.shared (linearScan curPos col fuel j : Code Nat V Nat)
      (fun m => m.linearScan i curPos col fuel j >>= fun x => .ok (m, x))
  | 0, _ => Does.ret curPos
  | fuel + 1, j => by
    refine (Does.seq (readsColumn (Reads.value j)) fun x =>
      Does.cond (Does.ret j) (doesLinearScan curPos col fuel (j + 1)) (x = col)).congr fun m => ?_
    simp only [Crs.linearScan, bindR_assoc, bind_ok]
    refine bindR_congr _ fun x _ => ?_
    split <;> rfl

theorem doesBinaryLoop (nnz : Nat) : ∀ (args : List (Nat × V)) (curPos : Nat),
    DoesU ⟨d, d⟩ i p Crs.shared (binaryLoop d nnz curPos args) (fun m => Crs.binaryLoop d i nnz m curPos args)
  | [], _ => Does.ret ()
  | (col, v) :: rest, curPos => by
    unfold binaryLoop Crs.binaryLoop
    by_cases h : nnz < curPos
    · simp only [if_pos h]; exact Does.fail _
    simp only [if_neg h]
    refine (Does.seq (readsColumn (Reads.find d sortedArrayManipulation.less curPos (nnz - curPos) col)) fun k =>
      Does.seq (doesAssertColumn nnz (k + curPos) col) fun _ => Does.seq (doesAddAt (k + curPos) v) fun _ =>
      doesBinaryLoop nnz rest (k + curPos + 1)).congr fun m => ?_
    simp only [bindR_assoc, bind_ok]

theorem doesLinearLoop (nnz : Nat) : ∀ (args : List (Nat × V)) (curPos : Nat),
    DoesU ⟨d, d⟩ i p Crs.shared (linearLoop d nnz curPos args) (fun m => Crs.linearLoop d i nnz m curPos args)
  | [], _ => Does.ret ()
  | (col, v) :: rest, curPos => by
    refine (Does.seq (doesLinearScan curPos col (nnz - curPos) curPos) fun k =>
      Does.seq (doesAssertFound k col) fun _ => Does.seq (doesAddAt k v) fun _ =>
      doesLinearLoop nnz rest (k + 1)).congr fun m => ?_
    simp only [Crs.linearLoop, bindR_assoc, bind_ok]

theorem doesUnsortedLoop (nnz : Nat) : ∀ (args : List (Nat × V)),
    DoesU ⟨d, d⟩ i p Crs.shared (unsortedLoop d nnz args) (fun m => Crs.unsortedLoop d i nnz m args)
  | [] => Does.ret ()
  | (col, v) :: rest => by
    refine (Does.seq (readsColumn (Reads.find0 d sortedArrayManipulation.less nnz col)) fun k =>
      Does.seq (doesAssertColumn nnz k col) fun _ => Does.seq (doesAddAt k v) fun _ =>
      doesUnsortedLoop nnz rest).congr fun m => ?_
    simp only [Crs.unsortedLoop, bindR_assoc, bind_ok]

omit [Add V] in
theorem run_checkRowM : (checkRow : Code Nat V Unit).run ⟨d, d⟩ (fun _ => i) m.shared =
    (m.shape.checkBounds d i >>= fun _ => .ok ((), m.shared)) := run_checkRow _

theorem run_addToRowBinarySearch (args : List (Nat × V)) : (addToRowBinarySearch d args).run ⟨d, d⟩ (fun _ => i) m.shared =
    (m.addToRowBinarySearch d i args >>= fun m' => .ok ((), m'.shared)) := by
  simp only [addToRowBinarySearch, Crs.addToRowBinarySearch, bind_def, run_bind, run_stopIf, run_size, run_checkRowM, run_base,
    bindR_assoc, bind_ok]
  refine bindR_congr _ fun _ _ => bindR_congr _ fun n _ => bindR_congr _ fun _ _ => bindR_congr (m.shape.offsets.read i) fun p hp => ?_
  rw [(doesBinaryLoop n args 0 m hp).1]
  simp only [bindR_assoc, bind_ok]

theorem run_addToRowLinearSearch (args : List (Nat × V)) : (addToRowLinearSearch d args).run ⟨d, d⟩ (fun _ => i) m.shared =
    (m.addToRowLinearSearch d i args >>= fun m' => .ok ((), m'.shared)) := by
  simp only [addToRowLinearSearch, Crs.addToRowLinearSearch, bind_def, run_bind, run_stopIf, run_size, run_checkRowM, run_base,
    bindR_assoc, bind_ok]
  refine bindR_congr _ fun _ _ => bindR_congr _ fun n _ => bindR_congr _ fun _ _ => bindR_congr (m.shape.offsets.read i) fun p hp => ?_
  rw [(doesLinearLoop n args 0 m hp).1]
  simp only [bindR_assoc, bind_ok]

theorem run_addToRowBinarySearchUnsorted (args : List (Nat × V)) :
    (addToRowBinarySearchUnsorted d args).run ⟨d, d⟩ (fun _ => i) m.shared =
    (m.addToRowBinarySearchUnsorted d i args >>= fun m' => .ok ((), m'.shared)) := by
  simp only [addToRowBinarySearchUnsorted, Crs.addToRowBinarySearchUnsorted, bind_def, run_bind, run_size, run_checkRowM, run_base,
    bindR_assoc, bind_ok]
  refine bindR_congr _ fun n _ => bindR_congr _ fun _ _ => bindR_congr (m.shape.offsets.read i) fun p hp => ?_
  rw [(doesUnsortedLoop n args m hp).1]
  simp only [bindR_assoc, bind_ok]

theorem run_addToRow (args : List (Nat × V)) : (addToRow d args).run ⟨d, d⟩ (fun _ => i) m.shared =
    (m.addToRow d i args >>= fun m' => .ok ((), m'.shared)) := by
  simp only [addToRow, Crs.addToRow, bind_def, run_bind, run_size, bindR_assoc, bind_ok]
  refine bindR_congr _ fun n _ => ?_
  split
  · exact run_addToRowBinarySearch m args
  · exact run_addToRowLinearSearch m args

end add

end LvArray.Parallel

import Verif.PyRows
import Verif.CrsMore

/-!
# `pylvarray.CRSMatrix` refines sparse matrices
-/

namespace LvArray.Python

open Spec Layout Crs

variable {V : Type} {c : Cfg}

theorem readRange_ok {X : Type} {b : Buf X} (xs : List X) (p : Nat) (h : ∀ j (hj : j < xs.length), b.read (p + j) = .ok xs[j]) :
    readRange b p xs.length = .ok xs := by
  induction xs generalizing p with
  | nil => rfl
  | cons x xs ih =>
    have h0 := h 0 (by simp)
    simp only [Nat.add_zero, List.getElem_cons_zero] at h0
    simp only [List.length_cons, readRange]
    rw [h0, bind_ok, ih (p + 1) (fun j hj => by
      have := h (j + 1) (by simp; omega)
      simpa [Nat.add_assoc, Nat.add_comm 1 j] using this), bind_ok]

theorem pairUp_ok (ks : List Nat) (vs : List V) (h : ks.length = vs.length) : pairUp ks vs = .ok (ks.zip vs) := by
  induction ks generalizing vs with
  | nil => cases vs with
    | nil => rfl
    | cons => simp at h
  | cons k ks ih =>
    cases vs with
    | nil => simp at h
    | cons v vs =>
      unfold pairUp
      rw [ih vs (by simpa using h), bind_ok]
      rfl

/-- The entries of a row in the order of the columns. -/
theorem filterMap_columnsOf (n : Nat) (f : Nat → Option V) : (columnsOf n f).filterMap f = (rowList n f).map (·.2) := by
  rw [columnsOf_eq, List.filterMap_map, ← List.filterMap_eq_map]
  refine List.filterMap_congr fun x hx => ?_
  exact (mem_rowList.1 hx).2

/-- Replace the entry of one column. -/
theorem rowList_assign (n : Nat) (f : Nat → Option V) (j : Nat) (hj : j < (rowList n f).length) (v : V) :
    (rowList n fun k => if some k = (columnsOf n f)[j]? then some v else f k) =
      (rowList n f).set j ((rowList n f)[j].1, v) := by
  have hj' : (columnsOf n f)[j]? = some (rowList n f)[j].1 := by
    rw [columnsOf_eq, List.getElem?_map, List.getElem?_eq_getElem hj]; rfl
  have e1 : (rowList n fun k => if some k = (columnsOf n f)[j]? then some v else f k) =
      (rowList n f).map fun x => if x.1 = (rowList n f)[j].1 then (x.1, v) else x := by
    have hm := mem_rowList.1 (List.getElem_mem hj)
    rw [hj']
    generalize (rowList n f)[j].1 = k0 at hm
    obtain ⟨hm1, hm2⟩ := hm
    unfold rowList
    rw [List.map_filterMap]
    refine List.filterMap_congr fun k _ => ?_
    simp only [Option.some.injEq]
    by_cases hk : k = k0
    · subst hk
      rw [if_pos rfl, hm2]; simp
    · rw [if_neg hk]
      cases f k <;> simp [hk]
  rw [e1]
  refine List.ext_getElem (by simp) fun i h1 h2 => ?_
  simp only [List.length_map] at h1
  rw [List.getElem_map, List.getElem_set]
  have hinc := List.pairwise_iff_getElem.1 (rowList_increasing n f)
  by_cases hij : j = i
  · subst hij; simp
  · rw [if_neg hij, if_neg]
    intro he
    rcases Nat.lt_or_gt_of_ne hij with h3 | h3
    · have : (rowList n f)[j].1 < (rowList n f)[i].1 := hinc j i hj h1 h3
      omega
    · have : (rowList n f)[i].1 < (rowList n f)[j].1 := hinc i j h1 hj h3
      omega

theorem write_moves {T : Type} {c : Cfg} {b b' : Buf T} {p : Nat} {x : T} (h : b.write c p x = .ok b') :
    b'.cap = b.cap ∧ b'.moves = b.moves := by
  unfold Buf.write at h
  split at h
  · split at h <;> cases h; exact ⟨rfl, rfl⟩
  · cases h

theorem unsortedLoop_frame [Add V] (row nnz : Nat) (args : List (Nat × V)) : ∀ {m m' : Crs V},
    unsortedLoop c row nnz m args = .ok m' → m'.shape = m.shape ∧ m'.entries.cap = m.entries.cap ∧
      m'.entries.moves = m.entries.moves := by
  induction args with
  | nil => intro m m' h; cases h; exact ⟨rfl, rfl, rfl⟩
  | cons a args ih =>
    intro m m' h
    obtain ⟨k, v⟩ := a
    unfold unsortedLoop at h
    obtain ⟨pos, -, h⟩ := bind_eq_ok.1 h
    obtain ⟨_, -, h⟩ := bind_eq_ok.1 h
    obtain ⟨m1, h1, h⟩ := bind_eq_ok.1 h
    unfold addAt at h1
    obtain ⟨x, -, h1⟩ := bind_eq_ok.1 h1
    obtain ⟨b, h2, h1⟩ := bind_eq_ok.1 h1
    cases h1
    have hb := write_moves h2
    have := ih h
    exact ⟨this.1, this.2.1.trans hb.1, this.2.2.trans hb.2⟩

/-- The window shows the entries of row `i`. -/
def MatVal (c : Cfg) (m : Crs V) (win : Window) (i : Nat) : Prop :=
  i < m.shape.numArrays ∧ ∃ n p, m.shape.sizeOfArray c i = .ok n ∧ m.shape.offsets.read i = .ok p ∧ win.start = p ∧
    win.dims = [n] ∧ win.strides = [1]

theorem CrsGood.num {m : Crs V} {M : Spec.Matrix V} (h : CrsGood m M) : m.shape.numArrays = M.rows.length := by
  obtain ⟨L, hg, hL⟩ := h.rows
  rw [hg.shape.num]
  simpa using congrArg List.length hL

theorem matrix_step [Add V] (ht : c.trivial = true) (colMax : Nat) {m : Crs V} {M M' : Spec.Matrix V} (h : CrsGood m M)
    (op : CrsOp V) {out} (hs : crsStep colMax M op = some (M', out)) :
    ∃ m', m.step c colMax op = .ok (m', out) ∧ CrsGood m' M' := by
  rcases h.step_ok (c := c) colMax op M' out hs with h1 | ⟨h1, -⟩
  · exact h1
  · rw [ht] at h1; cases h1

theorem map_fst_zip' {X Y : Type} (xs : List X) (ys : List Y) (h : xs.length = ys.length) : (xs.zip ys).map (·.1) = xs :=
  List.map_fst_zip (by omega)

theorem map_snd_zip' {X Y : Type} (xs : List X) (ys : List Y) (h : xs.length = ys.length) : (xs.zip ys).map (·.2) = ys :=
  List.map_snd_zip (by omega)

theorem matrix_meets [Add V] (ht : c.trivial = true) (colMax : Nat) (level : Int) {m : Crs V} {M : Spec.Matrix V}
    (h : CrsGood m M) (f : CrsM V) (out) (hs : pyMatrixCall colMax level M f = some out) :
    Meets (K := crsMatrix V colMax) (A := pyMatrix V colMax) CrsGood (MatVal c) m (crsCall colMax c level m f) out := by
  have hn := CrsGood.num h
  have idx : ∀ {i : Int}, isIndex i M.rows.length → i.toNat < M.rows.length := fun {i} hi => by unfold isIndex at hi; omega
  cases f with
  | numRows => cases hs; show done _ _ = _; rw [hn]; rfl
  | numColumns => cases hs; show done _ _ = _; rw [h.cols]; rfl
  | getColumns i =>
    simp only [pyMatrixCall] at hs
    simp only [crsCall, hn]
    split at hs
    · rename_i hi
      cases hs
      rw [if_neg (fun hh => not_isIndex.2 hh hi)]
      have hlt := idx hi
      obtain ⟨A, cap, B, hA, hg, -⟩ := h.at_ (List.getElem?_eq_getElem hlt)
      rw [← hA, hg.readOff, bind_ok, hg.shape.sizeOfAt rfl, bind_ok]
      have hr := readRange_ok (b := m.columns) ((rowList M.numCols M.rows[i.toNat]).map (·.1)) (total A) (fun j hj => by
        have := (winC hg IsRaw).read_front j hj
        simpa using this)
      rw [List.length_map] at hr
      rw [hr, bind_ok, hA, getD_of_lt _ _ hlt, columnsOf_eq]
      rfl
    · rename_i hi
      cases hs
      rw [if_pos (not_isIndex.1 hi)]
      rfl
  | getEntries i =>
    simp only [pyMatrixCall] at hs
    simp only [crsCall, hn]
    split at hs
    · rename_i hi
      cases hs
      rw [if_neg (fun hh => not_isIndex.2 hh hi)]
      have hlt := idx hi
      obtain ⟨A, cap, B, hA, hg, -⟩ := h.at_ (List.getElem?_eq_getElem hlt)
      have e1 : m.shape.offsets.read i.toNat = .ok (total A) := by rw [← hA]; exact hg.readOff
      have e2 : m.shape.sizeOfArray c i.toNat = .ok (rowList M.numCols M.rows[i.toNat]).length := by
        have := hg.shape.sizeOfAt (c := c) rfl
        rwa [hA] at this
      rw [e1, bind_ok, e2, bind_ok, getD_of_lt _ _ hlt, columnsOf_length]
      exact ⟨_, rfl, rfl, rfl, by rw [hn]; exact hlt, _, _, e2, e1, rfl, rfl, rfl⟩
    · rename_i hi
      cases hs
      rw [if_pos (not_isIndex.1 hi)]
      rfl
  | resize r n k =>
    simp only [pyMatrixCall] at hs
    simp only [crsCall]
    rcases resizing_some hs with ⟨hl, rfl⟩ | ⟨hl, hs⟩
    · rw [if_pos hl]; rfl
    rw [if_neg hl]
    split at hs
    · rename_i hneg
      cases hs
      rw [if_pos hneg]
      rfl
    · rename_i hneg
      rw [if_neg hneg]
      split at hs
      · rename_i hok
        cases hs
        obtain ⟨m', h1, h2⟩ := matrix_step ht colMax h (.resize r.toNat n.toNat k.toNat) (by
          simp only [crsStep]
          rw [if_pos ⟨by omega, fun f hf j hj => by have := hok.2 f hf j hj; omega⟩])
        simp only [Crs.step] at h1
        obtain ⟨m1, h3, h4⟩ := bind_eq_ok.1 h1
        cases h4
        rw [h3, bind_ok]
        exact ⟨_, rfl, h2, fun hh => by cases hh⟩
      · cases hs
  | compress =>
    simp only [pyMatrixCall] at hs
    simp only [crsCall]
    rcases resizing_some hs with ⟨hl, rfl⟩ | ⟨hl, hs⟩
    · rw [if_pos hl]; rfl
    rw [if_neg hl]
    cases hs
    obtain ⟨m', h1, h2⟩ := matrix_step ht colMax h .compress rfl
    simp only [Crs.step] at h1
    obtain ⟨m1, h3, h4⟩ := bind_eq_ok.1 h1
    cases h4
    rw [h3, bind_ok]
    exact ⟨_, rfl, h2, fun hh => by cases hh⟩
  | insertNonZeros i ks es =>
    match ks, es with
    | none, _ | some _, none =>
      simp only [pyMatrixCall] at hs
      simp only [crsCall]
      rcases resizing_some hs with ⟨hl, rfl⟩ | ⟨hl, hs⟩
      · rw [if_pos hl]; rfl
      rw [if_neg hl]
      cases hs
      rfl
    | some ks, some es =>
      simp only [pyMatrixCall] at hs
      simp only [crsCall, hn]
      rcases resizing_some hs with ⟨hl, rfl⟩ | ⟨hl, hs⟩
      · rw [if_pos hl]; rfl
      rw [if_neg hl]
      split at hs
      · rename_i hb
        cases hs
        by_cases hle : ks.length ≠ es.length
        · rw [if_pos hle]; rfl
        · rw [if_neg hle, if_pos (not_isIndex.1 (hb.resolve_left hle))]; rfl
      · rename_i hb
        obtain ⟨hle, hi⟩ := not_or.1 hb
        have hle' : ks.length = es.length := Decidable.not_not.1 hle
        have hi := Decidable.not_not.1 hi
        rw [if_neg hle, if_neg (fun hh => not_isIndex.2 hh hi)]
        have hlt := idx hi
        simp only [getD_of_lt _ _ hlt] at hs
        split at hs
        · rename_i hok
          cases hs
          obtain ⟨m', h1, h2⟩ := matrix_step ht colMax h (.insertMany i.toNat (ks.zip es)) (by
            simp only [crsStep]
            rw [if_pos ⟨by rw [map_fst_zip' _ _ hle']; exact hok.1, fun a ha => hok.2 _ (List.of_mem_zip ha).1⟩]
            simp only [Matrix.onRow, List.getElem?_eq_getElem hlt, if_true]
            rfl)
          simp only [Crs.step, map_fst_zip' _ _ hle', map_snd_zip' _ _ hle'] at h1
          obtain ⟨⟨m1, n1⟩, h3, h4⟩ := bind_eq_ok.1 h1
          simp only [Except.ok.injEq, Prod.mk.injEq, AoSOut.num.injEq] at h4
          obtain ⟨rfl, rfl⟩ := h4
          rw [h3, bind_ok]
          have hcount : (ks.zip es).countP (fun a => (M.rows[i.toNat] a.1).isNone) =
              ks.countP fun k => (M.rows[i.toNat] k).isNone := by
            conv_rhs => rw [← map_fst_zip' ks es hle']
            rw [List.countP_map]
            rfl
          rw [hcount]
          exact ⟨_, rfl, h2, fun hh => by cases hh⟩
        · cases hs
  | removeNonZeros i ks =>
    cases ks with
    | none =>
      simp only [pyMatrixCall] at hs
      simp only [crsCall]
      rcases resizing_some hs with ⟨hl, rfl⟩ | ⟨hl, hs⟩
      · rw [if_pos hl]; rfl
      rw [if_neg hl]
      cases hs
      rfl
    | some ks =>
      simp only [pyMatrixCall] at hs
      simp only [crsCall, hn]
      rcases resizing_some hs with ⟨hl, rfl⟩ | ⟨hl, hs⟩
      · rw [if_pos hl]; rfl
      rw [if_neg hl]
      split at hs
      · rename_i hi
        cases hs
        rw [if_pos (not_isIndex.1 hi)]; rfl
      · rename_i hi
        have hi := Decidable.not_not.1 hi
        rw [if_neg (fun hh => not_isIndex.2 hh hi)]
        have hlt := idx hi
        simp only [getD_of_lt _ _ hlt] at hs
        split at hs
        · rename_i hok
          cases hs
          obtain ⟨m', h1, h2⟩ := matrix_step ht colMax h (.removeMany i.toNat ks) (by
            simp only [crsStep]
            rw [if_pos hok]
            simp only [Matrix.onRow, List.getElem?_eq_getElem hlt, if_true]
            rfl)
          simp only [Crs.step] at h1
          obtain ⟨⟨m1, n1⟩, h3, h4⟩ := bind_eq_ok.1 h1
          cases h4
          rw [h3, bind_ok]
          exact ⟨_, rfl, h2, fun hh => by cases hh⟩
        · cases hs
  | addToRow i ks vs =>
    match ks, vs with
    | none, _ | some _, none =>
      simp only [pyMatrixCall] at hs
      simp only [crsCall]
      rcases resizing_some hs with ⟨hl, rfl⟩ | ⟨hl, hs⟩
      · rw [if_pos hl]; rfl
      rw [if_neg hl]
      cases hs
      rfl
    | some ks, some vs =>
      simp only [pyMatrixCall] at hs
      simp only [crsCall, hn]
      rcases resizing_some hs with ⟨hl, rfl⟩ | ⟨hl, hs⟩
      · rw [if_pos hl]; rfl
      rw [if_neg hl]
      split at hs
      · rename_i hi
        cases hs
        rw [if_pos (not_isIndex.1 hi)]; rfl
      · rename_i hi
        have hi := Decidable.not_not.1 hi
        rw [if_neg (fun hh => not_isIndex.2 hh hi)]
        have hlt := idx hi
        simp only [getD_of_lt _ _ hlt] at hs
        split at hs
        · rename_i hok
          cases hs
          obtain ⟨m', h1, h2⟩ := matrix_step ht colMax h (.addToRow .unsorted i.toNat (ks.zip vs)) (by
            simp only [crsStep, orderOk, if_true, Matrix.onRow, List.getElem?_eq_getElem hlt]
            rw [if_pos (by
              simp only [List.all_eq_true]
              exact fun a ha => hok.2 _ (List.of_mem_zip ha).1)])
          simp only [Crs.step] at h1
          obtain ⟨m1, h3, h4⟩ := bind_eq_ok.1 h1
          cases h4
          rw [pairUp_ok _ _ hok.1, bind_ok, h3, bind_ok]
          unfold addToRowBinarySearchUnsorted at h3
          obtain ⟨_, -, h3⟩ := bind_eq_ok.1 h3
          obtain ⟨_, -, h3⟩ := bind_eq_ok.1 h3
          obtain ⟨_, -, h3⟩ := bind_eq_ok.1 h3
          obtain ⟨hf1, hf2, hf3⟩ := unsortedLoop_frame _ _ _ h3
          refine ⟨_, rfl, h2, fun _ => ⟨by simp [mayMove, crsMatrix, hf2, hf3], fun win part hv => ?_⟩⟩
          unfold MatVal at hv ⊢
          rw [hf1]
          exact hv
        · cases hs

/-- **Refinement.** -/
theorem matrix_refines [Add V] (ht : c.trivial = true) (colMax : Nat) :
    Refines c (pyMatrix V colMax) CrsGood (MatVal c) := by
  refine Refines.of_meets rfl (fun {level w s m out} h hs => matrix_meets ht colMax level h m out hs) ?_ ?_ ?_
  · intro (m : Crs V) (M : Spec.Matrix V) win (i : Nat) idx h hv hg
    obtain ⟨hi, n, p, h1, h2, h3, h4, h5⟩ := hv
    have hi' : i < M.rows.length := by rw [← CrsGood.num h]; exact hi
    obtain ⟨A, cap, B, rfl, hgd, -⟩ := CrsGood.at_ h (List.getElem?_eq_getElem hi')
    rw [hgd.shape.sizeOfAt rfl] at h1
    cases h1
    have hg : nth ((columnsOf M.numCols (M.rows.getD A.length fun _ => none)).filterMap (M.rows.getD A.length fun _ => none)) idx
      = none := hg
    rw [getD_of_lt _ _ hi', filterMap_columnsOf] at hg
    rw [h4]
    simpa using nth_none hg
  · intro (m : Crs V) (M : Spec.Matrix V) win (i : Nat) idx x h hv hg
    obtain ⟨hi, n, p, h1, h2, h3, h4, h5⟩ := hv
    have hi' : i < M.rows.length := by rw [← CrsGood.num h]; exact hi
    obtain ⟨A, cap, B, rfl, hgd, -⟩ := CrsGood.at_ h (List.getElem?_eq_getElem hi')
    rw [hgd.shape.sizeOfAt rfl] at h1
    cases h1
    rw [hgd.readOff] at h2
    cases h2
    have hg : nth ((columnsOf M.numCols (M.rows.getD A.length fun _ => none)).filterMap (M.rows.getD A.length fun _ => none)) idx
      = some x := hg
    rw [getD_of_lt _ _ hi', filterMap_columnsOf] at hg
    obtain ⟨j, rfl, hj, rfl⟩ := nth_some hg
    refine ⟨by rw [h4]; exact (inside_one _ _).2 ⟨j, by simpa using hj, rfl⟩, fun v hv => ?_⟩
    cases hv
    rw [h3, h5, offset_one]
    exact (winE hgd IsRaw).read_front j hj
  · intro (m : Crs V) (M : Spec.Matrix V) win (i : Nat) idx x v h hv _ hg
    obtain ⟨hi, n, p, h1, h2, h3, h4, h5⟩ := hv
    have hi' : i < M.rows.length := by rw [← CrsGood.num h]; exact hi
    obtain ⟨A, cap, B, rfl, hgd, hr, hset⟩ := CrsGood.at_ h (List.getElem?_eq_getElem hi')
    rw [hgd.readOff] at h2
    cases h2
    have hg : nth ((columnsOf M.numCols (M.rows.getD A.length fun _ => none)).filterMap (M.rows.getD A.length fun _ => none)) idx
      = some x := hg
    rw [getD_of_lt _ _ hi', filterMap_columnsOf] at hg
    obtain ⟨j, rfl, hj, rfl⟩ := nth_some hg
    have hj' : j < (rowList M.numCols M.rows[A.length]).length := by simpa using hj
    obtain ⟨b, hb, w⟩ := (winE hgd IsRaw).writeAt (c := c) j hj v
    rw [h3, h5, offset_one]
    refine ⟨b, hb, ?_, fun win' part' hv' => hv'⟩
    have hrow := rowList_assign M.numCols M.rows[A.length] j hj' v
    have hin : InRange M.numCols fun k => if some k = (columnsOf M.numCols M.rows[A.length])[j]? then some v else M.rows[A.length] k := by
      intro k hk
      by_cases he : some k = (columnsOf M.numCols M.rows[A.length])[j]?
      · have hm := List.mem_of_getElem? he.symm
        rw [columnsOf_eq, List.mem_map] at hm
        obtain ⟨y, hy, rfl⟩ := hm
        exact (mem_rowList.1 hy).1
      · simp only [if_neg he] at hk
        exact hr k hk
    have hg' := hset (fun k => if some k = (columnsOf M.numCols M.rows[A.length])[j]? then some v else M.rows[A.length] k) cap
      { m with entries := b } ?_ rfl hin
    · have e : M.rows.getD A.length (fun _ => none) = M.rows[A.length] := getD_of_lt _ _ hi'
      rw [← e] at hg'
      exact hg'
    rw [hrow]
    refine setEntries hgd ?_ (Q := IsRaw) ?_
    · rw [List.map_set]
      simp only
      refine List.ext_getElem (by simp) fun k h1 h2 => ?_
      rw [List.getElem_set]
      split
      · rename_i hk; subst hk; simp
      · rfl
    · rw [List.map_set]
      exact w

end LvArray.Python

import Verif.OwnEntriesLemmas
import Verif.OwnGrownLemmas
import Verif.Props.Sparse

/-!
# C81: columns and entries of a matrix as arguments of its own member functions
-/

namespace LvArray.Props

open LvArray Layout Spec sortedArrayManipulation OwnSets OwnEntries

set_option linter.unusedSectionVars false

variable {V : Type} [Add V]

/-- The columns `lo`, ..., `lo + n - 1` of the non zeros of a row, together with their entries. -/
def partOf (numCols : Nat) (f : Nat → Option V) (lo n : Nat) : List (Nat × V) :=
  (((columnsOf numCols f).drop lo).take n).filterMap fun k => (f k).map fun v => (k, v)

theorem partOf_eq (numCols : Nat) (f : Nat → Option V) (lo n : Nat) :
    partOf numCols f lo n = ((rowList numCols f).drop lo).take n := by
  unfold partOf
  rw [columnsOf_eq, ← List.map_drop, ← List.map_take, List.filterMap_map]
  have hmem : ∀ x ∈ ((rowList numCols f).drop lo).take n, ((fun k => (f k).map fun v => (k, v)) ∘ fun x : Nat × V => x.1) x = some x := by
    intro x hx
    have := (mem_rowList.1 (List.mem_of_mem_drop (List.mem_of_mem_take hx))).2
    simp only [Function.comp_apply, this, Option.map_some]
  generalize ((rowList numCols f).drop lo).take n = l at hmem
  induction l with
  | nil => rfl
  | cons x l ih =>
    rw [List.filterMap_cons, hmem x (by simp), ih fun y hy => hmem y (by simp [hy])]

theorem partOf_length {numCols : Nat} {f : Nat → Option V} {lo n : Nat} (h : lo + n ≤ (columnsOf numCols f).length) :
    (partOf numCols f lo n).length = n := by
  rw [columnsOf_length] at h
  rw [partOf_eq]; simp; omega

theorem partOf_increasing (numCols : Nat) (f : Nat → Option V) (lo n : Nat) : Increasing Prod.fst (partOf numCols f lo n) := by
  rw [partOf_eq]
  exact ((rowList_increasing numCols f).sublist (List.drop_sublist _ _)).sublist (List.take_sublist _ _)

theorem partOf_mem {numCols : Nat} {f : Nat → Option V} {lo n : Nat} {x : Nat × V} (hx : x ∈ partOf numCols f lo n) :
    x.1 < numCols ∧ f x.1 = some x.2 := by
  rw [partOf_eq] at hx
  exact mem_rowList.1 (List.mem_of_mem_drop (List.mem_of_mem_take hx))

/-- Where two rows are: row `i`, and another row in front of it or behind it. -/
theorem locateFront {m : Crs V} {M : Spec.Matrix V} (h : CrsGood m M) {i j : Nat} {f g : Nat → Option V}
    (hi : M.rows[i]? = some f) (hj : M.rows[j]? = some g) :
    ∃ A cap B, A.length = i ∧ CGood m (A ++ (rowList M.numCols f, cap) :: B) ∧ InRange M.numCols f ∧
      (∀ (f' : Nat → Option V) cap' m', CGood m' (A ++ (rowList M.numCols f', cap') :: B) → m'.numCols = m.numCols →
        InRange M.numCols f' → CrsGood m' { M with rows := M.rows.set i f' }) ∧
      ((j = i ∧ g = f) ∨ ∃ A' cap' B', A'.length = j ∧ CGood m (A' ++ (rowList M.numCols g, cap') :: B') ∧ j ≠ i ∧
        (total A' + cap' ≤ total A ∨ total A + cap ≤ total A') ∧
        ∀ xs' : List (Nat × V), ∃ A₁ B₁, total A₁ = total A' ∧ A ++ (xs', cap) :: B = A₁ ++ (rowList M.numCols g, cap') :: B₁) ∧
      (j < i → ∃ A' cap' t, A'.length = j ∧ A = A' ++ (rowList M.numCols g, cap') :: t) := by
  obtain ⟨L, hg, hL⟩ := h.rows
  obtain ⟨hlt, hf⟩ := List.getElem?_eq_some_iff.1 hi
  obtain ⟨hltj, hfj⟩ := List.getElem?_eq_some_iff.1 hj
  have hlen : L.length = M.rows.length := by simpa using congrArg List.length hL
  have hx : ∀ (k : Nat) (r : Nat → Option V) (hk : k < L.length), M.rows[k]? = some r → L[k].1 = rowList M.numCols r := by
    intro k r hk hr
    have := congrArg (·[k]?) hL
    simp only [List.getElem?_map, hr, List.getElem?_eq_getElem hk, Option.map_some, Option.some.injEq] at this
    exact this
  obtain ⟨A, xs, cap, B, rfl, rfl, hxi⟩ := split1 (by omega : i < L.length)
  have hxs := hx A.length f (by omega) hi
  rw [hxi] at hxs
  simp only at hxs
  subst hxs
  refine ⟨A, cap, B, rfl, hg, h.inRange f (List.mem_of_getElem? hi), ?_, ?_, fun hji => ?_⟩
  · intro f' cap' m' hg' hn hr
    refine ⟨by rw [hn, h.cols], ⟨_, hg', ?_⟩, fun r hr' => ?_⟩
    · show _ = (M.rows.set A.length f').map (rowList M.numCols)
      rw [List.map_set, ← hL]; simp
    · rcases List.mem_or_eq_of_mem_set hr' with hr' | rfl
      · exact h.inRange r hr'
      · exact hr
  · by_cases hji : j = A.length
    · subst hji
      rw [hi] at hj
      exact .inl ⟨rfl, (Option.some.inj hj).symm⟩
    · refine .inr ?_
      have hjx := hx j g (by omega) hj
      obtain ⟨A', ys, cap', B', he, hA', hy⟩ := split1 (by omega : j < (A ++ (rowList M.numCols f, cap) :: B).length)
      rw [hy] at hjx
      simp only at hjx
      subst hjx
      refine ⟨A', cap', B', hA', by rw [← he]; exact hg, hji, ?_⟩
      rcases Nat.lt_or_gt_of_ne hji with hl | hl
      · have : A' ++ [(rowList M.numCols g, cap')] <+: A := by
          have h1 : A' ++ [(rowList M.numCols g, cap')] <+: A ++ (rowList M.numCols f, cap) :: B := by
            rw [he]; exact ⟨B', by simp⟩
          exact List.prefix_of_prefix_length_le h1 (List.prefix_append _ _) (by simp; omega)
        obtain ⟨t, rfl⟩ := this
        refine ⟨.inl (by simp only [total_append, total_cons, total_nil]; omega), fun xs' => ⟨A', t ++ (xs', cap) :: B, rfl, by simp⟩⟩
      · have : A ++ [(rowList M.numCols f, cap)] <+: A' := by
          have h1 : A ++ [(rowList M.numCols f, cap)] <+: A' ++ (rowList M.numCols g, cap') :: B' := by
            rw [← he]; exact ⟨B, by simp⟩
          exact List.prefix_of_prefix_length_le h1 (List.prefix_append _ _) (by simp; omega)
        obtain ⟨t, rfl⟩ := this
        rw [List.append_assoc, List.append_assoc, List.singleton_append] at he
        have hB : B = t ++ (rowList M.numCols g, cap') :: B' := by simpa using he
        refine ⟨.inr (by simp only [total_append, total_cons, total_nil]; omega), fun xs' =>
          ⟨A ++ [(xs', cap)] ++ t, B', by simp only [total_append, total_cons, total_nil], by rw [hB]; simp⟩⟩
  · obtain ⟨A', ys, cap', t, rfl, hA', hy⟩ := split1 hji
    have hjx := hx j g (by omega) hj
    rw [List.getElem_append_left hji, hy] at hjx
    simp only at hjx
    subst hjx
    exact ⟨A', cap', t, hA', rfl⟩

/-- Where two rows are: row `i`, and another row in front of it or behind it. -/
theorem locateRows {m : Crs V} {M : Spec.Matrix V} (h : CrsGood m M) {i j : Nat} {f g : Nat → Option V}
    (hi : M.rows[i]? = some f) (hj : M.rows[j]? = some g) :
    ∃ A cap B, A.length = i ∧ CGood m (A ++ (rowList M.numCols f, cap) :: B) ∧ InRange M.numCols f ∧
      (∀ (f' : Nat → Option V) cap' m', CGood m' (A ++ (rowList M.numCols f', cap') :: B) → m'.numCols = m.numCols →
        InRange M.numCols f' → CrsGood m' { M with rows := M.rows.set i f' }) ∧
      ((j = i ∧ g = f) ∨ ∃ A' cap' B', A'.length = j ∧ CGood m (A' ++ (rowList M.numCols g, cap') :: B') ∧ j ≠ i ∧
        (total A' + cap' ≤ total A ∨ total A + cap ≤ total A') ∧
        ∀ xs' : List (Nat × V), ∃ A₁ B₁, total A₁ = total A' ∧ A ++ (xs', cap) :: B = A₁ ++ (rowList M.numCols g, cap') :: B₁) := by
  obtain ⟨A, cap, B, h1, h2, h3, h4, h5, -⟩ := locateFront h hi hj
  exact ⟨A, cap, B, h1, h2, h3, h4, h5⟩

/-- **C81 (inserting a range), partial.** After any legal history, `insertNonZeros` of a `CRSMatrix` (`own`) or of a view of it,
called with the columns and entries of a part of a row of the matrix itself, does what it does when called with copies of them, if
row `i` has the capacity for the new columns.  The row may be the same one: then no column is new.  Missing: when the row has to be
given a larger capacity, the columns and entries are read from memory that was freed or shifted, see `C81_insert_moves`. -/
theorem C81_insert_range_partial (c : Cfg) (own : Bool) {colMax : Nat} {m : Crs V} {M : Spec.Matrix V} (h : ReachMatrix c colMax m M)
    {i j : Nat} {f g : Nat → Option V} (hi : M.rows[i]? = some f) (hj : M.rows[j]? = some g) {cap : Nat}
    (hc : m.shape.capacityOfArray c i = .ok cap) {lo n : Nat} (hn : lo + n ≤ (columnsOf M.numCols g).length)
    {args : List (Nat × V)} (ha : args = partOf M.numCols g lo n)
    (hroom : (columnsOf M.numCols f).length + args.countP (fun a => (f a.1).isNone) ≤ cap) :
    m.insertNonZerosOwn c own i j lo n = m.insertNonZeros c own i (args.map (·.1)) (args.map (·.2)) ∧
    ∃ m', m.insertNonZerosOwn c own i j lo n = .ok (m', args.countP fun a => (f a.1).isNone) ∧
      ShowsMatrix c m' { M with rows := M.rows.set i fun k => (f k).or (args.lookup k) } := by
  obtain ⟨A, cap0, B, rfl, hg, hr, hset, hcase⟩ := locateRows (reachMatrix_good h) hi hj
  rw [hg.shape.capacityOfAt rfl] at hc
  have hc : cap0 = cap := by injection hc
  subst hc
  have hlen := partOf_length hn
  have hinc := partOf_increasing M.numCols g lo n
  have hmem := fun x hx => partOf_mem (V := V) (numCols := M.numCols) (f := g) (lo := lo) (n := n) (x := x) hx
  have hcnt := newCount_eq hr args
  rw [← ha] at hlen hinc hmem
  rw [columnsOf_length, ← hcnt] at hroom
  have hn' : lo + n ≤ (rowList M.numCols g).length := by rwa [columnsOf_length] at hn
  have ha' : args = ((rowList M.numCols g).drop lo).take n := by rw [ha, partOf_eq]
  have e : m.insertNonZerosOwn c own A.length j lo n = m.insertNonZeros c own A.length (args.map (·.1)) (args.map (·.2)) := by
    rcases hcase with ⟨rfl, rfl⟩ | ⟨A', cap', B', rfl, hg', hne, hap, hL⟩
    · obtain ⟨k1, k2, k3, k4⟩ := keeps_both hg hn'
      rw [← ha'] at k1 k2
      have := insertNonZerosOwn_eq (own := own) hg (rowList_increasing _ _) hinc (iteratorAt_ok (c := c) hg lo) k1 k2
        (by omega) (by omega) hroom (fun h0 => absurd (by
          rw [hcnt, List.countP_eq_zero]
          intro a ha
          simp [(hmem a ha).2]) h0)
      rwa [hlen] at this
    · obtain ⟨k1, k2, k3, k4⟩ := keeps_both hg' hn'
      rw [← ha'] at k1 k2
      have hfit := hg'.layC.fits ((rowList M.numCols g).map (·.1), cap') (by simp [mapL])
      simp only [List.length_map] at hfit
      have := insertNonZerosOwn_eq (own := own) hg (rowList_increasing _ _) hinc (iteratorAt_ok (c := c) hg' lo) k1 k2
        (by omega) (by omega) hroom (fun _ => by omega)
      rwa [hlen] at this
  obtain ⟨m', ys, cap', q1, q2, q3, q4, q5⟩ := Crs.insertMany_ok (ci := c.ix) (c := c) (own := own) hg (rowList_increasing _ _) args hinc
    ⟨m, cap0, inc_room _ _ _ hroom _, rfl, hg, hroom⟩
  have hk : ∀ a ∈ args, a.1 < M.numCols := fun a ha => (hmem a ha).1
  rw [rowList_insertMany hr hinc hk q4 q5] at q3
  rw [hcnt] at q1
  exact ⟨e, m', e.trans q1, showsMatrix_of_good (hset _ _ _ q3 q2 (insertMany_inRange hr hinc hk))⟩

/-- **C81 (inserting an entry of another row), partial.** The same for `insertNonZero` of the `k`-th entry of another row.
Missing: the case that the row has to be given a larger capacity, see `C81_insert_moves`. -/
theorem C81_insert_partial (c : Cfg) (own : Bool) {colMax : Nat} {m : Crs V} {M : Spec.Matrix V} (h : ReachMatrix c colMax m M)
    {i j : Nat} (hij : i ≠ j) {f g : Nat → Option V} (hi : M.rows[i]? = some f) (hj : M.rows[j]? = some g) {cap : Nat}
    (hc : m.shape.capacityOfArray c i = .ok cap) {k col' : Nat} {e : V} (hk : (columnsOf M.numCols g)[k]? = some col')
    (he : g col' = some e) {col : Nat} (hcol : col < M.numCols)
    (hroom : f col = none → (columnsOf M.numCols f).length < cap) :
    m.insertNonZeroOwn c own i col j k = m.insertNonZero c own i col e ∧
    ∃ m', m.insertNonZeroOwn c own i col j k = .ok (m', (f col).isNone) ∧
      ShowsMatrix c m' { M with rows := M.rows.set i fun l => if l = col then (f l).or (some e) else f l } := by
  obtain ⟨A, cap0, B, rfl, hg, hr, hset, hcase⟩ := locateRows (reachMatrix_good h) hi hj
  rw [hg.shape.capacityOfAt rfl] at hc
  have hc : cap0 = cap := by injection hc
  subst hc
  rw [columnsOf_length] at hroom
  have hroom' : (∀ x ∈ rowList M.numCols f, x.1 ≠ col) → (rowList M.numCols f).length + 1 ≤ cap0 := fun hx => by
    rw [noKey_iff hr col, Option.isNone_iff_eq_none] at hx
    have := hroom hx
    omega
  have hk' : (rowList M.numCols g)[k]? = some (col', e) := by
    rw [columnsOf_eq, List.getElem?_map, Option.map_eq_some_iff] at hk
    obtain ⟨x, hx, rfl⟩ := hk
    have := (mem_rowList.1 (List.mem_of_getElem? hx)).2
    rw [he] at this
    rw [hx, Option.some.inj this]
  obtain ⟨hkl, hke⟩ := List.getElem?_eq_some_iff.1 hk'
  rcases hcase with ⟨rfl, -⟩ | ⟨A', cap', B', rfl, hg', hne, hap, hL⟩
  · exact absurd rfl hij
  obtain ⟨-, k2, -, k4⟩ := keeps_both hg' (lo := k) (n := 1) (by omega)
  rw [List.drop_eq_getElem_cons hkl, List.take_succ_cons, List.take_zero, hke] at k2
  have hfit := hg'.layC.fits ((rowList M.numCols g).map (·.1), cap') (by simp [mapL])
  simp only [List.length_map] at hfit
  have e1 := insertNonZeroOwn_eq (own := own) hg (rowList_increasing _ _) (col := col) (elementAt_ok (c := c) hg' hkl) k2 k4 hroom'
    (by omega)
  obtain ⟨m', ys, cap'', q1, q2, q3, q4, q5⟩ := Crs.insert_ok (ci := c.ix) (c := c) (own := own) hg (rowList_increasing _ _) col e
    (fun n hn => by
      have hle := hg.layC.fits ((rowList M.numCols f).map (·.1), cap0) (by simp [mapL])
      simp only [List.length_map] at hle
      have : (rowList M.numCols f).length + n ≤ cap0 := by
        split at hn
        · rename_i hx; have := hroom' hx; omega
        · omega
      exact ⟨m, cap0, inc_room _ _ _ this _, rfl, hg, this⟩)
  rw [rowList_insert hr hcol q4 q5] at q3
  rw [decide_noKey hr col] at q1
  exact ⟨e1, m', e1.trans q1, showsMatrix_of_good (hset _ _ _ q3 q2 (insert_inRange hr hcol e))⟩

/-- **C81 (inserting an entry of the same row).** If the column is new and there is room, the entries behind the position `pos` of
the new column are shifted before the reference is read.  So the `k`-th entry is inserted if it is in front of that position; the
entry in front of the `k`-th one is inserted if it is behind it; and if it is at that position it is inserted if the entries are of
a trivial type and undefined behaviour otherwise. -/
theorem C81_insert_same_row (c : Cfg) (own : Bool) {colMax : Nat} {m : Crs V} {M : Spec.Matrix V} (h : ReachMatrix c colMax m M)
    {i : Nat} {f : Nat → Option V} (hi : M.rows[i]? = some f) {cap : Nat}
    (hc : m.shape.capacityOfArray c i = .ok cap) {k col pos : Nat} (hk : k < (columnsOf M.numCols f).length) (hcol : col < M.numCols)
    (hnew : f col = none) (hroom : (columnsOf M.numCols f).length < cap)
    (hpos : pos = ((columnsOf M.numCols f).filter fun l => decide (l < col)).length) :
    (∀ k' col' e, (k < pos ∧ k' = k) ∨ (k = pos ∧ c.trivial = true ∧ k' = k) ∨ (pos < k ∧ k' = k - 1) →
      (columnsOf M.numCols f)[k']? = some col' → f col' = some e →
      m.insertNonZeroOwn c own i col i k = m.insertNonZero c own i col e ∧
      ∃ m', m.insertNonZeroOwn c own i col i k = .ok (m', true) ∧
        ShowsMatrix c m' { M with rows := M.rows.set i fun l => if l = col then some e else f l }) ∧
    (k = pos → c.trivial = false → m.insertNonZeroOwn c own i col i k = .error (.ub .rawRead)) := by
  obtain ⟨A, cap0, B, rfl, hg, hr, hset, -⟩ := locateRows (reachMatrix_good h) hi hi
  rw [hg.shape.capacityOfAt rfl] at hc
  have hc : cap0 = cap := by injection hc
  subst hc
  rw [columnsOf_length] at hroom hk
  have hab : ∀ x ∈ rowList M.numCols f, x.1 ≠ col := (noKey_iff hr col).2 (by rw [hnew]; rfl)
  have hpos' : pos = ((rowList M.numCols f).filter fun x => decide (x.1 < col)).length := by
    rw [hpos, columnsOf_eq, List.filter_map, List.length_map]; rfl
  have key := insertNonZeroOwn_self (c := c) (own := own) hg (rowList_increasing _ _) hk (by omega) hab hpos'
  refine ⟨fun k' col' e hkk hk' he => ?_, fun hkp ht => ?_⟩
  · have hent : ((rowList M.numCols f).map (·.2))[k']? = some e := by
      rw [columnsOf_eq, List.getElem?_map, Option.map_eq_some_iff] at hk'
      obtain ⟨x, hx, rfl⟩ := hk'
      have := (mem_rowList.1 (List.mem_of_getElem? hx)).2
      rw [he] at this
      rw [List.getElem?_map, hx, Option.map_some, Option.some.inj this]
    have hsh : shifted c.trivial ((rowList M.numCols f).map (·.2)) pos k = some e := by
      unfold shifted
      rcases hkk with ⟨h1, rfl⟩ | ⟨h1, h2, rfl⟩ | ⟨h1, rfl⟩
      · rw [if_pos h1, hent]
      · rw [if_neg (by omega), if_pos h1, if_pos h2, hent]
      · rw [if_neg (by omega), if_neg (by omega), hent]
    rw [hsh] at key
    simp only at key
    obtain ⟨m', ys, cap'', q1, q2, q3, q4, q5⟩ := Crs.insert_ok (ci := c.ix) (c := c) (own := own) hg (rowList_increasing _ _) col e
      (fun n hn => by
        rw [if_pos hab] at hn
        exact ⟨m, cap0, inc_room _ _ _ (by omega) _, rfl, hg, by omega⟩)
    rw [rowList_insert hr hcol q4 q5] at q3
    rw [decide_noKey hr col, hnew] at q1
    refine ⟨key, m', key.trans q1, ?_⟩
    have := showsMatrix_of_good (c := c) (hset _ _ _ q3 q2 (insert_inRange hr hcol e))
    have hfun : (fun l => if l = col then (f l).or (some e) else f l) = fun l => if l = col then some e else f l := by
      funext l
      split
      · rename_i hl; rw [hl, hnew]; rfl
      · rfl
    rwa [hfun] at this
  · rw [key]
    unfold shifted
    rw [if_neg (by omega), if_pos hkp, ht]
    rfl

/-- Where a row that is full is, before and after it has been given the capacity for one more entry. -/
theorem locateGrown {c : Cfg} {m m1 : Crs V} {M : Spec.Matrix V} {A B : Layout (Nat × V)} {f : Nat → Option V} {cap : Nat}
    (hg : CGood m (A ++ (rowList M.numCols f, cap) :: B)) (hM : m.numCols = M.numCols) (hr : InRange M.numCols f)
    (hfull : (rowList M.numCols f).length = cap) {col : Nat} (hcol : col < M.numCols) (hnew : f col = none)
    (hm1 : m.setRowCapacity c A.length (2 * (cap + 1)) = .ok m1) :
    ∃ cap1, Crs.inc c true A.length (rowList M.numCols f).length cap m 1 = .ok m1 ∧ m1.numCols = m.numCols ∧
      CGood m1 (A ++ (rowList M.numCols f, cap1) :: B) ∧ (rowList M.numCols f).length + 1 ≤ cap1 := by
  have hlt : (rowList M.numCols f).length + 1 ≤ M.numCols := by
    rw [← columnsOf_length]
    have h1 : (columnsOf M.numCols f).length < (List.range M.numCols).length := by
      unfold columnsOf
      rw [List.length_filter_lt_length_iff_exists]
      exact ⟨col, List.mem_range.2 hcol, by simp [hnew]⟩
    rw [List.length_range] at h1
    exact h1
  have hi : Crs.inc c true A.length (rowList M.numCols f).length cap m 1 = .ok m1 := by
    show (if cap < (rowList M.numCols f).length + 1 then
      m.setRowCapacity c A.length (2 * ((rowList M.numCols f).length + 1)) else .ok m) = _
    rw [if_pos (by omega), hfull, hm1]
  rcases Crs.inc_owning (c := c) hg 1 (by omega) with ⟨m2, cap1, q1, q2, q3, q4⟩ | ⟨-, -, q1⟩
  · rw [hi] at q1
    cases q1
    exact ⟨cap1, hi, q2, q3, q4⟩
  · rw [hi] at q1; cases q1

/-- What the matrix shows once the entry has been inserted. -/
theorem insert_grown_shows {c : Cfg} {m m1 : Crs V} {M : Spec.Matrix V} {A B : Layout (Nat × V)} {f : Nat → Option V} {cap cap1 : Nat}
    (hg : CGood m (A ++ (rowList M.numCols f, cap) :: B))
    (hset : ∀ (f' : Nat → Option V) cap' m', CGood m' (A ++ (rowList M.numCols f', cap') :: B) → m'.numCols = m.numCols →
        InRange M.numCols f' → CrsGood m' { M with rows := M.rows.set A.length f' })
    (hr : InRange M.numCols f) {col : Nat} (hcol : col < M.numCols) (hnew : f col = none)
    (g1 : Crs.inc c true A.length (rowList M.numCols f).length cap m 1 = .ok m1) (g2 : m1.numCols = m.numCols)
    (g3 : CGood m1 (A ++ (rowList M.numCols f, cap1) :: B)) (g4 : (rowList M.numCols f).length + 1 ≤ cap1) (e : V)
    {r : R (Crs V × Bool)} (hr1 : r = m.insertNonZero c true A.length col e) :
    ∃ m', r = .ok (m', true) ∧
      ShowsMatrix c m' { M with rows := M.rows.set A.length fun l => if l = col then some e else f l } := by
  have hab : ∀ x ∈ rowList M.numCols f, x.1 ≠ col := (noKey_iff hr col).2 (by rw [hnew]; rfl)
  have hfit := hg.layC.fits ((rowList M.numCols f).map (·.1), cap) (by simp [mapL])
  simp only [List.length_map] at hfit
  obtain ⟨m', ys, cap'', q1, q2, q3, q4, q5⟩ := Crs.insert_ok (ci := c.ix) (c := c) (own := true) hg (rowList_increasing _ _) col e
    (fun n hn => by
      rw [if_pos hab] at hn
      rcases Nat.lt_or_ge n 1 with h0 | h0
      · exact ⟨m, cap, inc_room _ _ _ (by omega) _, rfl, hg, by omega⟩
      · have : n = 1 := by omega
        subst this
        exact ⟨m1, cap1, g1, g2, g3, g4⟩)
  rw [rowList_insert hr hcol q4 q5] at q3
  rw [decide_noKey hr col, hnew] at q1
  refine ⟨m', hr1.trans q1, ?_⟩
  have := showsMatrix_of_good (c := c) (hset _ _ _ q3 q2 (insert_inRange hr hcol e))
  have hfun : (fun l => if l = col then (f l).or (some e) else f l) = fun l => if l = col then some e else f l := by
    funext l
    split
    · rename_i hl; rw [hl, hnew]; rfl
    · rfl
  rwa [hfun] at this

/-- **C81 (inserting into a row that is full).** Let row `i` have no capacity left, let the column be new, and let `m1` be the matrix
once row `i` has been given the larger capacity.  If the entries had to be allocated anew for it, inserting an entry of any row of the
matrix itself reads freed memory.  If not, inserting an entry of a row in front of row `i` does what inserting a copy of it does. -/
theorem C81_insert_full (c : Cfg) {colMax : Nat} {m m1 : Crs V} {M : Spec.Matrix V} (h : ReachMatrix c colMax m M)
    {i j : Nat} {f g : Nat → Option V} (hi : M.rows[i]? = some f) (hj : M.rows[j]? = some g)
    (hc : m.shape.capacityOfArray c i = .ok (columnsOf M.numCols f).length) {k col' : Nat} {e : V}
    (hk : (columnsOf M.numCols g)[k]? = some col') (he : g col' = some e) {col : Nat} (hcol : col < M.numCols) (hnew : f col = none)
    (hm1 : m.setRowCapacity c i (2 * ((columnsOf M.numCols f).length + 1)) = .ok m1) :
    (m.entries.cap < m1.entries.cap → m.insertNonZeroOwn c true i col j k = .error (.ub .dangling)) ∧
    (m1.entries.cap = m.entries.cap → j < i →
      m.insertNonZeroOwn c true i col j k = m.insertNonZero c true i col e ∧
      ∃ m', m.insertNonZeroOwn c true i col j k = .ok (m', true) ∧
        ShowsMatrix c m' { M with rows := M.rows.set i fun l => if l = col then some e else f l }) := by
  have hgood := reachMatrix_good h
  obtain ⟨A, cap0, B, rfl, hg, hr, hset, hcase, hfront⟩ := locateFront hgood hi hj
  rw [hg.shape.capacityOfAt rfl, columnsOf_length] at hc
  have hc : cap0 = (rowList M.numCols f).length := by injection hc
  rw [columnsOf_length, ← hc] at hm1
  have hab : ∀ x ∈ rowList M.numCols f, x.1 ≠ col := (noKey_iff hr col).2 (by rw [hnew]; rfl)
  obtain ⟨cap1, g1, g2, g3, g4⟩ := locateGrown hg hgood.cols hr hc.symm hcol hnew hm1
  obtain ⟨-, hple⟩ := grown_position (c := c) (col := col) hg (rowList_increasing _ _) rfl
  have hk' : (rowList M.numCols g)[k]? = some (col', e) := by
    rw [columnsOf_eq, List.getElem?_map, Option.map_eq_some_iff] at hk
    obtain ⟨x, hx, rfl⟩ := hk
    have := (mem_rowList.1 (List.mem_of_getElem? hx)).2
    rw [he] at this
    rw [hx, Option.some.inj this]
  obtain ⟨hkl, hke⟩ := List.getElem?_eq_some_iff.1 hk'
  refine ⟨fun hcap => ?_, fun hcap hji => ?_⟩
  · obtain ⟨q, hit⟩ : ∃ q, m.elementAt c j k = .ok q := by
      rcases hcase with ⟨rfl, rfl⟩ | ⟨A', cap', B', rfl, hg', -⟩
      · exact ⟨_, elementAt_ok hg hkl⟩
      · exact ⟨_, elementAt_ok hg' hkl⟩
    exact insertNonZeroOwn_reads hg (rowList_increasing _ _) hit hab rfl g1 g2 g3 g4 e (.error (.ub .dangling))
      (fun s b hb => grown_dangling hple hcap s _ _ b hb)
  · obtain ⟨A', cap', t, rfl, rfl⟩ := hfront hji
    rw [List.append_assoc, List.cons_append] at g3
    obtain ⟨-, k2, -, k4⟩ := keeps_both g3 (lo := k) (n := 1) (by omega)
    rw [List.drop_eq_getElem_cons hkl, List.take_succ_cons, List.take_zero, hke] at k2
    have hfit := g3.layC.fits ((rowList M.numCols g).map (·.1), cap') (by simp [mapL])
    simp only [List.length_map] at hfit
    have hg' := hg
    rw [List.append_assoc, List.cons_append] at hg'
    have g3' := g3
    rw [← List.cons_append, ← List.append_assoc] at g3'
    have e1 := insertNonZeroOwn_reads hg (rowList_increasing _ _) (elementAt_ok (c := c) hg' hkl) hab rfl g1 g2 g3' g4 e (.ok e)
      (fun s b hb => grown_front hple hcap k2 (by omega) s _
        (by simp only [total_append, total_cons]; omega) b hb)
    simp only at e1
    exact ⟨e1, insert_grown_shows hg hset hr hcol hnew g1 g2 g3' g4 e e1⟩

/-- **C81 (inserting an entry of a full row into that row).** As `C81_insert_same_row`, if the row has no capacity left and the entries
did not have to be allocated anew to give it more. -/
theorem C81_insert_full_same_row (c : Cfg) {colMax : Nat} {m m1 : Crs V} {M : Spec.Matrix V} (h : ReachMatrix c colMax m M)
    {i : Nat} {f : Nat → Option V} (hi : M.rows[i]? = some f)
    (hc : m.shape.capacityOfArray c i = .ok (columnsOf M.numCols f).length) {k col pos : Nat}
    (hk : k < (columnsOf M.numCols f).length) (hcol : col < M.numCols) (hnew : f col = none)
    (hm1 : m.setRowCapacity c i (2 * ((columnsOf M.numCols f).length + 1)) = .ok m1) (hcap : m1.entries.cap = m.entries.cap)
    (hpos : pos = ((columnsOf M.numCols f).filter fun l => decide (l < col)).length) :
    (∀ k' col' e, (k < pos ∧ k' = k) ∨ (k = pos ∧ c.trivial = true ∧ k' = k) ∨ (pos < k ∧ k' = k - 1) →
      (columnsOf M.numCols f)[k']? = some col' → f col' = some e →
      m.insertNonZeroOwn c true i col i k = m.insertNonZero c true i col e ∧
      ∃ m', m.insertNonZeroOwn c true i col i k = .ok (m', true) ∧
        ShowsMatrix c m' { M with rows := M.rows.set i fun l => if l = col then some e else f l }) ∧
    (k = pos → c.trivial = false → m.insertNonZeroOwn c true i col i k = .error (.ub .rawRead)) := by
  have hgood := reachMatrix_good h
  obtain ⟨A, cap0, B, rfl, hg, hr, hset, -⟩ := locateRows hgood hi hi
  rw [hg.shape.capacityOfAt rfl, columnsOf_length] at hc
  have hc : cap0 = (rowList M.numCols f).length := by injection hc
  rw [columnsOf_length, ← hc] at hm1
  rw [columnsOf_length] at hk
  have hab : ∀ x ∈ rowList M.numCols f, x.1 ≠ col := (noKey_iff hr col).2 (by rw [hnew]; rfl)
  have hpos' : pos = ((rowList M.numCols f).filter fun x => decide (x.1 < col)).length := by
    rw [hpos, columnsOf_eq, List.filter_map, List.length_map]; rfl
  obtain ⟨cap1, g1, g2, g3, g4⟩ := locateGrown hg hgood.cols hr hc.symm hcol hnew hm1
  obtain ⟨-, hple⟩ := grown_position (c := c) hg (rowList_increasing _ _) hpos'
  have hst : pos < (rowList M.numCols f).length → m.entries.cell (total A + pos) = m1.entries.cell (total A + pos) := fun hp => by
    have k1 := (keeps_both hg (lo := 0) (n := (rowList M.numCols f).length) (by omega)).2.1
    have k2 := (keeps_both g3 (lo := 0) (n := (rowList M.numCols f).length) (by omega)).2.1
    rw [List.drop_zero, List.take_length] at k1 k2
    have e1 := k1.2 pos (by simpa using hp)
    have e2 := k2.2 pos (by simpa using hp)
    rw [Nat.add_zero] at e1 e2
    rw [e1, e2]
  obtain ⟨x0, hx0⟩ : ∃ x, x = (rowList M.numCols f)[k] := ⟨_, rfl⟩
  have key := insertNonZeroOwn_reads (c := c) hg (rowList_increasing _ _) (elementAt_ok (c := c) hg hk) hab hpos' g1 g2 g3 g4 x0.2
    (match shifted c.trivial ((rowList M.numCols f).map (·.2)) pos k with
      | some e => .ok e
      | none => .error (.ub .rawRead))
    (fun s b hb => grown_self g3 hcap hk g4 hple s b hb hst)
  refine ⟨fun k' col' e hkk hk' he => ?_, fun hkp ht => ?_⟩
  · have hent : ((rowList M.numCols f).map (·.2))[k']? = some e := by
      rw [columnsOf_eq, List.getElem?_map, Option.map_eq_some_iff] at hk'
      obtain ⟨x, hx, rfl⟩ := hk'
      have := (mem_rowList.1 (List.mem_of_getElem? hx)).2
      rw [he] at this
      rw [List.getElem?_map, hx, Option.map_some, Option.some.inj this]
    have hsh : shifted c.trivial ((rowList M.numCols f).map (·.2)) pos k = some e := by
      unfold shifted
      rcases hkk with ⟨h1, rfl⟩ | ⟨h1, h2, rfl⟩ | ⟨h1, rfl⟩
      · rw [if_pos h1, hent]
      · rw [if_neg (by omega), if_pos h1, if_pos h2, hent]
      · rw [if_neg (by omega), if_neg (by omega), hent]
    rw [hsh] at key
    simp only at key
    exact ⟨key, insert_grown_shows hg hset hr hcol hnew g1 g2 g3 g4 e key⟩
  · rw [key]
    unfold shifted
    rw [if_neg (by omega), if_pos hkp, ht]
    rfl

/-- **C81 (inserting a range into a row that is too small).** Let row `i` have too little capacity for the new columns of a part of row
`j`, and let `m1` be the matrix once it has been given the larger capacity.  If the columns had to be allocated anew for it, the call reads
freed memory.  If neither they nor the entries had to, and row `j` is in front of row `i`, the call does what it does with copies. -/
theorem C81_insert_range_full (c : Cfg) {colMax : Nat} {m m1 : Crs V} {M : Spec.Matrix V} (h : ReachMatrix c colMax m M)
    {i j : Nat} {f g : Nat → Option V} (hi : M.rows[i]? = some f) (hj : M.rows[j]? = some g) {cap : Nat}
    (hc : m.shape.capacityOfArray c i = .ok cap) {lo n : Nat} (hn : lo + n ≤ (columnsOf M.numCols g).length)
    {args : List (Nat × V)} (ha : args = partOf M.numCols g lo n) {new : Nat} (hnew : new = args.countP fun a => (f a.1).isNone)
    (hfull : cap < (columnsOf M.numCols f).length + new)
    (hm1 : m.setRowCapacity c i (2 * ((columnsOf M.numCols f).length + new)) = .ok m1) :
    (m.columns.cap < m1.columns.cap → m.insertNonZerosOwn c true i j lo n = .error (.ub .dangling)) ∧
    (m1.columns.cap = m.columns.cap → m1.entries.cap = m.entries.cap → j < i →
      m.insertNonZerosOwn c true i j lo n = m.insertNonZeros c true i (args.map (·.1)) (args.map (·.2)) ∧
      ∃ m', m.insertNonZerosOwn c true i j lo n = .ok (m', new) ∧
        ShowsMatrix c m' { M with rows := M.rows.set i fun k => (f k).or (args.lookup k) }) := by
  have hgood := reachMatrix_good h
  obtain ⟨A, cap0, B, rfl, hg, hr, hset, hcase, hfront⟩ := locateFront hgood hi hj
  rw [hg.shape.capacityOfAt rfl] at hc
  have hc : cap0 = cap := by injection hc
  subst hc
  have hlen := partOf_length hn
  have hinc := partOf_increasing M.numCols g lo n
  have hmem := fun x hx => partOf_mem (V := V) (numCols := M.numCols) (f := g) (lo := lo) (n := n) (x := x) hx
  have hcnt := newCount_eq hr args
  rw [← ha] at hlen hinc hmem
  rw [columnsOf_length] at hfull hm1
  rw [← hcnt] at hnew
  subst hnew
  have hn' : lo + n ≤ (rowList M.numCols g).length := by rwa [columnsOf_length] at hn
  have ha' : args = ((rowList M.numCols g).drop lo).take n := by rw [ha, partOf_eq]
  have hk : ∀ a ∈ args, a.1 < M.numCols := fun a ha => (hmem a ha).1
  have hcols : m.numCols = M.numCols := hgood.cols
  have hroom : (rowList M.numCols f).length + newCount Prod.fst (rowList M.numCols f) args ≤ m.numCols := by
    rw [hcols]
    unfold newCount
    have := CrsGood.keys_length (n := M.numCols) (l := (rowList M.numCols f ++
      args.filter (fun v => decide (∀ x ∈ rowList M.numCols f, x.1 ≠ v.1))).map (·.1)) (by
        rw [List.map_append, List.nodup_append]
        refine ⟨CrsGood.keys_nodup (rowList_increasing _ _), (CrsGood.keys_nodup hinc).sublist (List.filter_sublist.map _), ?_⟩
        intro a ha b hb e
        subst e
        obtain ⟨x, hx, e1⟩ := List.mem_map.1 ha
        obtain ⟨y, hy, e2⟩ := List.mem_map.1 hb
        simp only [List.mem_filter, decide_eq_true_eq] at hy
        exact hy.2 x hx (e1.trans e2.symm)) (by
        intro j hj
        obtain ⟨x, hx, rfl⟩ := List.mem_map.1 hj
        rcases List.mem_append.1 hx with hx | hx
        · exact (mem_rowList.1 hx).1
        · exact hk x (List.mem_of_mem_filter hx))
    simpa using this
  have hi1 : Crs.inc c true A.length (rowList M.numCols f).length cap0 m (newCount Prod.fst (rowList M.numCols f) args) = .ok m1 := by
    show (if cap0 < (rowList M.numCols f).length + newCount Prod.fst (rowList M.numCols f) args then
      m.setRowCapacity c A.length (2 * ((rowList M.numCols f).length + newCount Prod.fst (rowList M.numCols f) args)) else .ok m) = _
    rw [if_pos hfull, hm1]
  obtain ⟨cap1, g2, g3, g4⟩ : ∃ cap1, m1.numCols = m.numCols ∧ CGood m1 (A ++ (rowList M.numCols f, cap1) :: B) ∧
      (rowList M.numCols f).length + newCount Prod.fst (rowList M.numCols f) args ≤ cap1 := by
    rcases Crs.inc_owning (c := c) hg _ hroom with ⟨m2, cap1, q1, q2, q3, q4⟩ | ⟨-, -, q1⟩
    · rw [hi1] at q1
      cases q1
      exact ⟨cap1, q2, q3, q4⟩
    · rw [hi1] at q1; cases q1
  refine ⟨fun hcap => ?_, fun hcap hcapE hji => ?_⟩
  · have hfit := hg.layC.fits ((rowList M.numCols f).map (·.1), cap0) (by simp [mapL])
    simp only [List.length_map] at hfit
    rw [← hlen]
    rcases hcase with ⟨rfl, rfl⟩ | ⟨A', cap', B', rfl, hg', -⟩
    · obtain ⟨k1, -, k3, -⟩ := keeps_both hg hn'
      rw [← ha'] at k1
      exact insertNonZerosOwn_gone hg (rowList_increasing _ _) hinc (iteratorAt_ok (c := c) hg lo) k1 (by omega) hi1 g2 g3 g4 (by omega) hcap
    · obtain ⟨k1, -, k3, -⟩ := keeps_both hg' hn'
      rw [← ha'] at k1
      exact insertNonZerosOwn_gone hg (rowList_increasing _ _) hinc (iteratorAt_ok (c := c) hg' lo) k1 (by omega) hi1 g2 g3 g4 (by omega) hcap
  · obtain ⟨A', cap', t, rfl, rfl⟩ := hfront hji
    have hg' := hg
    have g3' := g3
    rw [List.append_assoc, List.cons_append] at hg' g3'
    obtain ⟨k1, k2, k3, k4⟩ := keeps_both hg' hn'
    obtain ⟨l1, l2, -, -⟩ := keeps_both g3' hn'
    rw [← ha'] at k1 k2 l1 l2
    rw [hcap] at l1
    rw [hcapE] at l2
    have hfit := hg'.layC.fits ((rowList M.numCols g).map (·.1), cap') (by simp [mapL])
    simp only [List.length_map] at hfit
    have e := insertNonZerosOwn_grown (own := true) hg (rowList_increasing _ _) hinc (iteratorAt_ok (c := c) hg' lo) k1 k2
      (by omega) (by omega) hi1 g3 l1 l2 g4 (.inl (by simp only [total_append, total_cons]; omega))
    rw [hlen] at e
    obtain ⟨m', ys, cap', q1, q2, q3, q4, q5⟩ := Crs.insertMany_ok (ci := c.ix) (c := c) (own := true) hg (rowList_increasing _ _) args hinc
      ⟨m1, cap1, hi1, g2, g3, g4⟩
    rw [rowList_insertMany hr hinc hk q4 q5] at q3
    exact ⟨e, m', e.trans q1, showsMatrix_of_good (hset _ _ _ q3 q2 (insertMany_inRange hr hinc hk))⟩

/-- **C81 (removing).** After any legal history, `removeNonZeros` called with the columns of a part of a row of the matrix itself,
the same or another one, does what it does when called with copies of them. -/
theorem C81_remove (c : Cfg) {colMax : Nat} {m : Crs V} {M : Spec.Matrix V} (h : ReachMatrix c colMax m M)
    {i j : Nat} {f g : Nat → Option V} (hi : M.rows[i]? = some f) (hj : M.rows[j]? = some g)
    {lo n : Nat} (hn : lo + n ≤ (columnsOf M.numCols g).length) {cols : List Nat}
    (ha : cols = ((columnsOf M.numCols g).drop lo).take n) :
    m.removeNonZerosOwn c i j lo n = m.removeNonZeros c i cols ∧
    ∃ m', m.removeNonZerosOwn c i j lo n = .ok (m', cols.countP fun k => (f k).isSome) ∧
      ShowsMatrix c m' { M with rows := M.rows.set i fun k => if k ∈ cols then none else f k } := by
  obtain ⟨A, cap0, B, rfl, hg, hr, hset, hcase⟩ := locateRows (reachMatrix_good h) hi hj
  have hn' : lo + n ≤ (rowList M.numCols g).length := by rwa [columnsOf_length] at hn
  have hlen : cols.length = n := by rw [ha]; simp; omega
  have hcols : cols = (((rowList M.numCols g).drop lo).take n).map (·.1) := by
    rw [ha, columnsOf_eq, List.map_take, List.map_drop]
  have hinc : cols.Pairwise (· < ·) := by
    rw [ha, columnsOf_eq]
    exact ((List.pairwise_map.2 (rowList_increasing M.numCols g)).sublist (List.drop_sublist _ _)).sublist (List.take_sublist _ _)
  have e : m.removeNonZerosOwn c A.length j lo n = m.removeNonZeros c A.length cols := by
    rcases hcase with ⟨rfl, rfl⟩ | ⟨A', cap', B', rfl, hg', hne, hap, hL⟩
    · have := removeNonZerosOwn_self (c := c) hg (rowList_increasing _ _) hn'
      rwa [← List.map_drop, ← List.map_take, ← hcols] at this
    · obtain ⟨k1, -, k3, -⟩ := keeps_both hg' hn'
      rw [← hcols] at k1
      have hfit := hg'.layC.fits ((rowList M.numCols g).map (·.1), cap') (by simp [mapL])
      simp only [List.length_map] at hfit
      have := removeNonZerosOwn_eq hg (rowList_increasing _ _) hinc (iteratorAt_ok (c := c) hg' lo) k1 (by omega) (by omega)
      rwa [hlen] at this
  obtain ⟨m', cap', q1, q2, q3⟩ := Crs.removeMany_ok (ci := c.ix) (c := c) hg (rowList_increasing _ _) cols hinc
  rw [rowList_removeMany hr] at q3
  rw [removedCount_eq hr hinc] at q1
  exact ⟨e, m', e.trans q1, showsMatrix_of_good (hset _ _ _ q3 q2 (removeMany_inRange hr cols))⟩

/-- **C81 (adding).** After any legal history, each variant of `addToRow` called with the columns and entries of a part of a row of
the matrix itself, the same row or another one, does what it does when called with copies of them, if row `i` has those columns: each
of those entries of row `i` is increased by the entry row `j` had before the call. -/
theorem C81_add (c : Cfg) {colMax : Nat} {m : Crs V} {M : Spec.Matrix V} (h : ReachMatrix c colMax m M)
    {i j : Nat} {f g : Nat → Option V} (hi : M.rows[i]? = some f) (hj : M.rows[j]? = some g)
    {lo n : Nat} (hn : lo + n ≤ (columnsOf M.numCols g).length) {args : List (Nat × V)} (ha : args = partOf M.numCols g lo n)
    (hp : ∀ a ∈ args, (f a.1).isSome) :
    (m.addToRowOwn c i j lo n = m.addToRow c i args ∧ m.addToRowLinearSearchOwn c i j lo n = m.addToRowLinearSearch c i args ∧
      m.addToRowBinarySearchOwn c i j lo n = m.addToRowBinarySearch c i args ∧
      m.addToRowBinarySearchUnsortedOwn c i j lo n = m.addToRowBinarySearchUnsorted c i args) ∧
    ∀ r, r = m.addToRowOwn c i j lo n ∨ r = m.addToRowLinearSearchOwn c i j lo n ∨ r = m.addToRowBinarySearchOwn c i j lo n ∨
        r = m.addToRowBinarySearchUnsortedOwn c i j lo n →
      ∃ m', r = .ok m' ∧ ShowsMatrix c m'
        { M with
          rows := M.rows.set i fun k =>
            if k ∈ args.map (·.1) then (f k).bind fun x => (g k).map fun y => x + y else f k } := by
  obtain ⟨hlt, hf⟩ := List.getElem?_eq_some_iff.1 hi
  have hinc := partOf_increasing M.numCols g lo n
  have hlen := partOf_length hn
  have hmem := fun x hx => partOf_mem (V := V) (numCols := M.numCols) (f := g) (lo := lo) (n := n) (x := x) hx
  rw [← ha] at hinc hlen hmem
  obtain ⟨hu, hso⟩ := C30_addToRow c h i hlt args (by rw [hf]; exact hp)
  obtain ⟨hb, hl, hadd⟩ := hso (List.pairwise_map.2 hinc)
  rw [hf] at hu hb hl hadd
  have hfun : addAll f args = fun k => if k ∈ args.map (fun x : Nat × V => x.1) then (f k).bind fun x => (g k).map fun y => x + y
      else f k := by
    funext k
    unfold addAll
    split
    · rename_i hk
      obtain ⟨a, ha1, rfl⟩ := List.mem_map.1 hk
      have hfil : args.filter (fun b => b.1 == a.1) = [a] := by
        clear hp hlen hu hb hl hadd hmem ha hso hk
        induction args with
        | nil => cases ha1
        | cons b l ih =>
          have hb := List.pairwise_cons.1 hinc
          rcases List.mem_cons.1 ha1 with rfl | ha1
          · rw [List.filter_cons_of_pos (by simp), List.filter_eq_nil_iff.2 fun x hx => by
              have := hb.1 x hx; simp only [beq_iff_eq]; omega]
          · have := hb.1 a ha1
            rw [List.filter_cons_of_neg (by simp only [beq_iff_eq]; omega), ih hb.2 ha1]
      rw [hfil, (hmem a ha1).2]
      cases f a.1 <;> rfl
    · rename_i hk
      have hfil : args.filter (fun b => b.1 == k) = [] := List.filter_eq_nil_iff.2 fun x hx => by
        simp only [beq_iff_eq]; rintro rfl; exact hk (List.mem_map_of_mem hx)
      rw [hfil]
      cases f k <;> rfl
  rw [hfun] at hu hb hl hadd
  have key : m.addToRowBinarySearchOwn c i j lo n = m.addToRowBinarySearch c i args ∧
      m.addToRowLinearSearchOwn c i j lo n = m.addToRowLinearSearch c i args ∧
      m.addToRowBinarySearchUnsortedOwn c i j lo n = m.addToRowBinarySearchUnsorted c i args ∧
      m.addToRowOwn c i j lo n = m.addToRow c i args := by
    obtain ⟨A, cap0, B, rfl, hg, hr, -, hcase⟩ := locateRows (reachMatrix_good h) hi hj
    have hp' : ∀ a ∈ args, ∃ x ∈ rowList M.numCols f, x.1 = a.1 := fun a ha => (key_iff hr a.1).2 (hp a ha)
    have ha' : args = ((rowList M.numCols g).drop lo).take n := by rw [ha, partOf_eq]
    rcases hcase with ⟨rfl, rfl⟩ | ⟨A', cap', B', rfl, hg', hne, hap, hL⟩
    · have := addToRowOwn_eq hg (rowList_increasing _ _) args hinc hp' (iteratorAt_ok (c := c) hg lo) (by rw [ha']; exact readsArgs_self)
      rwa [hlen] at this
    · have := addToRowOwn_eq hg (rowList_increasing _ _) args hinc hp' (iteratorAt_ok (c := c) hg' lo)
        (by rw [ha']; exact readsArgs_other hL)
      rwa [hlen] at this
  obtain ⟨k1, k2, k3, k4⟩ := key
  refine ⟨⟨k4, k2, k1, k3⟩, ?_⟩
  rintro r (rfl | rfl | rfl | rfl)
  · rw [k4]; exact hadd
  · rw [k2]; exact hl
  · rw [k1]; exact hb
  · rw [k3]; exact hu

/-- A matrix with the rows `{ 5: 50 }`, with no room, and `{ 1: 10, 2: 20, 3: 30, 7: 70 }`, in an allocation of `n` entries. -/
def fiftyAndOthers (c : Cfg) (n : Nat) : R (Crs Nat) :=
  Crs.mk' c 100 2 100 0 >>= fun m => Crs.run c 100 m [.reserveNonZerosTotal n, .setRowCapacity 0 1, .setRowCapacity 1 4,
    .insert 0 5 50, .insertMany 1 [(1, 10), (2, 20), (3, 30), (7, 70)]] >>= fun r => .ok r.1

/-- The first `n` columns and entries of a row. -/
def firstOfRow (c : Cfg) (m : Crs Nat) (row n : Nat) : R (List (Nat × Nat)) :=
  (List.range n).mapM fun k => do .ok (← m.getColumn c row k, ← m.getEntry c row k)

/-- **C81 (disturbed).** When row 0 has to be given a larger capacity, `matrix.insertNonZero( 0, 7, matrix.getEntries( 1 )[ 3 ] )`
inserts the entry 10 of column 1 instead of the entry 70 of column 7 if enough memory is allocated, and reads freed memory if not.
The range of all of row 1 leaves column 5 four times in row 0 in the first case, and returns that 4 columns were inserted, and reads
freed memory in the second.  Not even a debug build notices. -/
theorem C81_insert_moves :
    (fiftyAndOthers { trivial := true, boundsCheck := true, debug := true } 40 >>= fun m =>
      m.insertNonZeroOwn { trivial := true, boundsCheck := true, debug := true } true 0 7 1 3 >>= fun r =>
      firstOfRow { trivial := true, boundsCheck := true, debug := true } r.1 0 2) = .ok [(5, 50), (7, 10)] ∧
    (fiftyAndOthers { trivial := true, boundsCheck := true, debug := true } 5 >>= fun m =>
      m.insertNonZeroOwn { trivial := true, boundsCheck := true, debug := true } true 0 7 1 3 >>= fun r =>
      firstOfRow { trivial := true, boundsCheck := true, debug := true } r.1 0 2) = .error (.ub .dangling) ∧
    (fiftyAndOthers { trivial := true, boundsCheck := true, debug := true } 40 >>= fun m =>
      m.insertNonZerosOwn { trivial := true, boundsCheck := true, debug := true } true 0 1 0 4 >>= fun r =>
      firstOfRow { trivial := true, boundsCheck := true, debug := true } r.1 0 5 >>= fun l => .ok (l, r.2)) =
      .ok ([(5, 50), (5, 50), (5, 50), (5, 50), (7, 70)], 4) ∧
    (fiftyAndOthers { trivial := true, boundsCheck := true, debug := true } 5 >>= fun m =>
      m.insertNonZerosOwn { trivial := true, boundsCheck := true, debug := true } true 0 1 0 4 >>= fun r =>
      firstOfRow { trivial := true, boundsCheck := true, debug := true } r.1 0 5) = .error (.ub .dangling) := by
  decide +kernel

/-- Adding a row to itself doubles its entries, as `C81_add` says; so does a part of it. -/
example :
    (fiftyAndOthers { trivial := true, boundsCheck := true, debug := true } 5 >>= fun m =>
      m.addToRowOwn { trivial := true, boundsCheck := true, debug := true } 1 1 0 4 >>= fun m =>
      m.addToRowBinarySearchUnsortedOwn { trivial := true, boundsCheck := true, debug := true } 1 1 1 2 >>= fun m =>
      firstOfRow { trivial := true, boundsCheck := true, debug := true } m 1 4) = .ok [(1, 20), (2, 80), (3, 120), (7, 140)] := by
  decide +kernel

/-- The matrix of `C81_insert_moves` with room for 8 entries in each row is reached by a legal history; its rows, and their
capacities. -/
theorem roomy_reached : ∃ (m : Crs Nat) (M : Spec.Matrix Nat),
    ReachMatrix { trivial := true, boundsCheck := true, debug := true } 100 m M ∧ M.numCols = 100 ∧
    M.rows.map (columnsOf 100) = [[5], [1, 2, 3, 7]] ∧ M.rows.map (fun f => ((f 5, f 3), f 7)) =
      [((some 50, none), none), ((none, some 30), some 70)] ∧
    m.shape.capacityOfArray { trivial := true, boundsCheck := true, debug := true } 0 = .ok 8 ∧
    m.shape.capacityOfArray { trivial := true, boundsCheck := true, debug := true } 1 = .ok 8 := by
  have h : (crsRun 100 { numCols := 100, rows := List.replicate 2 (fun _ => (none : Option Nat)) }
      [.setRowCapacity 0 8, .setRowCapacity 1 8, .insert 0 5 50, .insertMany 1 [(1, 10), (2, 20), (3, 30), (7, 70)]]).map
      (fun r => ((r.1.numCols, r.1.rows.map (columnsOf 100)), r.1.rows.map (fun f => ((f 5, f 3), f 7)))) =
      some ((100, [[5], [1, 2, 3, 7]]), [((some 50, none), none), ((none, some 30), some 70)]) := by decide +kernel
  obtain ⟨⟨M, outs⟩, hs, hM⟩ := Option.map_eq_some_iff.mp h
  obtain ⟨m0, m, h1, h2, -⟩ := C29_matrix { trivial := true, boundsCheck := true, debug := true } rfl 100 2 100 0 (by omega) _ M outs hs
  have hrun : ((Crs.mk' { trivial := true, boundsCheck := true, debug := true } 100 2 100 0 >>= fun (m : Crs Nat) =>
      Crs.run { trivial := true, boundsCheck := true, debug := true } 100 m
      [.setRowCapacity 0 8, .setRowCapacity 1 8, .insert 0 5 50, .insertMany 1 [(1, 10), (2, 20), (3, 30), (7, 70)]]) >>= fun r => do
      .ok (← r.1.shape.capacityOfArray { trivial := true, boundsCheck := true, debug := true } 0,
        ← r.1.shape.capacityOfArray { trivial := true, boundsCheck := true, debug := true } 1)) = .ok (8, 8) := by decide +kernel
  rw [h1, bind_ok, h2, bind_ok] at hrun
  obtain ⟨x, e1, hrun⟩ := LvArray.bind_eq_ok.1 hrun
  obtain ⟨y, e2, hrun⟩ := LvArray.bind_eq_ok.1 hrun
  cases hrun
  exact ⟨m, M, ⟨2, 100, 0, _, outs, m0, by omega, h1, h2, hs⟩, congrArg (·.1.1) hM, congrArg (·.1.2) hM, congrArg (·.2) hM, e1, e2⟩

/-- The hypotheses of the theorems above are met by it: the union of row 1 into row 0, the part of row 1 that row 0 receives, and an
insertion of the entry of column 3 of row 1 into row 0, and of column 4 into row 1. -/
example : ∃ (m : Crs Nat) (M : Spec.Matrix Nat) (f g : Nat → Option Nat),
    ReachMatrix { trivial := true, boundsCheck := true, debug := true } 100 m M ∧ M.rows[0]? = some f ∧ M.rows[1]? = some g ∧
    m.shape.capacityOfArray { trivial := true, boundsCheck := true, debug := true } 0 = .ok 8 ∧
    m.shape.capacityOfArray { trivial := true, boundsCheck := true, debug := true } 1 = .ok 8 ∧
    0 + 4 ≤ (columnsOf M.numCols g).length ∧ (columnsOf M.numCols f).length + (partOf M.numCols g 0 4).length ≤ 8 ∧
    ((columnsOf M.numCols g)[2]? = some 3 ∧ g 3 = some 30) ∧ f 7 = none ∧ 4 < M.numCols ∧ g 4 = none ∧
    3 = ((columnsOf M.numCols g).filter fun l => decide (l < 4)).length := by
  obtain ⟨m, M, hr, hn, h1, h2, c0, c1⟩ := roomy_reached
  match hM : M.rows with
  | [] => rw [hM] at h1; cases h1
  | [_] => rw [hM] at h1; simp at h1
  | _ :: _ :: _ :: _ => rw [hM] at h1; simp at h1
  | [f, g] =>
    rw [hM] at h1 h2
    simp only [List.map_cons, List.map_nil, List.cons.injEq, and_true, Prod.mk.injEq] at h1 h2
    obtain ⟨e1, e2⟩ := h1
    obtain ⟨⟨-, e3⟩, ⟨-, e4⟩, -⟩ := h2
    have h4 : g 4 = none := by
      cases hg : g 4 with
      | none => rfl
      | some v =>
        have : 4 ∈ columnsOf 100 g := by unfold columnsOf; simp [hg]
        rw [e2] at this; simp at this
    refine ⟨m, M, f, g, hr, by rw [hM]; rfl, by rw [hM]; rfl, c0, c1, ?_, ?_, ?_, e3, ?_, h4, ?_⟩
    · rw [hn, e2]; decide
    · have := partOf_length (V := Nat) (numCols := 100) (f := g) (lo := 0) (n := 4) (by rw [e2]; decide)
      rw [hn, e1, this]; decide
    · rw [hn, e2]; exact ⟨rfl, e4⟩
    · rw [hn]; decide
    · rw [hn, e2]; decide

/-- The hypotheses of `C81_insert_full` and `C81_insert_full_same_row` are met by a matrix for which enough memory is allocated: row 1 is
full, column 7 is new, and an entry of row 0 or of row 1 is inserted. -/
theorem full_reached : ∃ (m m1 : Crs Nat) (M : Spec.Matrix Nat) (f g : Nat → Option Nat),
    ReachMatrix { trivial := true, boundsCheck := true, debug := true } 100 m M ∧ M.rows[1]? = some f ∧ M.rows[0]? = some g ∧
    m.shape.capacityOfArray { trivial := true, boundsCheck := true, debug := true } 1 = .ok (columnsOf M.numCols f).length ∧
    (columnsOf M.numCols f)[0]? = some 5 ∧ f 5 = some 50 ∧ (columnsOf M.numCols g)[1]? = some 2 ∧ g 2 = some 20 ∧ 7 < M.numCols ∧
    f 7 = none ∧ 1 = ((columnsOf M.numCols f).filter fun l => decide (l < 7)).length ∧
    m.setRowCapacity { trivial := true, boundsCheck := true, debug := true } 1 (2 * ((columnsOf M.numCols f).length + 1)) = .ok m1 ∧ m1.entries.cap = m.entries.cap := by
  have h : (crsRun 100 { numCols := 100, rows := List.replicate 2 (fun _ => (none : Option Nat)) }
      [.setRowCapacity 0 8, .setRowCapacity 0 2, .setRowCapacity 1 1, .insertMany 0 [(1, 10), (2, 20)], .insert 1 5 50]).map
      (fun r => ((r.1.numCols, r.1.rows.map (columnsOf 100)), r.1.rows.map (fun f => ((f 5, f 2), f 7)))) =
      some ((100, [[1, 2], [5]]), [((none, some 20), none), ((some 50, none), none)]) := by decide +kernel
  obtain ⟨⟨M, outs⟩, hs, hM⟩ := Option.map_eq_some_iff.mp h
  obtain ⟨m0, m, h1, h2, -⟩ := C29_matrix { trivial := true, boundsCheck := true, debug := true } rfl 100 2 100 0 (by omega) _ M outs hs
  have hrun : ((Crs.mk' { trivial := true, boundsCheck := true, debug := true } 100 2 100 0 >>= fun (m : Crs Nat) =>
      Crs.run { trivial := true, boundsCheck := true, debug := true } 100 m
      [.setRowCapacity 0 8, .setRowCapacity 0 2, .setRowCapacity 1 1, .insertMany 0 [(1, 10), (2, 20)], .insert 1 5 50]) >>= fun r => do
      let m1 ← r.1.setRowCapacity { trivial := true, boundsCheck := true, debug := true } 1 4
      .ok (← r.1.shape.capacityOfArray { trivial := true, boundsCheck := true, debug := true } 1, decide (m1.entries.cap = r.1.entries.cap))) = .ok (1, true) := by decide +kernel
  rw [h1, bind_ok, h2, bind_ok] at hrun
  obtain ⟨m1, e1, hrun⟩ := LvArray.bind_eq_ok.1 hrun
  obtain ⟨x, e2, hrun⟩ := LvArray.bind_eq_ok.1 hrun
  injection hrun with hrun
  injection hrun with hx hd
  subst hx
  have hd := of_decide_eq_true hd
  have hR : ReachMatrix { trivial := true, boundsCheck := true, debug := true } 100 m M := ⟨2, 100, 0, _, outs, m0, by omega, h1, h2, hs⟩
  have hn : M.numCols = 100 := congrArg (·.1.1) hM
  have r1 : M.rows.map (columnsOf 100) = [[1, 2], [5]] := congrArg (·.1.2) hM
  have r2 : M.rows.map (fun f => ((f 5, f 2), f 7)) = [((none, some 20), none), ((some 50, none), none)] := congrArg (·.2) hM
  match hMr : M.rows with
  | [] => rw [hMr] at r1; cases r1
  | [_] => rw [hMr] at r1; simp at r1
  | _ :: _ :: _ :: _ => rw [hMr] at r1; simp at r1
  | [g, f] =>
    rw [hMr] at r1 r2
    simp only [List.map_cons, List.map_nil, List.cons.injEq, and_true, Prod.mk.injEq] at r1 r2
    obtain ⟨c1, c2⟩ := r1
    obtain ⟨⟨⟨-, v2⟩, -⟩, ⟨v5, -⟩, v7⟩ := r2
    refine ⟨m, m1, M, f, g, hR, by rw [hMr]; rfl, by rw [hMr]; rfl, ?_, ?_, v5, ?_, v2, ?_, v7, ?_, ?_, hd⟩
    · rw [hn, c2]; exact e2
    · rw [hn, c2]; rfl
    · rw [hn, c1]; rfl
    · rw [hn]; decide
    · rw [hn, c2]; decide
    · rw [hn, c2]; exact e1

/-- The hypotheses of `C81_insert_full` are met by one for which not enough memory is allocated. -/
theorem full_reached_tight : ∃ (m m1 : Crs Nat) (M : Spec.Matrix Nat) (f g : Nat → Option Nat),
    ReachMatrix { trivial := true, boundsCheck := true, debug := true } 100 m M ∧ M.rows[1]? = some f ∧ M.rows[0]? = some g ∧
    m.shape.capacityOfArray { trivial := true, boundsCheck := true, debug := true } 1 = .ok (columnsOf M.numCols f).length ∧
    (columnsOf M.numCols f)[0]? = some 5 ∧ f 5 = some 50 ∧ (columnsOf M.numCols g)[1]? = some 2 ∧ g 2 = some 20 ∧ 7 < M.numCols ∧
    f 7 = none ∧ 1 = ((columnsOf M.numCols f).filter fun l => decide (l < 7)).length ∧
    m.setRowCapacity { trivial := true, boundsCheck := true, debug := true } 1 (2 * ((columnsOf M.numCols f).length + 1)) = .ok m1 ∧ m.entries.cap < m1.entries.cap := by
  have h : (crsRun 100 { numCols := 100, rows := List.replicate 2 (fun _ => (none : Option Nat)) }
      [.setRowCapacity 0 2, .setRowCapacity 1 1, .insertMany 0 [(1, 10), (2, 20)], .insert 1 5 50]).map
      (fun r => ((r.1.numCols, r.1.rows.map (columnsOf 100)), r.1.rows.map (fun f => ((f 5, f 2), f 7)))) =
      some ((100, [[1, 2], [5]]), [((none, some 20), none), ((some 50, none), none)]) := by decide +kernel
  obtain ⟨⟨M, outs⟩, hs, hM⟩ := Option.map_eq_some_iff.mp h
  obtain ⟨m0, m, h1, h2, -⟩ := C29_matrix { trivial := true, boundsCheck := true, debug := true } rfl 100 2 100 0 (by omega) _ M outs hs
  have hrun : ((Crs.mk' { trivial := true, boundsCheck := true, debug := true } 100 2 100 0 >>= fun (m : Crs Nat) =>
      Crs.run { trivial := true, boundsCheck := true, debug := true } 100 m
      [.setRowCapacity 0 2, .setRowCapacity 1 1, .insertMany 0 [(1, 10), (2, 20)], .insert 1 5 50]) >>= fun r => do
      let m1 ← r.1.setRowCapacity { trivial := true, boundsCheck := true, debug := true } 1 4
      .ok (← r.1.shape.capacityOfArray { trivial := true, boundsCheck := true, debug := true } 1, decide (r.1.entries.cap < m1.entries.cap))) = .ok (1, true) := by decide +kernel
  rw [h1, bind_ok, h2, bind_ok] at hrun
  obtain ⟨m1, e1, hrun⟩ := LvArray.bind_eq_ok.1 hrun
  obtain ⟨x, e2, hrun⟩ := LvArray.bind_eq_ok.1 hrun
  injection hrun with hrun
  injection hrun with hx hd
  subst hx
  have hd := of_decide_eq_true hd
  have hR : ReachMatrix { trivial := true, boundsCheck := true, debug := true } 100 m M := ⟨2, 100, 0, _, outs, m0, by omega, h1, h2, hs⟩
  have hn : M.numCols = 100 := congrArg (·.1.1) hM
  have r1 : M.rows.map (columnsOf 100) = [[1, 2], [5]] := congrArg (·.1.2) hM
  have r2 : M.rows.map (fun f => ((f 5, f 2), f 7)) = [((none, some 20), none), ((some 50, none), none)] := congrArg (·.2) hM
  match hMr : M.rows with
  | [] => rw [hMr] at r1; cases r1
  | [_] => rw [hMr] at r1; simp at r1
  | _ :: _ :: _ :: _ => rw [hMr] at r1; simp at r1
  | [g, f] =>
    rw [hMr] at r1 r2
    simp only [List.map_cons, List.map_nil, List.cons.injEq, and_true, Prod.mk.injEq] at r1 r2
    obtain ⟨c1, c2⟩ := r1
    obtain ⟨⟨⟨-, v2⟩, -⟩, ⟨v5, -⟩, v7⟩ := r2
    refine ⟨m, m1, M, f, g, hR, by rw [hMr]; rfl, by rw [hMr]; rfl, ?_, ?_, v5, ?_, v2, ?_, v7, ?_, ?_, hd⟩
    · rw [hn, c2]; exact e2
    · rw [hn, c2]; rfl
    · rw [hn, c1]; rfl
    · rw [hn]; decide
    · rw [hn, c2]; decide
    · rw [hn, c2]; exact e1

/-- The hypotheses of `C81_insert_range_full` are met by a matrix for which enough memory is allocated: row 0 is inserted into row 1. -/
theorem own_range_reached : ∃ (m m1 : Crs Nat) (M : Spec.Matrix Nat) (f g : Nat → Option Nat),
    ReachMatrix { trivial := true, boundsCheck := true, debug := true } 100 m M ∧ M.rows[1]? = some f ∧ M.rows[0]? = some g ∧
    m.shape.capacityOfArray { trivial := true, boundsCheck := true, debug := true } 1 = .ok 1 ∧ 0 + 2 ≤ (columnsOf M.numCols g).length ∧
    2 = (partOf M.numCols g 0 2).countP (fun a => (f a.1).isNone) ∧ 1 < (columnsOf M.numCols f).length + 2 ∧
    m.setRowCapacity { trivial := true, boundsCheck := true, debug := true } 1 (2 * ((columnsOf M.numCols f).length + 2)) = .ok m1 ∧ (m1.columns.cap = m.columns.cap ∧ m1.entries.cap = m.entries.cap) := by
  have h : (crsRun 100 { numCols := 100, rows := List.replicate 2 (fun _ => (none : Option Nat)) }
      [.setRowCapacity 0 20, .setRowCapacity 0 2, .setRowCapacity 1 1, .insertMany 0 [(1, 10), (2, 20)], .insert 1 5 50]).map
      (fun r => ((r.1.numCols, r.1.rows.map (columnsOf 100)), r.1.rows.map (fun g => r.1.rows.map fun f =>
        (partOf 100 g 0 2).countP (fun a => (f a.1).isNone)))) =
      some ((100, [[1, 2], [5]]), [[0, 2], [1, 0]]) := by decide +kernel
  obtain ⟨⟨M, outs⟩, hs, hM⟩ := Option.map_eq_some_iff.mp h
  obtain ⟨m0, m, h1, h2, -⟩ := C29_matrix { trivial := true, boundsCheck := true, debug := true } rfl 100 2 100 0 (by omega) _ M outs hs
  have hrun : ((Crs.mk' { trivial := true, boundsCheck := true, debug := true } 100 2 100 0 >>= fun (m : Crs Nat) =>
      Crs.run { trivial := true, boundsCheck := true, debug := true } 100 m
      [.setRowCapacity 0 20, .setRowCapacity 0 2, .setRowCapacity 1 1, .insertMany 0 [(1, 10), (2, 20)], .insert 1 5 50]) >>= fun r => do
      let m1 ← r.1.setRowCapacity { trivial := true, boundsCheck := true, debug := true } 1 6
      .ok (← r.1.shape.capacityOfArray { trivial := true, boundsCheck := true, debug := true } 1, decide ((m1.columns.cap = r.1.columns.cap ∧ m1.entries.cap = r.1.entries.cap)))) = .ok (1, true) := by decide +kernel
  rw [h1, bind_ok, h2, bind_ok] at hrun
  obtain ⟨m1, e1, hrun⟩ := LvArray.bind_eq_ok.1 hrun
  obtain ⟨x, e2, hrun⟩ := LvArray.bind_eq_ok.1 hrun
  injection hrun with hrun
  injection hrun with hx hd
  subst hx
  have hd := of_decide_eq_true hd
  have hR : ReachMatrix { trivial := true, boundsCheck := true, debug := true } 100 m M := ⟨2, 100, 0, _, outs, m0, by omega, h1, h2, hs⟩
  have hn : M.numCols = 100 := congrArg (·.1.1) hM
  have r1 : M.rows.map (columnsOf 100) = [[1, 2], [5]] := congrArg (·.1.2) hM
  have r2 : M.rows.map (fun g => M.rows.map fun f => (partOf 100 g 0 2).countP (fun a => (f a.1).isNone)) = [[0, 2], [1, 0]] :=
    congrArg (·.2) hM
  match hMr : M.rows with
  | [] => rw [hMr] at r1; cases r1
  | [_] => rw [hMr] at r1; simp at r1
  | _ :: _ :: _ :: _ => rw [hMr] at r1; simp at r1
  | [g, f] =>
    rw [hMr] at r1 r2
    simp only [List.map_cons, List.map_nil, List.cons.injEq, and_true] at r1 r2
    obtain ⟨c1, c2⟩ := r1
    refine ⟨m, m1, M, f, g, hR, by rw [hMr]; rfl, by rw [hMr]; rfl, e2, ?_, ?_, ?_, ?_, hd⟩
    · rw [hn, c1]; decide
    · rw [hn]; exact r2.1.2.symm
    · rw [hn, c2]; decide
    · rw [hn, c2]; exact e1

/-- They are met by one for which not enough memory is allocated. -/
theorem own_range_reached_tight : ∃ (m m1 : Crs Nat) (M : Spec.Matrix Nat) (f g : Nat → Option Nat),
    ReachMatrix { trivial := true, boundsCheck := true, debug := true } 100 m M ∧ M.rows[1]? = some f ∧ M.rows[0]? = some g ∧
    m.shape.capacityOfArray { trivial := true, boundsCheck := true, debug := true } 1 = .ok 1 ∧ 0 + 2 ≤ (columnsOf M.numCols g).length ∧
    2 = (partOf M.numCols g 0 2).countP (fun a => (f a.1).isNone) ∧ 1 < (columnsOf M.numCols f).length + 2 ∧
    m.setRowCapacity { trivial := true, boundsCheck := true, debug := true } 1 (2 * ((columnsOf M.numCols f).length + 2)) = .ok m1 ∧ m.columns.cap < m1.columns.cap := by
  have h : (crsRun 100 { numCols := 100, rows := List.replicate 2 (fun _ => (none : Option Nat)) }
      [.setRowCapacity 0 2, .setRowCapacity 1 1, .insertMany 0 [(1, 10), (2, 20)], .insert 1 5 50]).map
      (fun r => ((r.1.numCols, r.1.rows.map (columnsOf 100)), r.1.rows.map (fun g => r.1.rows.map fun f =>
        (partOf 100 g 0 2).countP (fun a => (f a.1).isNone)))) =
      some ((100, [[1, 2], [5]]), [[0, 2], [1, 0]]) := by decide +kernel
  obtain ⟨⟨M, outs⟩, hs, hM⟩ := Option.map_eq_some_iff.mp h
  obtain ⟨m0, m, h1, h2, -⟩ := C29_matrix { trivial := true, boundsCheck := true, debug := true } rfl 100 2 100 0 (by omega) _ M outs hs
  have hrun : ((Crs.mk' { trivial := true, boundsCheck := true, debug := true } 100 2 100 0 >>= fun (m : Crs Nat) =>
      Crs.run { trivial := true, boundsCheck := true, debug := true } 100 m
      [.setRowCapacity 0 2, .setRowCapacity 1 1, .insertMany 0 [(1, 10), (2, 20)], .insert 1 5 50]) >>= fun r => do
      let m1 ← r.1.setRowCapacity { trivial := true, boundsCheck := true, debug := true } 1 6
      .ok (← r.1.shape.capacityOfArray { trivial := true, boundsCheck := true, debug := true } 1, decide (r.1.columns.cap < m1.columns.cap))) = .ok (1, true) := by decide +kernel
  rw [h1, bind_ok, h2, bind_ok] at hrun
  obtain ⟨m1, e1, hrun⟩ := LvArray.bind_eq_ok.1 hrun
  obtain ⟨x, e2, hrun⟩ := LvArray.bind_eq_ok.1 hrun
  injection hrun with hrun
  injection hrun with hx hd
  subst hx
  have hd := of_decide_eq_true hd
  have hR : ReachMatrix { trivial := true, boundsCheck := true, debug := true } 100 m M := ⟨2, 100, 0, _, outs, m0, by omega, h1, h2, hs⟩
  have hn : M.numCols = 100 := congrArg (·.1.1) hM
  have r1 : M.rows.map (columnsOf 100) = [[1, 2], [5]] := congrArg (·.1.2) hM
  have r2 : M.rows.map (fun g => M.rows.map fun f => (partOf 100 g 0 2).countP (fun a => (f a.1).isNone)) = [[0, 2], [1, 0]] :=
    congrArg (·.2) hM
  match hMr : M.rows with
  | [] => rw [hMr] at r1; cases r1
  | [_] => rw [hMr] at r1; simp at r1
  | _ :: _ :: _ :: _ => rw [hMr] at r1; simp at r1
  | [g, f] =>
    rw [hMr] at r1 r2
    simp only [List.map_cons, List.map_nil, List.cons.injEq, and_true] at r1 r2
    obtain ⟨c1, c2⟩ := r1
    refine ⟨m, m1, M, f, g, hR, by rw [hMr]; rfl, by rw [hMr]; rfl, e2, ?_, ?_, ?_, ?_, hd⟩
    · rw [hn, c1]; decide
    · rw [hn]; exact r2.1.2.symm
    · rw [hn, c2]; decide
    · rw [hn, c2]; exact e1

end LvArray.Props

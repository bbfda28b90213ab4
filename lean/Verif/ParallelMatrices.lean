import Verif.ParallelArrays
import Verif.ParallelMatrixRows
import Verif.CrsStep

/-!
# Parallel loops over the rows of a sparse matrix
-/

namespace LvArray.Parallel

open Prog Layout Spec

open sortedArrayManipulation (Increasing newCount)

variable {V : Type} {c : Cfg}

/-- The store has this one row. -/
def GoodMat (n : Nat) (s : RowStore Nat V) (r : (Nat → Option V) × Nat) : Prop :=
  ∃ m : Crs V, s = m.shared ∧ CGood m [(rowList n r.1, r.2)] ∧ InRange n r.1

/-! ### Checks do not depend on the type of the entries -/

section strict

variable [Add V]

theorem binaryLoop_strict (nnz : Nat) : ∀ (args : List (Nat × V)) (curPos : Nat),
    binaryLoop (strict1 c) nnz curPos args = binaryLoop c nnz curPos args
  | [], _ => rfl
  | (col, v) :: rest, curPos => by
    simp only [binaryLoop, find_strict, binaryLoop_strict nnz rest]
    rfl

theorem linearLoop_strict (nnz : Nat) : ∀ (args : List (Nat × V)) (curPos : Nat),
    linearLoop (strict1 c) nnz curPos args = linearLoop c nnz curPos args
  | [], _ => rfl
  | (col, v) :: rest, curPos => by
    simp only [linearLoop, linearLoop_strict nnz rest]
    rfl

theorem unsortedLoop_strict (nnz : Nat) : ∀ (args : List (Nat × V)),
    unsortedLoop (strict1 c) nnz args = unsortedLoop c nnz args
  | [] => rfl
  | (col, v) :: rest => by
    simp only [unsortedLoop, find_strict, unsortedLoop_strict nnz rest]
    rfl

theorem matCode_strict (c : Cfg) (call : MatCall V) : matCode c call = matCode (strict1 c) call := by
  cases call with
  | insertMany args =>
    simp only [matCode, insertNonZeros, insertRange, countLoop_strict, insertLoop_strict]
    rfl
  | removeMany ks =>
    simp only [matCode, removeNonZeros, removeRange, seek_strict, removeLoop_strict]
    rfl
  | addToRow how args =>
    cases how <;>
      simp only [matCode, addToRow, addToRowBinarySearch, addToRowLinearSearch, addToRowBinarySearchUnsorted, binaryLoop_strict,
        linearLoop_strict, unsortedLoop_strict] <;> rfl
  | insert k v => rfl
  | remove k => rfl
  | isEmpty k => rfl
  | size => rfl
  | getColumn k => rfl
  | getEntry k => rfl
  | setEntry k v => rfl
  | fill v => rfl

end strict

/-! ### One call, alone -/

theorem cap_keptM {α : Type} {cs : Cfgs} {p : Code Nat V α} {x : α} {m m' : Crs V} {xs xs' : List (Nat × V)} {cap cap' : Nat}
    (h : CGood m [(xs, cap)]) (h' : CGood m' [(xs', cap')]) (hr : p.run cs (fun _ => 0) m.shared = .ok (x, m'.shared)) :
    cap' = cap := by
  have h1 := ShGood.readOff h.shape (i := 1) (by simp)
  have h2 := ShGood.readOff h'.shape (i := 1) (by simp)
  have h3 : m'.shape.offsets = m.shape.offsets := run_offsets hr
  rw [h3, h1] at h2
  have := Except.ok.inj h2
  simp at this
  exact this.symm

theorem inc_view {m : Crs V} {nnz cap n : Nat} (h : nnz + n ≤ cap) : Crs.inc c false 0 nnz cap m n = .ok m := by
  simp only [Crs.inc, Crs.target, Bool.false_eq_true, if_false, Nat.not_lt.2 h, decide_false, Bool.and_false, errorIf_false, bind_ok]

theorem rowList_room {n : Nat} {f f' : Nat → Option V} {new : List (Nat × V)} (hf : Increasing Prod.fst new)
    (hnew : ∀ x ∈ new, ∀ y ∈ rowList n f, y.1 ≠ x.1) (hmem : ∀ x, x ∈ rowList n f ∨ x ∈ new → x ∈ rowList n f') :
    (rowList n f).length + new.length ≤ (columnsOf n f').length := by
  rw [columnsOf_length, ← List.length_append]
  have hn : (rowList n f ++ new).Nodup := by
    rw [List.nodup_append]
    refine ⟨Crs.nodup_of_increasing (rowList_increasing _ _), Crs.nodup_of_increasing hf, ?_⟩
    intro a ha b hb e
    subst e
    exact hnew a hb a ha rfl
  exact (hn.subperm fun x hx => hmem x (List.mem_append.1 hx)).length_le

theorem rowList_setEntry {n : Nat} {f : Nat → Option V} {k : Nat} (hk : k < (rowList n f).length) (v : V) (hr : InRange n f) :
    (rowList n f).set k ((rowList n f)[k].1, v) =
      rowList n (fun i => if i = (rowList n f)[k].1 then some v else f i) := by
  have hx := rowList_increasing n f
  have hkeys : ((rowList n f).set k ((rowList n f)[k].1, v)).map (·.1) = (rowList n f).map (·.1) := by
    rw [List.map_set]
    apply List.ext_getElem (by simp)
    intro i h1 h2
    by_cases hik : k = i
    · subst hik; simp
    · simp [hik]
  obtain ⟨j, w, hjw⟩ : ∃ j w, (rowList n f)[k] = (j, w) := ⟨_, _, rfl⟩
  have hj := mem_rowList.1 (List.getElem_mem hk)
  rw [hjw] at hj
  have hin : InRange n (fun i => if i = (rowList n f)[k].1 then some v else f i) := by
    intro i hi
    rw [hjw] at hi
    by_cases e : i = j
    · subst e; exact hj.1
    · simp only [e, if_false] at hi; exact hr i hi
  refine eq_rowList hin (Crs.increasing_of_keys hx hkeys) fun x => ?_
  rw [hjw]
  have hsplit : rowList n f = (rowList n f).take k ++ (j, w) :: (rowList n f).drop (k + 1) := by
    rw [← hjw, ← List.drop_eq_getElem_cons hk, List.take_append_drop]
  generalize hA : (rowList n f).take k = A at hsplit
  generalize hB : (rowList n f).drop (k + 1) = B at hsplit
  have hl : A.length = k := by rw [← hA, List.length_take]; omega
  have hmem : ∀ y : Nat × V, y ∈ A ++ (j, w) :: B ↔ y.1 < n ∧ f y.1 = some y.2 := fun y => by rw [← hsplit]; exact mem_rowList
  rw [hsplit] at hx
  have hset : (rowList n f).set k (j, v) = A ++ (j, v) :: B := by
    rw [hsplit, List.set_append_right _ _ (by omega), hl, Nat.sub_self, List.set_cons_zero]
  rw [hset]
  have hab := List.pairwise_append.1 hx
  have hA' : ∀ y ∈ A, y.1 ≠ j := fun y hy => Nat.ne_of_lt (hab.2.2 y hy (j, w) (by simp))
  have hB' : ∀ y ∈ B, y.1 ≠ j := fun y hy => Nat.ne_of_gt ((List.pairwise_cons.1 hab.2.1).1 y hy)
  obtain ⟨a, b⟩ := x
  by_cases e : a = j
  · subst e
    simp only [if_true, Option.some.injEq, List.mem_append, List.mem_cons, Prod.mk.injEq, true_and]
    constructor
    · rintro (h | h | h)
      · exact absurd rfl (hA' _ h)
      · exact h.symm
      · exact absurd rfl (hB' _ h)
    · intro h; exact .inr (.inl h.symm)
  · have h1 := hmem (a, b)
    simp only [List.mem_append, List.mem_cons, Prod.mk.injEq, e, false_and, false_or, if_false] at h1 ⊢
    rw [h1]
    exact ⟨fun h => h.2, fun h => ⟨hr a (by rw [h]; rfl), h⟩⟩

theorem rowList_map_const (n : Nat) (f : Nat → Option V) (v : V) :
    rowList n (fun j => (f j).map fun _ => v) = (rowList n f).map fun x => (x.1, v) := by
  induction n with
  | zero => rfl
  | succ n ih =>
    rw [rowList_succ, rowList_succ, ih, List.map_append]
    congr 1
    cases f n <;> simp

theorem matCode_ok [Add V] {n : Nat} (call : MatCall V) (s : RowStore Nat V) (r r' : (Nat → Option V) × Nat)
    (o : RowOut (Nat ⊕ V)) (hg : GoodMat n s r) (hs : call.step n r = some (r', o)) :
    ∃ s', (matCode c call).run (strict ⟨c.ix, c⟩) (fun _ => 0) s = .ok (o, s') ∧ GoodMat n s' r' := by
  obtain ⟨m, rfl, h, hr⟩ := hg
  obtain ⟨f, cap⟩ := r
  rw [matCode_strict]
  show ∃ s', (matCode (strict1 c) call).run ⟨strict1 c, strict1 c⟩ (fun _ => 0) m.shared = .ok (o, s') ∧ _
  generalize strict1 c = d
  simp only at h hr
  have h0 : CGood m (([] : Layout (Nat × V)) ++ (rowList n f, cap) :: []) := h
  have hx := rowList_increasing n f
  have hsz : m.shape.sizeOfArray d 0 = .ok (rowList n f).length := h0.shape.sizeOfAt rfl
  cases call with
  | insert k v =>
    simp only [MatCall.step] at hs
    split at hs <;> cases hs
    rename_i hc
    have hfit := h.layC.fits ((rowList n f).map (·.1), cap) (by simp [mapL])
    simp only [List.length_map] at hfit
    obtain ⟨m', ys, cap', h1, h2, h3, h4, h5⟩ := Crs.insert_ok (ci := d) (c := d) (own := false) h0 hx k v (fun q hq => by
      refine ⟨m, cap, inc_view ?_, rfl, h0, ?_⟩ <;>
      · by_cases ha : ∀ x ∈ rowList n f, x.1 ≠ k
        · rw [if_pos ha] at hq
          have := rowList_room (n := n) (f := f) (f' := fun j => if j = k then (f j).or (some v) else f j) (new := [(k, v)])
            (by simp [Increasing]) (by simpa using ha) (by
              have hnone : f k = none := by simpa using (noKey_iff hr k).1 ha
              rintro ⟨a, b⟩ (hy | hy)
              · have := mem_rowList.1 hy
                simp only at this
                refine mem_rowList.2 ⟨this.1, ?_⟩
                simp only
                split
                · rename_i e; rw [this.2]; rfl
                · exact this.2
              · simp only [List.mem_singleton, Prod.mk.injEq] at hy
                obtain ⟨rfl, rfl⟩ := hy
                exact mem_rowList.2 ⟨hc.1, by simp [hnone]⟩)
          simp only [List.length_singleton] at this
          omega
        · rw [if_neg ha] at hq; omega)
    have hys := rowList_insert hr hc.1 h4 h5
    subst hys
    rw [decide_noKey hr k] at h1
    have hrun : (insertNonZero d k v).run ⟨d, d⟩ (fun _ => 0) m.shared = .ok ((f k).isNone, m'.shared) :=
      (run_insertNonZero m k v).trans ((congrArg (· >>= _) h1).trans rfl)
    cases cap_keptM h h3 hrun
    exact ⟨_, bind_unit hrun, m', rfl, h3, insert_inRange hr hc.1 v⟩
  | insertMany args =>
    simp only [MatCall.step] at hs
    split at hs <;> cases hs
    rename_i hc
    have hv : Increasing Prod.fst args := List.pairwise_map.1 hc.1
    have hroom : (rowList n f).length + newCount Prod.fst (rowList n f) args ≤ cap := by
      refine Nat.le_trans (rowList_room (new := args.filter fun v => decide (∀ x ∈ rowList n f, x.1 ≠ v.1)) (hv.filter _) ?_ ?_) hc.2.2
      · intro x hx'
        simp only [List.mem_filter, decide_eq_true_eq] at hx'
        exact hx'.2
      · rintro ⟨a, b⟩ (hy | hy)
        · have := mem_rowList.1 hy
          simp only at this
          exact mem_rowList.2 ⟨this.1, by simp [this.2]⟩
        · simp only [List.mem_filter, decide_eq_true_eq] at hy
          have hnone : f a = none := by simpa using (noKey_iff hr a).1 hy.2
          refine mem_rowList.2 ⟨hc.2.1 _ hy.1, ?_⟩
          simp only [hnone, Option.none_or]
          exact (lookup_increasing args hv a b).2 hy.1
    obtain ⟨m', ys, cap', h1, h2, h3, h4, h5⟩ := Crs.insertMany_ok (ci := d) (c := d) (own := false) h0 hx args hv
      ⟨m, cap, inc_view hroom, rfl, h0, hroom⟩
    have hys := rowList_insertMany hr hv hc.2.1 h4 h5
    subst hys
    rw [newCount_eq hr args] at h1
    have hrun : (insertNonZeros d (args.map (·.1)) (args.map (·.2))).run ⟨d, d⟩ (fun _ => 0) m.shared =
        .ok (args.countP fun a => (f a.1).isNone, m'.shared) :=
      (run_insertNonZeros m _ _).trans ((congrArg (· >>= _) h1).trans rfl)
    cases cap_keptM h h3 hrun
    exact ⟨_, bind_unit hrun, m', rfl, h3, insertMany_inRange hr hv hc.2.1⟩
  | remove k =>
    cases hs
    obtain ⟨m', cap', h1, h2, h3⟩ := Crs.remove_ok (ci := d) (c := d) h0 hx k
    rw [rowList_remove hr k] at h3
    rw [decide_key hr k] at h1
    have hrun : (removeNonZero d k).run ⟨d, d⟩ (fun _ => 0) m.shared = .ok ((f k).isSome, m'.shared) :=
      (run_removeNonZero m k).trans ((congrArg (· >>= _) h1).trans rfl)
    cases cap_keptM h h3 hrun
    exact ⟨_, bind_unit hrun, m', rfl, h3, remove_inRange hr k⟩
  | removeMany ks =>
    simp only [MatCall.step] at hs
    split at hs <;> cases hs
    rename_i hk
    obtain ⟨m', cap', h1, h2, h3⟩ := Crs.removeMany_ok (ci := d) (c := d) h0 hx ks hk
    have hle : ((rowList n f).filter (fun x => decide (x.1 ∈ ks))).length ≤ (rowList n f).length := List.length_filter_le _ _
    rw [rowList_removeMany hr ks] at h3
    rw [removedCount_eq hr hk] at h1 hle
    have hrun : (removeNonZeros d ks).run ⟨d, d⟩ (fun _ => 0) m.shared = .ok (ks.countP fun k => (f k).isSome, m'.shared) :=
      run_removeNonZeros ks _ _ hsz h1 hle
    cases cap_keptM h h3 hrun
    exact ⟨_, bind_unit hrun, m', rfl, h3, removeMany_inRange hr ks⟩
  | isEmpty k =>
    cases hs
    have h1 := Crs.isEmpty_ok (c := d) h0 hx k
    rw [decide_key hr k] at h1
    have h2 : (!(f k).isSome) = (f k).isNone := by simp
    rw [h2] at h1
    have hrun : (isEmpty d k).run ⟨d, d⟩ (fun _ => 0) m.shared = .ok ((f k).isNone, m.shared) :=
      (run_isEmpty m k).trans ((congrArg (· >>= _) h1).trans rfl)
    exact ⟨_, bind_unit hrun, m, rfl, h, hr⟩
  | size =>
    cases hs
    rw [columnsOf_length]
    refine ⟨_, bind_unit (x := (rowList n f).length) (s' := m.shared) ?_, m, rfl, h, hr⟩
    exact (run_size (cs := ⟨d, d⟩) m.shared).trans ((congrArg (· >>= _) hsz).trans rfl)
  | getColumn k =>
    simp only [MatCall.step] at hs
    obtain ⟨j, hj, hs⟩ := Option.map_eq_some_iff.1 hs
    cases hs
    rw [columnsOf_eq] at hj
    obtain ⟨hlt, rfl⟩ := List.getElem?_eq_some_iff.1 hj
    rw [List.length_map] at hlt
    have h1 := Crs.getColumn_ok (c := d) h0 k hlt
    rw [List.getElem_map]
    have hrun : (getValue d k).run ⟨d, d⟩ (fun _ => 0) m.shared = .ok ((rowList n f)[k].1, m.shared) :=
      (run_getColumn m k).trans ((congrArg (· >>= _) h1).trans rfl)
    exact ⟨_, bind_unit (f := fun j => (RowOut.val (.inl j) : RowOut (Nat ⊕ V))) hrun, m, rfl, h, hr⟩
  | getEntry k =>
    simp only [MatCall.step] at hs
    obtain ⟨j, hj, hs⟩ := Option.bind_eq_some_iff.1 hs
    obtain ⟨w, hw, hs⟩ := Option.map_eq_some_iff.1 hs
    cases hs
    rw [columnsOf_eq] at hj
    obtain ⟨hlt, rfl⟩ := List.getElem?_eq_some_iff.1 hj
    rw [List.length_map] at hlt
    have h1 := Crs.getEntry_ok (c := d) h0 k hlt
    have h2 := (mem_rowList.1 (List.getElem_mem hlt)).2
    rw [List.getElem_map, h2] at hw
    cases hw
    have hrun : (getEntry d k).run ⟨d, d⟩ (fun _ => 0) m.shared = .ok ((rowList n f)[k].2, m.shared) :=
      (run_getEntry m k).trans ((congrArg (· >>= _) h1).trans rfl)
    exact ⟨_, bind_unit (f := fun j => (RowOut.val (.inr j) : RowOut (Nat ⊕ V))) hrun, m, rfl, h, hr⟩
  | setEntry k v =>
    simp only [MatCall.step] at hs
    obtain ⟨j, hj, hs⟩ := Option.map_eq_some_iff.1 hs
    cases hs
    rw [columnsOf_eq] at hj
    obtain ⟨hlt, rfl⟩ := List.getElem?_eq_some_iff.1 hj
    rw [List.length_map] at hlt
    obtain ⟨b, h1, w⟩ := (Crs.winE h0 IsRaw).writeAt (c := d) k (by simpa using hlt) v
    have hkeys : ((rowList n f).set k ((rowList n f)[k].1, v)).map (·.1) = (rowList n f).map (·.1) := by
      rw [List.map_set]
      apply List.ext_getElem (by simp)
      intro i h1 h2
      by_cases hik : k = i
      · subst hik; simp
      · simp [hik]
    have h2 := Crs.setEntries h0 hkeys (b := b) (Q := IsRaw) (by rw [List.map_set]; exact w)
    rw [rowList_setEntry hlt v hr] at h2
    have hb : m.shape.checkBounds2 d 0 k = .ok () := ShGood.checkBounds2 h.shape (i := 0) (by simp) (by simpa [szs] using hlt)
    have hp : m.shape.offsets.read 0 = .ok 0 := h0.readOff
    refine ⟨_, bind_unit (x := ()) (s' := ({ m with entries := b } : Crs V).shared) ?_, _, rfl, ?_, ?_⟩
    · rw [run_setEntry, hb, bind_ok, hp, bind_ok]
      exact (congrArg (· >>= _) h1).trans rfl
    · rw [List.getElem_map]; exact h2
    · rw [List.getElem_map]
      intro i hi
      by_cases e : i = (rowList n f)[k].1
      · rw [e]; exact (mem_rowList.1 (List.getElem_mem hlt)).1
      · simp only [e, if_false] at hi; exact hr i hi
  | fill v =>
    cases hs
    obtain ⟨m', h1, h2, h3⟩ := h.setValues (c := d) v
    simp only [List.map_cons, List.map_nil] at h3
    rw [← rowList_map_const] at h3
    have hp : m.shape.offsets.read 0 = .ok 0 := h0.readOff
    refine ⟨_, bind_unit (x := ()) (s' := m'.shared) ?_, m', rfl, h3, ?_⟩
    · rw [run_fillRow, hsz, bind_ok, hp, bind_ok]
      unfold Crs.setValues at h1
      rw [show m.shape.numArrays = 1 from h.shape.num] at h1
      obtain ⟨b, e1, e2⟩ := bind_eq_ok.1 h1
      cases e2
      obtain ⟨b', e1, e2⟩ := bind_eq_ok.1 e1
      cases e2
      simp only [hsz, bind_ok, hp] at e1
      simp only [e1, bind_ok]
    · intro i hi
      exact hr i (by simpa using hi)
  | addToRow how args =>
    simp only [MatCall.step] at hs
    split at hs <;> cases hs
    rename_i hc
    have hp : ∀ a ∈ args, ∃ x ∈ rowList n f, x.1 = a.1 := fun a ha => (key_iff hr a.1).2 (hc.2 a ha)
    obtain ⟨hu, hso⟩ := h0.addToRow (c := d) hx args hp
    rw [← rowList_foldl] at hu hso
    have fin : ∀ {P : Code Nat V Unit} {r : R (Crs V)}, P.run ⟨d, d⟩ (fun _ => 0) m.shared = (r >>= fun m' => .ok ((), m'.shared)) →
        (∃ m', r = .ok m' ∧ m'.numCols = m.numCols ∧
          CGood m' ([] ++ (rowList n (args.foldl addEntry f), cap) :: [])) →
        ∃ s', (P >>= fun _ => pure (RowOut.unit : RowOut (Nat ⊕ V))).run ⟨d, d⟩ (fun _ => 0) m.shared = .ok (RowOut.unit, s') ∧
          GoodMat n s' (args.foldl addEntry f, cap) := by
      rintro P r e ⟨m', rfl, _, h3⟩
      exact ⟨_, bind_unit (x := ()) e, m', rfl, h3, foldl_inRange args hr⟩
    cases how with
    | unsorted => exact fin (run_addToRowBinarySearchUnsorted m args) hu
    | auto => exact fin (run_addToRow m args) (hso (List.pairwise_map.1 hc.1)).2.2
    | binary => exact fin (run_addToRowBinarySearch m args) (hso (List.pairwise_map.1 hc.1)).1
    | linear => exact fin (run_addToRowLinearSearch m args) (hso (List.pairwise_map.1 hc.1)).2.1

/-! ### The matrix -/

variable {n : Nat}

theorem sharedM_sim {m : Crs V} {L : Layout (Nat × V)} (h : CGood m L) :
    Sim L.caps.length (fun i => (L.caps.take i).sum) m.shared (slices m.shared L.szs L.caps) := by
  have hc := h.layC.room
  have he := h.layE.room
  simp only [mapL_total] at hc he
  exact slices_sim h.shape hc he h.layC.lost h.layE.lost

theorem rowsM {m : Crs V} {rows : List ((Nat → Option V) × Nat)} (h : CGood m (rows.map fun r => (rowList n r.1, r.2)))
    (hr : ∀ r ∈ rows, InRange n r.1) :
    Rows (GoodMat n) (slices m.shared (Layout.szs (rows.map fun r => (rowList n r.1, r.2)))
      (Layout.caps (rows.map fun r => (rowList n r.1, r.2)))) rows := by
  rintro i ⟨f, cap⟩ hi
  have hL : (rows.map fun r => (rowList n r.1, r.2))[i]? = some (rowList n f, cap) := by rw [List.getElem?_map, hi]; rfl
  generalize hLd : (rows.map fun r => (rowList n r.1, r.2)) = L at h hL
  have e1 : (Layout.szs L).getD i 0 = (rowList n f).length := by simp [szs, hL]
  have e2 : (Layout.caps L).getD i 0 = cap := by simp [caps, hL]
  refine ⟨⟨0, _, _, _⟩, rfl, ⟨?_, ?_, ?_⟩, hr _ (List.mem_of_getElem? hi)⟩
  · show ShGood (rowShape _ _) [(rowList n f).length] [cap]
    rw [e1, e2]
    exact rowShape_good _ _
  · show Lay (cut m.columns _ _) [((rowList n f).map Prod.fst, cap)]
    rw [e2, ← mapL_caps (g := Prod.fst) L]
    exact cut_lay h.layC (by simp [mapL, hL])
  · show Lay (cut m.entries _ _) [((rowList n f).map Prod.snd, cap)]
    rw [e2, ← mapL_caps (g := Prod.snd) L]
    exact cut_lay h.layE (by simp [mapL, hL])

/-- The rows after the loop make up a matrix. -/
theorem sharedM_join {m : Crs V} {L : Layout (Nat × V)} (h : CGood m L) {s' : RowStore Nat V} {F : Family Nat V}
    {rows' : List ((Nat → Option V) × Nat)}
    (hs : Sim L.caps.length (fun i => (L.caps.take i).sum) s' F) (hF : Rows (GoodMat n) F rows') (hl : rows'.length = L.length)
    (hk : Kept L.caps.length (L.caps.take L.caps.length).sum m.shared s') :
    CGood (s'.matrix n) (rows'.map fun r => (rowList n r.1, r.2)) ∧ rows'.map (·.2) = L.map (·.2) ∧
      ∀ r ∈ rows', InRange n r.1 := by
  have hrow : ∀ (i : Nat) r, rows'[i]? = some r → i < L.caps.length := fun i r hr => by
    have := (List.getElem?_eq_some_iff.1 hr).1
    simp only [caps_length]; omega
  have hcap : ∀ (i : Nat) r, rows'[i]? = some r → L.caps[i]? = some r.2 := by
    rintro i ⟨f, cap⟩ hr
    have hi := hrow i _ hr
    obtain ⟨m1, e1, e2, _⟩ := hF i _ hr
    have : cap = L.caps[i] := row_cap hs hi (n := (rowList n f).length) (by rw [e1]; exact e2.shape)
    rw [this]; simp [hi]
  have hcaps : rows'.map (·.2) = L.caps := by
    apply List.ext_getElem?
    intro i
    by_cases hi : i < rows'.length
    · rw [hcap i _ (List.getElem?_eq_getElem hi)]
      simp [hi]
    · rw [List.getElem?_eq_none (by simp; omega), List.getElem?_eq_none (by simp; omega)]
  have hlast : (L.caps.take L.caps.length).sum = total L := by rw [List.take_length]; rfl
  have hpart : ∀ (i : Nat) r, rows'[i]? = some r → (L.caps.take (i + 1)).sum - (L.caps.take i).sum = r.2 := by
    intro i r hr
    have hi := hrow i _ hr
    rw [take_sum_succ _ hi, Nat.add_sub_cancel_left]
    have := hcap i _ hr
    rw [List.getElem?_eq_getElem hi] at this
    exact Option.some.inj this
  refine ⟨⟨?_, ?_, ?_⟩, hcaps, ?_⟩
  · show ShGood s'.shape (Layout.szs _) (Layout.caps _)
    have e : Layout.caps (rows'.map fun r => (rowList n r.1, r.2)) = L.caps := by
      rw [← hcaps]; simp [caps, Function.comp_def]
    rw [e]
    refine shape_join (s := m.shared) h.shape hs hk (by simp [hl]) ?_
    intro i q hq
    simp only [szs, List.getElem?_map, Option.map_eq_some_iff] at hq
    obtain ⟨r, ⟨r0, hr, rfl⟩, rfl⟩ := hq
    obtain ⟨m1, e1, e2, _⟩ := hF i _ hr
    rw [e1]
    show m1.shape.sizes.cell 0 = _
    have := ShGood.siz e2.shape
    rw [this.1.1, cellsOf_lt (by simp)]
    simp [szs]
  · refine lay_join h.layC hk.valueKind hk.valueCap (fun k hk' => hk.value k (by rw [hlast, ← mapL_total (g := Prod.fst)]; exact hk'))
      ?_ ?_ ?_
    · rw [mapL_caps, mapL_caps, ← hcaps]; simp [caps, Function.comp_def]
    · refine hs.lostValues fun i hi => ?_
      have hi' : i < rows'.length := by simp at hi; omega
      obtain ⟨m1, e1, e2, _⟩ := hF i _ (List.getElem?_eq_getElem hi')
      rw [e1]; exact e2.layC.lost
    · intro i r hr
      simp only [mapL, List.getElem?_map, Option.map_eq_some_iff] at hr
      obtain ⟨_, ⟨r0, hr, rfl⟩, rfl⟩ := hr
      obtain ⟨m1, e1, e2, _⟩ := hF i _ hr
      have hp := hs.values i (hrow i _ hr)
      rw [hpart i _ hr, e1] at hp
      rw [mapL_caps]
      exact ⟨m1.columns, hp, e2.layC⟩
  · refine lay_join h.layE hk.entryKind hk.entryCap (fun k hk' => hk.entry k (by rw [hlast, ← mapL_total (g := Prod.snd)]; exact hk'))
      ?_ ?_ ?_
    · rw [mapL_caps, mapL_caps, ← hcaps]; simp [caps, Function.comp_def]
    · refine hs.lostEntries fun i hi => ?_
      have hi' : i < rows'.length := by simp at hi; omega
      obtain ⟨m1, e1, e2, _⟩ := hF i _ (List.getElem?_eq_getElem hi')
      rw [e1]; exact e2.layE.lost
    · intro i r hr
      simp only [mapL, List.getElem?_map, Option.map_eq_some_iff] at hr
      obtain ⟨_, ⟨r0, hr, rfl⟩, rfl⟩ := hr
      obtain ⟨m1, e1, e2, _⟩ := hF i _ hr
      have hp := hs.entries i (hrow i _ hr)
      rw [hpart i _ hr, e1] at hp
      rw [mapL_caps]
      exact ⟨m1.entries, hp, e2.layE⟩
  · intro r hr
    obtain ⟨i, hi⟩ := List.getElem?_of_mem hr
    obtain ⟨_, _, _, h3⟩ := hF i r hi
    exact h3

/-- One row can be observed whatever happens to the others. -/
theorem rowM_shows {N : Nat} {o : Nat → Nat} {s : RowStore Nat V} {M : Family Nat V} (hs : Sim N o s M) {i : Nat} (hi : i < N)
    {f : Nat → Option V} {cap : Nat} (hg : GoodMat n (M i) (f, cap)) :
    (s.matrix n).shape.sizeOfArray c i = .ok (rowList n f).length ∧ ∀ j (hj : j < (rowList n f).length),
      (s.matrix n).getColumn c i j = .ok (rowList n f)[j].1 ∧ (s.matrix n).getEntry c i j = .ok (rowList n f)[j].2 := by
  obtain ⟨m, e1, h, _⟩ := hg
  have hc : GoodRow (M i) ((rowList n f).map Prod.fst, cap) :=
    ⟨m.entries, m.cols, e1, h.cols⟩
  obtain ⟨h1, h2⟩ := row_shows (c := c) hs hi hc
  rw [List.length_map] at h1
  refine ⟨h1, fun j hj => ⟨?_, ?_⟩⟩
  · have := h2 j (by simpa using hj)
    rw [List.getElem_map] at this
    exact this
  · have hb : s.shape.checkBounds2 c i j = .ok () := by
      have := h2 j (by simpa using hj)
      obtain ⟨_, h3, _⟩ := bind_eq_ok.1 this
      exact h3
    have hsz := hs.rowOff i hi
    have hcap : o (i + 1) - o i = cap := by
      have h1 := hsz.2
      rw [e1] at h1
      have h2 := ShGood.readOff h.shape (i := 1) (by simp)
      have h3 : (Except.ok ((Layout.caps [(rowList n f, cap)]).take 1).sum : R Nat) = .ok (o (i + 1) - o i) := h2.symm.trans h1
      have := Except.ok.inj h3
      simp at this
      omega
    have hp := hs.entries i hi
    rw [hcap, e1] at hp
    have hfit := h.layE.fits ((rowList n f).map Prod.snd, cap) (by simp [mapL])
    simp only [List.length_map] at hfit
    have hcell := hp.cell j (by omega)
    have hl : m.entries.cell j = .live (rowList n f)[j].2 := by
      rw [h.layE.cell]
      simp only [mapL, List.map_cons, List.map_nil, cells]
      rw [if_pos (by omega), cellsOf_lt (by simpa using hj)]
      simp
    have hf := hp.fits
    unfold Crs.getEntry
    show (s.shape.checkBounds2 c i j >>= _) = _
    rw [hb, bind_ok]
    show (s.shape.offsets.read i >>= _) = _
    rw [hs.off i (by omega), bind_ok]
    show s.entries.read (o i + j) = _
    unfold Buf.read
    rw [if_pos (by omega), ← hcell, show (Crs.shared m).entries.cell j = .live (rowList n f)[j].2 from hl]

end LvArray.Parallel

import Verif.ParallelSlices
import Verif.ParallelSets
import Verif.AoSLemmas

/-!
# Parallel loops over arrays of arrays and arrays of sets

Each call alone does what the specification says; the rows that the threads leave behind make up the container.
-/

namespace LvArray.Parallel

open Prog Layout Spec

variable {T V : Type} {c : Cfg}

/-- The store has this one row. -/
def GoodRow (s : RowStore T V) (r : List T × Nat) : Prop := ∃ e m, s = AoA.store e m ∧ AGood m [r]

theorem GoodRow.intro {e : Buf V} {m : AoA T} {r : List T × Nat} (h : AGood m [r]) : GoodRow (m.store e) r := ⟨e, m, rfl, h⟩

/-! ### Checks do not depend on the element type -/

section strict

theorem rowCode_strict [Inhabited T] (c : Cfg) (call : RowCall T) :
    (rowCode c call : Code T V (RowOut T)) = rowCode (strict1 c) call := by
  cases call <;> rfl

variable [LT T] [DecidableLT T] [DecidableEq T]

theorem find_strict (comp : T → T → Bool) (lo n : Nat) (v : T) :
    (find (strict1 c) comp lo n v : Code T V Nat) = find c comp lo n v := rfl

theorem seek_strict (n pos : Nat) (vs : List T) :
    (seek (strict1 c) n pos vs : Code T V (Nat × List T)) = seek c n pos vs := by
  induction vs generalizing pos with
  | nil => rfl
  | cons v vs ih => simp only [seek, find_strict, ih]

theorem removeLoop_strict (k : Callbacks T V) (n : Nat) : ∀ (fuel pos r : Nat) (vs : List T),
    removeLoop (strict1 c) k n fuel pos r vs = removeLoop c k n fuel pos r vs
  | 0, _, _, [] => rfl
  | _ + 1, _, _, [] => rfl
  | 0, _, _, _ :: _ => rfl
  | fuel + 1, pos, r, v :: vs => by
    simp only [removeLoop, seek_strict, removeLoop_strict k n fuel]
    rfl

theorem countLoop_strict (n : Nat) (vs : List T) (u m : Nat) :
    (countLoop (strict1 c) n vs u m : Code T V Nat) = countLoop c n vs u m := by
  induction vs generalizing u m with
  | nil => rfl
  | cons v vs ih => simp only [countLoop, find_strict, ih]

theorem insertLoop_strict (k : Callbacks T V) (vs : List T) (u m : Nat) :
    insertLoop (strict1 c) k vs u m = insertLoop c k vs u m := by
  induction vs generalizing u m with
  | nil => rfl
  | cons v vs ih =>
    simp only [insertLoop, find_strict, ih]
    rfl

theorem setCode_strict [Inhabited T] (c : Cfg) (call : SetCall T) :
    (setCode c call : Code T V (RowOut T)) = setCode (strict1 c) call := by
  cases call with
  | insertMany vs =>
    simp only [setCode, insertRangeIntoSet, insertRange, countLoop_strict, insertLoop_strict]
    rfl
  | removeMany vs =>
    simp only [setCode, removeRangeFromSet, removeRange, seek_strict, removeLoop_strict]
    rfl
  | insert v => rfl
  | remove v => rfl
  | contains v => rfl
  | get j => rfl
  | size => rfl

end strict

/-! ### One call, alone -/

theorem bind_unit {α β : Type} {cs : Cfgs} {row : Unit → Nat} {p : Code T V α} {f : α → β} {s s' : RowStore T V} {x : α}
    (h : p.run cs row s = .ok (x, s')) : (p >>= fun x => pure (f x)).run cs row s = .ok (f x, s') := by
  simp only [bind_def, run_bind, h, bind_ok]; rfl

theorem rowCode_ok [Inhabited T] (call : RowCall T) (s : RowStore T V) (r r' : List T × Nat) (o : RowOut T) (hg : GoodRow s r)
    (hs : call.step r = some (r', o)) :
    ∃ s', (rowCode c call).run (strict ⟨c, c⟩) (fun _ => 0) s = .ok (o, s') ∧ GoodRow s' r' := by
  obtain ⟨e, m, rfl, h⟩ := hg
  obtain ⟨xs, cap⟩ := r
  rw [rowCode_strict]
  have h0 : AGood m (([] : Layout T) ++ (xs, cap) :: []) := h
  cases call with
  | emplaceBack v =>
    simp only [RowCall.step] at hs
    split at hs <;> cases hs
    obtain ⟨m', h1, h2, _⟩ := h0.viewEmplaceBack (c := strict1 c) v ‹_›
    refine ⟨_, bind_unit (x := ()) (s' := m'.store e) ?_, .intro h2⟩
    refine (run_viewEmplaceBack (cs := strict ⟨c, c⟩) m v).trans ?_
    exact (congrArg (· >>= _) h1).trans rfl
  | appendToArray vs =>
    simp only [RowCall.step] at hs
    split at hs <;> cases hs
    obtain ⟨m', h1, h2, _⟩ := h0.viewAppend (c := strict1 c) vs ‹_›
    refine ⟨_, bind_unit (x := ()) (s' := m'.store e) ?_, .intro h2⟩
    refine (run_viewAppendToArray (cs := strict ⟨c, c⟩) m vs).trans ?_
    exact (congrArg (· >>= _) h1).trans rfl
  | emplace j v =>
    simp only [RowCall.step] at hs
    split at hs <;> cases hs
    rename_i hj
    obtain ⟨m', h1, h2, _⟩ := h0.viewEmplace (c := strict1 c) j hj.1 v hj.2
    refine ⟨_, bind_unit (x := ()) (s' := m'.store e) ?_, .intro h2⟩
    refine (run_viewEmplace (cs := strict ⟨c, c⟩) m j v).trans ?_
    exact (congrArg (· >>= _) h1).trans rfl
  | insertIntoArray j vs =>
    simp only [RowCall.step] at hs
    split at hs <;> cases hs
    rename_i hj
    have hroom := h.lay.room
    simp at hroom
    obtain ⟨m', h1, h2, _⟩ := h0.viewInsert (c := strict1 c) j hj.1 vs hj.2.1 (fun _ => hj.2.2.imp id fun h => by omega)
    refine ⟨_, bind_unit (x := ()) (s' := m'.store e) ?_, .intro h2⟩
    refine (run_viewInsertIntoArray (cs := strict ⟨c, c⟩) m j vs).trans ?_
    exact (congrArg (· >>= _) h1).trans rfl
  | eraseFromArray j n =>
    simp only [RowCall.step] at hs
    split at hs <;> cases hs
    rename_i hj
    obtain ⟨m', h1, h2, _⟩ := h0.eraseFromArray (c := strict1 c) j n hj.1 hj.2
    refine ⟨_, bind_unit (x := ()) (s' := m'.store e) ?_, .intro h2⟩
    have hsz : m.shape.sizeOfArray (strict1 c) 0 = .ok xs.length := h0.shape.sizeOfAt rfl
    refine (run_eraseFromArray (cs := strict ⟨c, c⟩) m j n _ hsz (by omega)).trans ?_
    exact (congrArg (· >>= _) h1).trans rfl
  | set j v =>
    simp only [RowCall.step] at hs
    split at hs <;> cases hs
    obtain ⟨m', h1, h2, _⟩ := h0.set (c := strict1 c) j ‹_› v
    refine ⟨_, bind_unit (x := ()) (s' := m'.store e) ?_, .intro h2⟩
    refine (run_setValue (cs := strict ⟨c, c⟩) m j v).trans ?_
    exact (congrArg (· >>= _) h1).trans rfl
  | get j =>
    simp only [RowCall.step] at hs
    obtain ⟨v, hv, hs⟩ := Option.map_eq_some_iff.1 hs
    cases hs
    obtain ⟨hj, rfl⟩ := List.getElem?_eq_some_iff.1 hv
    have h1 := h0.get (c := strict1 c) j hj
    refine ⟨_, bind_unit (x := xs[j]) (s' := m.store e) ?_, .intro h⟩
    refine (run_getValue (cs := strict ⟨c, c⟩) m j).trans ?_
    exact (congrArg (· >>= _) h1).trans rfl
  | size =>
    cases hs
    have hsz : m.shape.sizeOfArray (strict1 c) 0 = .ok xs.length := h0.shape.sizeOfAt rfl
    refine ⟨_, bind_unit (x := xs.length) (s' := m.store e) ?_, .intro h⟩
    refine (run_size (cs := strict ⟨c, c⟩) (m.store e)).trans ?_
    exact (congrArg (· >>= _) hsz).trans rfl

/-! ### One call on a set, alone -/

section sets

variable [LinearOrder T]

/-- The store has this one set. -/
def GoodSet (s : RowStore T V) (r : Finset T × Nat) : Prop := GoodRow s (r.1.sort (· ≤ ·), r.2)

/-- The capacity of a row is kept by every program. -/
theorem cap_kept {α : Type} {cs : Cfgs} {p : Code T V α} {x : α} {m m' : AoA T} {e e' : Buf V} {xs xs' : List T} {cap cap' : Nat}
    (h : AGood m [(xs, cap)]) (h' : AGood m' [(xs', cap')]) (hr : p.run cs (fun _ => 0) (m.store e) = .ok (x, m'.store e')) :
    cap' = cap := by
  have h1 := h.shape.readOff (i := 1) (by simp)
  have h2 := h'.shape.readOff (i := 1) (by simp)
  have h3 : m'.shape.offsets = m.shape.offsets := run_offsets hr
  rw [h3, h1] at h2
  have := Except.ok.inj h2
  simp at this
  exact this.symm

theorem checking_ok {m : AoA T} {S : Finset T} {cap : Nat} (h : AGood m [(S.sort (· ≤ ·), cap)]) {n : Nat} (hn : S.card + n ≤ cap) :
    (AoS.target (AoS.checking c 0) 0).incrementSize m n = .ok m := by
  show AoS.checking c 0 m n = .ok m
  have h0 : AGood m (([] : Layout T) ++ (S.sort (· ≤ ·), cap) :: []) := h
  unfold AoS.checking
  have := h0.capCheck (c := c) (n := n) (by simpa using hn)
  exact (congrArg (· >>= _) this).trans rfl

theorem setCode_ok [Inhabited T] (call : SetCall T) (s : RowStore T V) (r r' : Finset T × Nat) (o : RowOut T) (hg : GoodSet s r)
    (hs : call.step r = some (r', o)) :
    ∃ s', (setCode c call).run (strict ⟨c, c⟩) (fun _ => 0) s = .ok (o, s') ∧ GoodSet s' r' := by
  obtain ⟨e, m, rfl, h⟩ := hg
  obtain ⟨S, cap⟩ := r
  rw [setCode_strict]
  have h0 : AGood m (([] : Layout T) ++ (S.sort (· ≤ ·), cap) :: []) := h
  have hsz : m.shape.sizeOfArray (strict1 c) 0 = .ok (S.sort (· ≤ ·)).length := h0.shape.sizeOfAt rfl
  cases call with
  | insert v =>
    simp only [SetCall.step] at hs
    split at hs <;> cases hs
    rename_i hc
    obtain ⟨m', cap', h1, h2⟩ := AoS.insert_ok (c := strict1 c) (inc := AoS.checking (strict1 c) 0) h0 v (fun n hn =>
      ⟨m, cap, checking_ok h (Nat.le_trans hn hc), h0, Nat.le_trans hn hc⟩)
    have hr : (insertIntoSet (strict1 c) v).run (strict ⟨c, c⟩) (fun _ => 0) (m.store e) = .ok (decide (v ∉ S), m'.store e) :=
      (run_insertIntoSet (cs := strict ⟨c, c⟩) m v).trans ((congrArg (· >>= _) h1).trans rfl)
    cases cap_kept h h2 hr
    exact ⟨_, bind_unit hr, .intro h2⟩
  | insertMany vs =>
    simp only [SetCall.step] at hs
    split at hs <;> cases hs
    rename_i hc
    have hcard : S.card + (vs.toFinset \ S).card ≤ cap := by
      rw [← Finset.card_union_of_disjoint Finset.disjoint_sdiff, Finset.union_sdiff_self_eq_union]; exact hc.2
    obtain ⟨m', cap', h1, h2⟩ := AoS.insertMany_ok (c := strict1 c) (inc := AoS.checking (strict1 c) 0) h0 vs hc.1
      ⟨m, cap, checking_ok h hcard, h0, hcard⟩
    have hr : (insertRangeIntoSet (strict1 c) vs).run (strict ⟨c, c⟩) (fun _ => 0) (m.store e) =
        .ok ((vs.toFinset \ S).card, m'.store e) :=
      (run_insertRangeIntoSet (cs := strict ⟨c, c⟩) m vs).trans ((congrArg (· >>= _) h1).trans rfl)
    cases cap_kept h h2 hr
    exact ⟨_, bind_unit hr, .intro h2⟩
  | remove v =>
    cases hs
    obtain ⟨m', cap', h1, h2⟩ := AoS.remove_ok (c := strict1 c) h0 v
    have hr : (removeFromSet (strict1 c) v).run (strict ⟨c, c⟩) (fun _ => 0) (m.store e) = .ok (decide (v ∈ S), m'.store e) :=
      (run_removeFromSet (cs := strict ⟨c, c⟩) m v).trans ((congrArg (· >>= _) h1).trans rfl)
    cases cap_kept h h2 hr
    exact ⟨_, bind_unit hr, .intro h2⟩
  | removeMany vs =>
    simp only [SetCall.step] at hs
    split at hs <;> cases hs
    rename_i hc
    obtain ⟨m', cap', h1, h2⟩ := AoS.removeMany_ok (c := strict1 c) h0 vs hc
    have hr : (removeRangeFromSet (strict1 c) vs).run (strict ⟨c, c⟩) (fun _ => 0) (m.store e) =
        .ok ((S ∩ vs.toFinset).card, m'.store e) :=
      run_removeRangeFromSet (cs := strict ⟨c, c⟩) m m' vs _ _ hsz h1 (by
        rw [Finset.length_sort]; exact Finset.card_le_card Finset.inter_subset_left)
    cases cap_kept h h2 hr
    exact ⟨_, bind_unit hr, .intro h2⟩
  | contains v =>
    cases hs
    have h1 := AoS.contains_ok (c := strict1 c) h0 v
    have hr : (contains (strict1 c) v).run (strict ⟨c, c⟩) (fun _ => 0) (m.store e) = .ok (decide (v ∈ S), m.store e) :=
      (run_contains (cs := strict ⟨c, c⟩) m v).trans ((congrArg (· >>= _) h1).trans rfl)
    exact ⟨_, bind_unit hr, .intro h⟩
  | get j =>
    simp only [SetCall.step] at hs
    obtain ⟨v, hv, hs⟩ := Option.map_eq_some_iff.1 hs
    cases hs
    obtain ⟨hj, rfl⟩ := List.getElem?_eq_some_iff.1 hv
    have h1 := h0.get (c := strict1 c) j hj
    refine ⟨_, bind_unit (x := (S.sort (· ≤ ·))[j]) (s' := m.store e) ?_, .intro h⟩
    exact (run_getValue (cs := strict ⟨c, c⟩) m j).trans ((congrArg (· >>= _) h1).trans rfl)
  | size =>
    cases hs
    rw [← Finset.length_sort (· ≤ ·)]
    refine ⟨_, bind_unit (x := (S.sort (· ≤ ·)).length) (s' := m.store e) ?_, .intro h⟩
    exact (run_size (cs := strict ⟨c, c⟩) (m.store e)).trans ((congrArg (· >>= _) hsz).trans rfl)

end sets

section patterns

variable {c : Cfg}

/-- The checks of `SparsityPatternView` pass. -/
theorem run_withColumns {α : Type} {n : Nat} {cols : List Nat} (hc : ∀ k ∈ cols, k < n) (p : Code Nat V α) {s : RowStore Nat V}
    {r : Finset Nat × Nat} (hg : GoodSet s r) :
    (withColumns c n cols p).run (strict ⟨c, c⟩) (fun _ => 0) s = p.run (strict ⟨c, c⟩) (fun _ => 0) s := by
  obtain ⟨e, m, rfl, h⟩ := hg
  obtain ⟨S, cap⟩ := r
  have h0 : AGood m (([] : Layout Nat) ++ (S.sort (· ≤ ·), cap) :: []) := h
  have h1 : m.shape.checkBounds (strict ⟨c, c⟩).values 0 = .ok () := h0.shape.checkBounds (by simp)
  have h2 : cols.any (fun col => decide (n ≤ col)) = false := by
    rw [List.any_eq_false]
    intro k hk
    have := hc k hk
    simpa using this
  simp only [withColumns, bind_def, run_bind, run_checkRow, run_stopIf, AoA.store, h1, h2, bind_ok, Bool.and_false, errorIf_false]

theorem patternCode_ok (n : Nat) (call : PatCall) (s : RowStore Nat V) (r r' : Finset Nat × Nat) (o : RowOut Nat) (hg : GoodSet s r)
    (hs : call.step n r = some (r', o)) :
    ∃ s', (patternCode c n call).run (strict ⟨c, c⟩) (fun _ => 0) s = .ok (o, s') ∧ GoodSet s' r' := by
  obtain ⟨S, cap⟩ := r
  cases call with
  | insert k =>
    simp only [PatCall.step] at hs
    split at hs <;> cases hs
    rename_i hc
    obtain ⟨s', h1, h2⟩ := setCode_ok (c := c) (.insert k) s (S, cap) _ _ hg (if_pos hc.2)
    refine ⟨s', ?_, h2⟩
    rw [← h1]
    simp only [patternCode, setCode, bind_def, run_bind, run_withColumns (cols := [k]) (by simpa using hc.1) _ hg]
  | insertMany ks =>
    simp only [PatCall.step] at hs
    split at hs <;> cases hs
    rename_i hc
    obtain ⟨s', h1, h2⟩ := setCode_ok (c := c) (.insertMany ks) s (S, cap) _ _ hg (if_pos hc.2)
    refine ⟨s', ?_, h2⟩
    rw [← h1]
    simp only [patternCode, setCode, bind_def, run_bind, run_withColumns hc.1 _ hg]
  | remove k =>
    simp only [PatCall.step] at hs
    split at hs <;> cases hs
    rename_i hc
    obtain ⟨s', h1, h2⟩ := setCode_ok (c := c) (.remove k) s (S, cap) _ _ hg rfl
    refine ⟨s', ?_, h2⟩
    rw [← h1]
    simp only [patternCode, setCode, bind_def, run_bind, run_withColumns (cols := [k]) (by simpa using hc) _ hg]
  | removeMany ks =>
    simp only [PatCall.step] at hs
    split at hs <;> cases hs
    rename_i hc
    obtain ⟨s', h1, h2⟩ := setCode_ok (c := c) (.removeMany ks) s (S, cap) _ _ hg (if_pos hc.2)
    refine ⟨s', ?_, h2⟩
    rw [← h1]
    simp only [patternCode, setCode, bind_def, run_bind, run_withColumns hc.1 _ hg]
  | isEmpty k =>
    cases hs
    obtain ⟨s', h1, h2⟩ := setCode_ok (c := c) (.contains k) s (S, cap) _ _ hg rfl
    simp only [setCode, bind_def, run_bind] at h1
    obtain ⟨⟨b, s1⟩, h3, h4⟩ := bind_eq_ok.1 h1
    obtain ⟨rfl, rfl⟩ : b = decide (k ∈ S) ∧ s1 = s' := by simpa [pure, run] using h4
    refine ⟨_, ?_, h2⟩
    simp only [patternCode, bind_def, run_bind, h3, bind_ok]
    simp [pure, run]
  | getColumn j =>
    simp only [PatCall.step] at hs
    exact setCode_ok (c := c) (.get j) s (S, cap) _ _ hg hs
  | size =>
    exact setCode_ok (c := c) .size s (S, cap) _ _ hg hs

end patterns

/-! ### The container -/

theorem shared_sim {a : AoA T} {L : Layout T} (h : AGood a L) :
    Sim L.caps.length (fun i => (L.caps.take i).sum) a.shared (slices a.shared L.szs L.caps) :=
  slices_sim h.shape h.lay.room h.lay.room h.lay.lost rfl

theorem shared_rows {a : AoA T} {L : Layout T} (h : AGood a L) : Rows GoodRow (slices a.shared L.szs L.caps) L := by
  rintro i ⟨xs, cap⟩ hr
  obtain ⟨hi, h1⟩ := List.getElem?_eq_some_iff.1 hr
  refine ⟨_, ⟨_, _⟩, rfl, ?_, ?_⟩
  · have e1 : L.szs.getD i 0 = xs.length := by simp [szs, hr]
    have e2 : L.caps.getD i 0 = cap := by simp [caps, hr]
    show ShGood (rowShape _ _) [xs.length] [cap]
    rw [e1, e2]
    exact rowShape_good _ _
  · have e2 : L.caps.getD i 0 = cap := by simp [caps, hr]
    show Lay (cut a.values _ _) _
    rw [e2]
    exact cut_lay h.lay hr

theorem shared_join {a : AoA T} {L L' : Layout T} (h : AGood a L) {s' : RowStore T Unit} {F : Family T Unit}
    (hs : Sim L.caps.length (fun i => (L.caps.take i).sum) s' F) (hF : Rows GoodRow F L') (hl : L'.length = L.length)
    (hk : Kept L.caps.length (L.caps.take L.caps.length).sum a.shared s') :
    AGood s'.array L' ∧ L'.map (·.2) = L.map (·.2) := by
  have hrow : ∀ (i : Nat) r, L'[i]? = some r → i < L.caps.length := fun i r hr => by
    have := (List.getElem?_eq_some_iff.1 hr).1
    simp only [caps_length]; omega
  have hcap : ∀ (i : Nat) r, L'[i]? = some r → L.caps[i]? = some r.2 := by
    rintro i ⟨xs, cap⟩ hr
    have hi := hrow i _ hr
    obtain ⟨e, m, e1, e2⟩ := hF i _ hr
    have : cap = L.caps[i] := row_cap hs hi (n := xs.length) (by rw [e1]; exact e2.shape)
    rw [this]; simp [hi]
  have hcaps : L'.caps = L.caps := by
    apply List.ext_getElem?
    intro i
    by_cases hi : i < L'.length
    · rw [hcap i _ (List.getElem?_eq_getElem hi)]
      simp [caps, hi]
    · rw [List.getElem?_eq_none (by simp; omega), List.getElem?_eq_none (by simp; omega)]
  have hlast : (L.caps.take L.caps.length).sum = total L := by rw [List.take_length]; rfl
  refine ⟨⟨?_, ?_⟩, hcaps⟩
  · show ShGood s'.shape L'.szs L'.caps
    rw [hcaps]
    refine shape_join h.shape hs hk (by simp [hl]) ?_
    intro i n hn
    simp only [szs, List.getElem?_map, Option.map_eq_some_iff] at hn
    obtain ⟨⟨xs, cap⟩, hr, rfl⟩ := hn
    obtain ⟨e, m, e1, e2⟩ := hF i _ hr
    rw [e1]
    show m.shape.sizes.cell 0 = _
    rw [e2.shape.siz.1.1, cellsOf_lt (by simp)]
    simp [szs]
  · refine lay_join h.lay hk.valueKind hk.valueCap (fun k hk' => hk.value k (by rw [hlast]; exact hk')) hcaps ?_ ?_
    · refine hs.lostValues fun i hi => ?_
      have hi' : i < L'.length := by simp at hi; omega
      obtain ⟨e, m, e1, e2⟩ := hF i _ (List.getElem?_eq_getElem hi')
      rw [e1]; exact e2.lay.lost
    · rintro i ⟨xs, cap⟩ hr
      have hi := hrow i _ hr
      obtain ⟨e, m, e1, e2⟩ := hF i _ hr
      have hp := hs.values i hi
      have e3 : (L.caps.take (i + 1)).sum - (L.caps.take i).sum = cap := by
        rw [take_sum_succ _ hi, Nat.add_sub_cancel_left]
        have := hcap i _ hr
        rw [List.getElem?_eq_getElem hi] at this
        exact Option.some.inj this
      rw [e3, e1] at hp
      exact ⟨m.values, hp, e2.lay⟩

/-- One row can be observed whatever happens to the others. -/
theorem row_shows {n : Nat} {o : Nat → Nat} {s : RowStore T V} {M : Family T V} (hs : Sim n o s M) {i : Nat} (hi : i < n)
    {xs : List T} {cap : Nat} (hg : GoodRow (M i) (xs, cap)) :
    s.array.shape.sizeOfArray c i = .ok xs.length ∧ ∀ j (hj : j < xs.length), s.array.get c i j = .ok xs[j] := by
  obtain ⟨e, m, e1, h⟩ := hg
  have hsize : s.shape.sizes.read i = .ok xs.length := by
    have h1 := (hs.rowSize i hi).2
    rw [e1] at h1
    have h2 : m.shape.sizes.cell 0 = .live xs.length := by
      rw [h.shape.siz.1.1, cellsOf_lt (by simp)]; simp [szs]
    have h3 : s.shape.sizes.cell i = .live xs.length := h1.symm.trans h2
    unfold Buf.read
    rw [if_pos (Nat.lt_of_lt_of_le hi hs.sizeCap), h3]
  have hfit := h.lay.fits (xs, cap) (by simp)
  simp only at hfit
  have hcap : o (i + 1) - o i = cap := by
    have h1 := (hs.rowOff i hi).2
    rw [e1] at h1
    have h2 := h.shape.readOff (i := 1) (by simp)
    have h3 : (Except.ok ((Layout.caps [(xs, cap)]).take 1).sum : R Nat) = .ok (o (i + 1) - o i) := h2.symm.trans h1
    have := Except.ok.inj h3
    simp at this
    omega
  refine ⟨?_, fun j hj => ?_⟩
  · show s.shape.sizeOfArray c i = _
    unfold Shape.sizeOfArray Shape.checkBounds
    rw [hs.num]
    simp only [errorIf, ge_iff_le, Nat.not_le.2 hi, decide_false, Bool.and_false, Bool.false_eq_true, if_false]
    exact hsize
  · have hp := hs.values i hi
    rw [hcap, e1] at hp
    have hc := hp.cell j (by omega)
    have hl : m.values.cell j = .live xs[j] := by
      rw [h.lay.cell]; simp only [cells]; rw [if_pos (by omega), cellsOf_lt hj]
    have hf := hp.fits
    unfold AoA.get
    have hb : s.array.shape.checkBounds2 c i j = .ok () := by
      unfold Shape.checkBounds2
      split
      · rw [if_neg (by show ¬ s.shape.numArrays ≤ i; rw [hs.num]; omega)]
        show (s.shape.sizes.read i >>= _) = _
        rw [hsize, bind_ok]
        simp [errorIf, hj]
      · rfl
    rw [hb, bind_ok]
    show (s.shape.offsets.read i >>= _) = _
    rw [hs.off i (by omega), bind_ok]
    show s.values.read (o i + j) = _
    unfold Buf.read
    rw [if_pos (by omega), ← hc, show (AoA.store e m).values.cell j = .live xs[j] from hl]

end LvArray.Parallel

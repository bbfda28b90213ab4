import Verif.PyRows
import Verif.AoSLemmas
import Verif.SortedArrayLemmas

/-!
# `pylvarray.SortedArray` and `pylvarray.ArrayOfSets` refine finite sets
-/

namespace LvArray.Python

open Spec Layout

variable {T : Type} [LinearOrder T] [Inhabited T] {c : Cfg}

/-! ## `SortedArray` -/

/-- The window is the whole set. -/
def SortedVal (a : SortedArr T) (win : Window) (_ : Unit) : Prop :=
  win = { start := 0, dims := [a.size], strides := [1], writeable := false }

theorem sorted_meets (level : Int) {a : SortedArr T} {S : Finset T} (h : SGood none a S) (m : SortedArrayM T) (out)
    (hs : pySortedCall level S m = some out) :
    Meets (K := sortedArray T) (A := pySorted T) (SGood none) SortedVal a (sortedArrayCall c level a m) out := by
  cases m with
  | toNumPy => cases hs; exact ⟨_, rfl, by rw [h.size], rfl, rfl⟩
  | insert vs =>
    cases vs with
    | none =>
      simp only [pySortedCall] at hs
      simp only [sortedArrayCall]
      rcases resizing_some hs with ⟨hl, rfl⟩ | ⟨hl, hs⟩
      · rw [if_pos hl]; rfl
      · rw [if_neg hl]; cases hs; rfl
    | some vs =>
      simp only [pySortedCall] at hs
      simp only [sortedArrayCall]
      rcases resizing_some hs with ⟨hl, rfl⟩ | ⟨hl, hs⟩
      · rw [if_pos hl]; rfl
      rw [if_neg hl]
      split at hs
      · rename_i hv
        cases hs
        obtain ⟨a', h1, h2⟩ := SortedArr.insertMany_good c h vs hv (by simp [fits])
        rw [h1, bind_ok]
        exact ⟨a', rfl, h2, fun hh => by cases hh⟩
      · cases hs
  | remove vs =>
    cases vs with
    | none =>
      simp only [pySortedCall] at hs
      simp only [sortedArrayCall]
      rcases resizing_some hs with ⟨hl, rfl⟩ | ⟨hl, hs⟩
      · rw [if_pos hl]; rfl
      · rw [if_neg hl]; cases hs; rfl
    | some vs =>
      simp only [pySortedCall] at hs
      simp only [sortedArrayCall]
      rcases resizing_some hs with ⟨hl, rfl⟩ | ⟨hl, hs⟩
      · rw [if_pos hl]; rfl
      rw [if_neg hl]
      split at hs
      · rename_i hv
        cases hs
        obtain ⟨a', h1, h2⟩ := SortedArr.removeMany_good c h vs hv
        rw [h1, bind_ok]
        exact ⟨a', rfl, h2, fun hh => by cases hh⟩
      · cases hs

theorem sorted_refines : Refines c (pySorted T) (SGood none) SortedVal := by
  refine Refines.of_meets rfl (fun {level w s m out} h hs => sorted_meets level h m out hs) ?_ ?_ ?_
  · intro (a : SortedArr T) (S : Finset T) win _ idx h hv hg
    have hv : win = _ := hv
    rw [hv, SGood.size h]
    have := nth_none (xs := S.sort (· ≤ ·)) hg
    rwa [Finset.length_sort] at this
  · intro (a : SortedArr T) (S : Finset T) win _ idx x h hv hg
    have hv : win = _ := hv
    obtain ⟨j, rfl, hj, rfl⟩ := nth_some (xs := S.sort (· ≤ ·)) hg
    rw [hv, SGood.size h]
    refine ⟨(inside_one _ _).2 ⟨j, by simpa using hj, rfl⟩, fun v hv => ?_⟩
    cases hv
    rw [offset_one]
    simp only [Nat.zero_add]
    exact SortedArr.read_good h j hj
  · intro (a : SortedArr T) (S : Finset T) win _ idx x v h hv hw hg
    have hv : win = _ := hv
    rw [hv] at hw
    cases hw

/-! ## `ArrayOfSets` -/

/-- The window is set `i`. -/
def SetsVal (c : Cfg) (a : AoA T) (win : Window) (i : Nat) : Prop := RowsVal c a win i ∧ win.writeable = false

theorem SetsGood.rowsRel {a : AoA T} {sets : List (Finset T)} (h : SetsGood a sets) : RowsRel a (sets.map (·.sort (· ≤ ·))) := h

theorem SetsGood.num {a : AoA T} {sets : List (Finset T)} (h : SetsGood a sets) : a.shape.numArrays = sets.length := by
  have := (SetsGood.rowsRel h).num
  simpa using this

theorem sets_step (ht : c.trivial = true) {a : AoA T} {sets sets' : List (Finset T)} (h : SetsGood a sets) (op : AoSOp T) {out}
    (hs : aosStep sets op = some (sets', out)) : ∃ a', AoS.step c a op = .ok (a', out) ∧ SetsGood a' sets' := by
  rcases AoS.step_ok (c := c) h op sets' out hs with h1 | ⟨h1, -⟩
  · exact h1
  · rw [ht] at h1; cases h1

theorem sets_meets (ht : c.trivial = true) (level : Int) {a : AoA T} {sets : List (Finset T)} (h : SetsGood a sets)
    (m : ArrayOfSetsM T) (out) (hs : pySetsCall level sets m = some out) :
    Meets (K := arrayOfSets T) (A := pySets T) SetsGood (SetsVal c) a (arrayOfSetsCall c level a m) out := by
  have hn := SetsGood.num h
  cases m with
  | len => cases hs; show done _ _ = _; rw [hn]; rfl
  | getItem i =>
    simp only [pySetsCall] at hs
    simp only [arrayOfSetsCall, hn]
    split at hs
    · rename_i hi
      cases hs
      rw [if_neg (fun hh => not_isIndex.2 hh hi)]
      have hlt : i.toNat < sets.length := by unfold isIndex at hi; omega
      have hr := SetsGood.rowsRel h
      have hlt' : i.toNat < (sets.map (·.sort (· ≤ ·))).length := by simpa using hlt
      obtain ⟨A, cap, B, hA, hg, -⟩ := hr.at_ hlt'
      have e1 := hr.sizeOf (c := c) hlt'
      have e2 : a.ptr i.toNat = .ok (total A) := by rw [← hA]; exact hg.ptr
      simp only [List.getElem_map, Finset.length_sort] at e1
      rw [e1, bind_ok, e2, bind_ok, getD_of_lt _ _ hlt]
      exact ⟨_, rfl, rfl, rfl, ⟨by rw [hn]; exact hlt, _, _, e1, e2, rfl, rfl, rfl⟩, rfl⟩
    · rename_i hi
      cases hs
      rw [if_pos (not_isIndex.1 hi)]
      rfl
  | delItem i =>
    simp only [pySetsCall] at hs
    simp only [arrayOfSetsCall, hn]
    rcases resizing_some hs with ⟨hl, rfl⟩ | ⟨hl, hs⟩
    · rw [if_pos hl]; rfl
    rw [if_neg hl]
    split at hs
    · rename_i hi
      cases hs
      rw [if_neg (fun hh => not_isIndex.2 hh hi)]
      have hlt : i.toNat < sets.length := by unfold isIndex at hi; omega
      obtain ⟨a', h1, h2⟩ := sets_step ht h (.eraseSet i.toNat) (by simp only [aosStep, if_pos hlt]; rfl)
      simp only [AoS.step] at h1
      obtain ⟨a1, h3, h4⟩ := bind_eq_ok.1 h1
      cases h4
      rw [h3, bind_ok]
      exact ⟨_, rfl, h2, fun hh => by cases hh⟩
    · rename_i hi
      cases hs
      rw [if_pos (not_isIndex.1 hi)]
      rfl
  | setItem i =>
    simp only [pySetsCall] at hs
    simp only [arrayOfSetsCall]
    rcases resizing_some hs with ⟨hl, rfl⟩ | ⟨hl, hs⟩
    · rw [if_pos hl]; rfl
    · rw [if_neg hl]; cases hs; rfl
  | insertInto i vs =>
    simp only [pySetsCall] at hs
    simp only [arrayOfSetsCall, hn]
    rcases resizing_some hs with ⟨hl, rfl⟩ | ⟨hl, hs⟩
    · rw [if_pos hl]; rfl
    rw [if_neg hl]
    split at hs
    · rename_i hi
      rw [if_neg (fun hh => not_isIndex.2 hh hi)]
      have hlt : i.toNat < sets.length := by unfold isIndex at hi; omega
      cases vs with
      | none => cases hs; rfl
      | some vs =>
        simp only [getD_of_lt _ _ hlt] at hs ⊢
        split at hs
        · rename_i hv
          cases hs
          obtain ⟨a', h1, h2⟩ := sets_step ht h (.insertMany i.toNat vs)
            (by simp only [aosStep, if_pos hv, onSet, List.getElem?_eq_getElem hlt]; rfl)
          simp only [AoS.step] at h1
          obtain ⟨⟨a1, n1⟩, h3, h4⟩ := bind_eq_ok.1 h1
          cases h4
          rw [h3, bind_ok]
          exact ⟨_, rfl, h2, fun hh => by cases hh⟩
        · cases hs
    · rename_i hi
      cases hs
      rw [if_pos (not_isIndex.1 hi)]
      rfl
  | insert i k =>
    simp only [pySetsCall] at hs
    simp only [arrayOfSetsCall, hn]
    rcases resizing_some hs with ⟨hl, rfl⟩ | ⟨hl, hs⟩
    · rw [if_pos hl]; rfl
    rw [if_neg hl]
    split at hs
    · rename_i hi
      unfold isIndex at hi
      rw [if_neg (by omega)]
      split at hs
      · rename_i hk
        cases hs
        rw [if_pos hk]; rfl
      · rename_i hk
        cases hs
        rw [if_neg hk]
        obtain ⟨a', h1, h2⟩ := sets_step ht h (.insertSet i.toNat k.toNat)
          (by simp only [aosStep]; rw [if_pos (by omega)])
        simp only [AoS.step] at h1
        obtain ⟨a1, h3, h4⟩ := bind_eq_ok.1 h1
        cases h4
        rw [h3, bind_ok]
        exact ⟨_, rfl, h2, fun hh => by cases hh⟩
    · rename_i hi
      cases hs
      unfold isIndex at hi
      rw [if_pos (by omega)]
      rfl
  | eraseFrom i vs =>
    simp only [pySetsCall] at hs
    simp only [arrayOfSetsCall, hn]
    rcases resizing_some hs with ⟨hl, rfl⟩ | ⟨hl, hs⟩
    · rw [if_pos hl]; rfl
    rw [if_neg hl]
    split at hs
    · rename_i hi
      rw [if_neg (fun hh => not_isIndex.2 hh hi)]
      have hlt : i.toNat < sets.length := by unfold isIndex at hi; omega
      cases vs with
      | none =>
        cases hs
        obtain ⟨a', h1, h2⟩ := sets_step ht h (.removeMany i.toNat [])
          (by simp only [aosStep, sortedUnique, List.Pairwise.nil, if_true, onSet, List.getElem?_eq_getElem hlt]; rfl)
        simp only [AoS.step] at h1
        obtain ⟨⟨a1, n1⟩, h3, h4⟩ := bind_eq_ok.1 h1
        simp only [Option.getD_none]
        rw [h3, bind_ok]
        rfl
      | some vs =>
        simp only [getD_of_lt _ _ hlt] at hs ⊢
        split at hs
        · rename_i hv
          cases hs
          obtain ⟨a', h1, h2⟩ := sets_step ht h (.removeMany i.toNat vs)
            (by simp only [aosStep, if_pos hv, onSet, List.getElem?_eq_getElem hlt]; rfl)
          simp only [AoS.step] at h1
          obtain ⟨⟨a1, n1⟩, h3, h4⟩ := bind_eq_ok.1 h1
          cases h4
          simp only [Option.getD_some]
          rw [h3, bind_ok]
          exact ⟨_, rfl, h2, fun hh => by cases hh⟩
        · cases hs
    · rename_i hi
      cases hs
      rw [if_pos (not_isIndex.1 hi)]
      rfl

theorem sets_refines (ht : c.trivial = true) : Refines c (pySets T) SetsGood (SetsVal c) := by
  refine Refines.of_meets rfl (fun {level w s m out} h hs => sets_meets ht level h m out hs) ?_ ?_ ?_
  · intro (a : AoA T) (sets : List (Finset T)) win (i : Nat) idx h hv hg
    have hi : i < sets.length := by rw [← SetsGood.num h]; exact hv.1.1
    refine (rows_refines ht).outside (s := (sets.map (fun S => S.sort (· ≤ ·)) : List (List T))) (SetsGood.rowsRel h) hv.1 ?_
    have hg : nth ((sets.getD i ∅).sort (· ≤ ·)) idx = none := hg
    show nth ((sets.map (·.sort (· ≤ ·))).getD i []) idx = none
    rw [getD_of_lt _ _ hi] at hg
    rw [getD_of_lt _ _ (by simpa using hi)]
    simpa using hg
  · intro (a : AoA T) (sets : List (Finset T)) win (i : Nat) idx x h hv hg
    have hi : i < sets.length := by rw [← SetsGood.num h]; exact hv.1.1
    refine (rows_refines ht).read (s := (sets.map (fun S => S.sort (· ≤ ·)) : List (List T))) (SetsGood.rowsRel h) hv.1 ?_
    have hg : nth ((sets.getD i ∅).sort (· ≤ ·)) idx = some x := hg
    show nth ((sets.map (·.sort (· ≤ ·))).getD i []) idx = some x
    rw [getD_of_lt _ _ hi] at hg
    rw [getD_of_lt _ _ (by simpa using hi)]
    simpa using hg
  · intro (a : AoA T) (sets : List (Finset T)) win (i : Nat) idx x v h hv hw hg
    have := hv.2
    rw [this] at hw
    cases hw

end LvArray.Python

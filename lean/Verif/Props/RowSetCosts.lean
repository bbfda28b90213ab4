import Verif.CountedRowSetsLemmas
import Verif.Props.Costs

/-!
# C79: what changing one row of an `ArrayOfSets`, a `SparsityPattern` or a `CRSMatrix` costs

`CostsAtMost m x n` (Spec/Costs.lean) says that the program `m`, which is `x` with a counter of the accesses to elements, sizes and
offsets, gives what `x` gives, and that whenever it returns it has counted at most `n` accesses.
-/

namespace LvArray.Props

open LvArray LvArray.Spec LvArray.Layout LvArray.Counted

set_option linter.unusedSectionVars false

/-- `capacityOfArray( i )`, which is called `capacityOfSet( i )` and `nonZeroCapacity( i )` too, reports `caps[ i ]` for every row. -/
def ReportsCapacities (c : Cfg) (s : Shape) (caps : List Nat) : Prop :=
  caps.length = s.numArrays ∧ ∀ i (hi : i < caps.length), s.capacityOfArray c i = .ok caps[i]

theorem caps_of_reports {X : Type} {c : Cfg} {s : Shape} {L : Layout X} (h : LShape s L) {caps : List Nat} (hr : ReportsCapacities c s caps) :
    L.map (·.2) = caps := by
  obtain ⟨h1, h2⟩ := hr
  rw [h.num] at h1
  have h1' : caps.length = L.length := by simpa using h1
  refine List.ext_getElem (by simp [h1']) (fun i hi hi' => ?_)
  have e := h2 i hi'
  have hL : i < L.length := by simpa using hi
  obtain ⟨A, xs, cap, B, rfl, rfl, e1⟩ := split1 hL
  rw [h.capacityOfAt rfl] at e
  cases e
  simp [e1]

/-- Rows report their capacities. -/
theorem reports_exist {X : Type} (c : Cfg) {s : Shape} {L : Layout X} (h : LShape s L) : ReportsCapacities c s (L.map (·.2)) := by
  refine ⟨by rw [h.num]; simp, fun i hi => ?_⟩
  have hL : i < L.length := by simpa using hi
  obtain ⟨A, xs, cap, B, rfl, rfl, e1⟩ := split1 hL
  rw [h.capacityOfAt rfl]
  simp

/-! ### Sets -/

variable {T : Type} [LinearOrder T] [Inhabited T]

theorem at_capacities {c : Cfg} {a : AoA T} {sets : List (Finset T)} (h : ReachSets c a sets) {caps : List Nat}
    (hr : ReportsCapacities c a.shape caps) {i : Nat} (hi : i < sets.length) (hi' : i < caps.length) :
    ∃ A cap B, A.length = i ∧ AGood a (A ++ (sets[i].sort (· ≤ ·), cap) :: B) ∧ cap = caps[i] ∧
      (A ++ (sets[i].sort (· ≤ ·), cap) :: B).length = sets.length ∧ Layout.total (A ++ (sets[i].sort (· ≤ ·), cap) :: B) = caps.sum := by
  have hg := reachSets_good h
  have hn := (showsSets_of_good (c := c) hg).1
  obtain ⟨A, cap, B, rfl, hg, -⟩ := hg.at (List.getElem?_eq_getElem hi)
  have e := caps_of_reports hg.shape hr
  refine ⟨A, cap, B, rfl, hg, ?_, ?_, ?_⟩
  · simp [← e]
  · rw [← hn, hg.shape.num]
  · rw [← e]; rfl

/-- **C79 (sets, with room).** In a build without assertions, changing set `i` of an `ArrayOfSets`, of `n` elements, costs what it costs
for a `SortedArray` of `n` elements, whatever the other sets are: looking up a value is logarithmic in `n`, inserting a value into a set
with room, removing a value and clearing the set are linear, and inserting `m` values with room or removing them takes a search for each
value and one pass over the set. -/
theorem C79_sets_with_room (c : Cfg) (hc : c.debug = false) {a : AoA T} {sets : List (Finset T)} (h : ReachSets c a sets) {caps : List Nat}
    (hr : ReportsCapacities c a.shape caps) (i : Nat) (hi : i < sets.length) (hi' : i < caps.length) (v : T) (vs : List T) :
    CostsAtMost (Counted.AoS.contains c a i v) (AoS.contains c a i v) (Nat.log2 (2 * sets[i].card) + 3) ∧
    (sets[i].card < caps[i] →
      CostsAtMost (Counted.AoS.insertIntoSet c (AoS.growing c i) (Counted.AoS.growing c i) a i v) (AoS.insertIntoSet c (AoS.growing c i) a i v)
        (Nat.log2 (2 * sets[i].card) + 2 * sets[i].card + 10)) ∧
    (sets[i].card + vs.length ≤ caps[i] →
      CostsAtMost (Counted.AoS.insertRangeIntoSet c (AoS.growing c i) (Counted.AoS.growing c i) a i vs)
        (AoS.insertRangeIntoSet c (AoS.growing c i) a i vs)
        (vs.length * (2 * Nat.log2 (2 * sets[i].card) + 3) + 2 * sets[i].card + 6)) ∧
    CostsAtMost (Counted.AoS.removeFromSet c a i v) (AoS.removeFromSet c a i v) (Nat.log2 (2 * sets[i].card) + sets[i].card + 5) ∧
    CostsAtMost (Counted.AoS.removeRangeFromSet c a i vs) (AoS.removeRangeFromSet c a i vs)
      (vs.length * (Nat.log2 (2 * sets[i].card) + 2) + sets[i].card + 3) ∧
    CostsAtMost (Counted.AoS.clearSet c a i) (AoS.clearSet c a i) (sets[i].card + 3) := by
  obtain ⟨A, cap, B, rfl, hg, rfl, -, -⟩ := at_capacities h hr hi hi'
  have hl : (sets[A.length].sort (· ≤ ·)).length = sets[A.length].card := by simp
  generalize hS : sets[A.length] = S at *
  rw [← hl]
  refine ⟨costs_rowContains hc hg v, fun hlt => ?_, fun hlt => ?_, costs_removeFromSet hc hg v, costs_removeRangeFromSet hc hg vs,
    costs_clearSet hg⟩
  · refine (costs_insertIntoSet hc hg (costs_growing hg 1) v).weaken (by omega) ?_
    unfold roomCost; rw [if_neg (by omega)]
  · refine (costs_insertRangeIntoSet hc hg vs (costs_growing hg vs.length)).weaken (by omega) ?_
    unfold roomCost; rw [if_neg (by omega)]

/-- **C79 (sets, without room).** Otherwise there is an added cost that is linear in the number of sets and the sum of the capacities. -/
theorem C79_sets_without_room (c : Cfg) (hc : c.debug = false) {a : AoA T} {sets : List (Finset T)} (h : ReachSets c a sets)
    {caps : List Nat} (hr : ReportsCapacities c a.shape caps) (i : Nat) (hi : i < sets.length) (v : T) (vs : List T) :
    CostsAtMost (Counted.AoS.insertIntoSet c (AoS.growing c i) (Counted.AoS.growing c i) a i v) (AoS.insertIntoSet c (AoS.growing c i) a i v)
      (Nat.log2 (2 * sets[i].card) + 2 * sets[i].card + 16 + 4 * sets.length + 4 * caps.sum) ∧
    CostsAtMost (Counted.AoS.insertRangeIntoSet c (AoS.growing c i) (Counted.AoS.growing c i) a i vs)
      (AoS.insertRangeIntoSet c (AoS.growing c i) a i vs)
      (vs.length * (2 * Nat.log2 (2 * sets[i].card) + 3) + 2 * sets[i].card + 12 + 4 * sets.length + 4 * caps.sum) := by
  have hi' : i < caps.length := by
    rw [hr.1, (showsSets_of_good (c := c) (reachSets_good h)).1]; exact hi
  obtain ⟨A, cap, B, rfl, hg, -, e1, e2⟩ := at_capacities h hr hi hi'
  have hl : (sets[A.length].sort (· ≤ ·)).length = sets[A.length].card := by simp
  generalize hS : sets[A.length] = S at *
  rw [← hl]
  have hle : ∀ (p : Prop) [Decidable p], roomCost (A ++ (S.sort (· ≤ ·), cap) :: B) p ≤ 6 + 4 * sets.length + 4 * caps.sum := by
    intro p _
    have := roomCost_le (A ++ (S.sort (· ≤ ·), cap) :: B) p
    rwa [e1, e2] at this
  refine ⟨(costs_insertIntoSet hc hg (costs_growing hg 1) v).weaken (by omega) ?_,
    (costs_insertRangeIntoSet hc hg vs (costs_growing hg vs.length)).weaken (by omega) ?_⟩
  · have := hle (cap < (S.sort (· ≤ ·)).length + 1); omega
  · have := hle (cap < (S.sort (· ≤ ·)).length + vs.length); omega

/-- **C79 (views of sets).** A view never makes room: inserting through it never costs more than with room, whatever the capacities. -/
theorem C79_views_of_sets (c : Cfg) (hc : c.debug = false) {a : AoA T} {sets : List (Finset T)} (h : ReachSets c a sets) (i : Nat)
    (hi : i < sets.length) (v : T) (vs : List T) :
    CostsAtMost (Counted.AoS.insertIntoSet c (AoS.checking c i) (Counted.AoS.checking c i) a i v) (AoS.insertIntoSet c (AoS.checking c i) a i v)
      (Nat.log2 (2 * sets[i].card) + 2 * sets[i].card + 10) ∧
    CostsAtMost (Counted.AoS.insertRangeIntoSet c (AoS.checking c i) (Counted.AoS.checking c i) a i vs)
      (AoS.insertRangeIntoSet c (AoS.checking c i) a i vs)
      (vs.length * (2 * Nat.log2 (2 * sets[i].card) + 3) + 2 * sets[i].card + 6) := by
  obtain ⟨A, cap, B, rfl, hg, -⟩ := (reachSets_good h).at (List.getElem?_eq_getElem hi)
  have hl : (sets[A.length].sort (· ≤ ·)).length = sets[A.length].card := by simp
  rw [← hl]
  exact ⟨costs_insertIntoSet hc hg (fun n _ => costs_checking _ n) v, costs_insertRangeIntoSet hc hg vs (fun n _ => costs_checking _ n)⟩

-- three sets: one with 4 elements and room for 4 more, one with 4 elements that is full, one with 2 elements
example : (AoA.mk' costRelease 1 8 >>= fun a => AoS.run (T := Nat) costRelease a
      [.insertMany 0 [1, 3, 5, 7], .appendSet 4, .insertMany 1 [2, 4, 6, 8], .appendSet 2, .insertMany 2 [10, 20]]).toOption.map (fun r =>
    [countOf (Counted.AoS.contains costRelease r.1 0 5),
     countOf (Counted.AoS.insertIntoSet costRelease (AoS.growing costRelease 0) (Counted.AoS.growing costRelease 0) r.1 0 0),
     countOf (Counted.AoS.insertIntoSet costRelease (AoS.growing costRelease 1) (Counted.AoS.growing costRelease 1) r.1 1 1),
     countOf (Counted.AoS.insertRangeIntoSet costRelease (AoS.growing costRelease 0) (Counted.AoS.growing costRelease 0) r.1 0 [2, 9]),
     countOf (Counted.AoS.removeFromSet costRelease r.1 1 2),
     countOf (Counted.AoS.removeRangeFromSet costRelease r.1 1 [2, 6]),
     countOf (Counted.AoS.clearSet costRelease r.1 1)]) =
    some [some 5, some 14, some 27, some 24, some 11, some 14, some 7] := by decide +kernel

/-! ### Patterns -/

/-- **C79 (patterns).** The same for a row of a `SparsityPattern`. -/
theorem C79_patterns (c : Cfg) (hc : c.debug = false) (ht : c.trivial = true) {colMax : Nat} {s : Sp} {P : Pattern}
    (h : ReachPattern c colMax s P) {caps : List Nat} (hr : ReportsCapacities c s.sets.shape caps) (i : Nat) (hi : i < P.rows.length)
    (hi' : i < caps.length) (col : Nat) (cols : List Nat) :
    CostsAtMost (Counted.Sp.insertNonZero c s i col) (s.insertNonZero c i col)
      (Nat.log2 (2 * P.rows[i].card) + 2 * P.rows[i].card + 10 +
        if P.rows[i].card < caps[i] then 0 else 6 + 4 * P.rows.length + 4 * caps.sum) ∧
    CostsAtMost (Counted.Sp.insertNonZeros c s i cols) (s.insertNonZeros c i cols)
      (cols.length * (2 * Nat.log2 (2 * P.rows[i].card) + 3) + 2 * P.rows[i].card + 6 +
        if P.rows[i].card + cols.length ≤ caps[i] then 0 else 6 + 4 * P.rows.length + 4 * caps.sum) ∧
    CostsAtMost (Counted.Sp.removeNonZero c s i col) (s.removeNonZero c i col)
      (Nat.log2 (2 * P.rows[i].card) + P.rows[i].card + 5) ∧
    CostsAtMost (Counted.Sp.removeNonZeros c s i cols) (s.removeNonZeros c i cols)
      (cols.length * (Nat.log2 (2 * P.rows[i].card) + 2) + P.rows[i].card + 3) := by
  have hsets := (reachPattern_good ht h).sets
  have hn := (showsSets_of_good (c := c) hsets).1
  obtain ⟨A, cap, B, rfl, hg, -⟩ := hsets.at (List.getElem?_eq_getElem hi)
  have e := caps_of_reports hg.shape hr
  have e0 : cap = caps[A.length] := by simp [← e]
  have e1 : (A ++ (P.rows[A.length].sort (· ≤ ·), cap) :: B).length = P.rows.length := by rw [← hn, hg.shape.num]
  have e2 : Layout.total (A ++ (P.rows[A.length].sort (· ≤ ·), cap) :: B) = caps.sum := by rw [← e]; rfl
  have hl : (P.rows[A.length].sort (· ≤ ·)).length = P.rows[A.length].card := by simp
  rw [← e0]
  generalize hS : P.rows[A.length] = S at *
  rw [← hl]
  refine ⟨?_, ?_, ?_, ?_⟩
  · refine ((costs_insertIntoSet hc hg (costs_spGrowing hg s.numCols 1) col).bindPure).weaken (by omega) ?_
    unfold roomCost
    rw [e1, e2]
    split <;> split <;> omega
  · refine ((costs_insertRangeIntoSet hc hg cols (costs_spGrowing hg s.numCols cols.length)).bindPure).weaken (by omega) ?_
    unfold roomCost
    rw [e1, e2]
    split <;> split <;> omega
  · exact Costs.thenFree (Costs.thenFree ((costs_removeFromSet hc hg col).bindPure))
  · exact Costs.thenFree (Costs.thenFree ((costs_removeRangeFromSet hc hg cols).bindPure))

-- two rows, of two and one columns, the first full
example : (Sp.mk' costRelease 100 2 8 2 >>= fun s => Sp.run costRelease 100 s [.insertMany 0 [1, 5], .insert 1 7]).toOption.map (fun r =>
    [countOf (Counted.Sp.insertNonZero costRelease r.1 0 3), countOf (Counted.Sp.insertNonZero costRelease r.1 1 3),
     countOf (Counted.Sp.insertNonZeros costRelease r.1 0 [0, 6]), countOf (Counted.Sp.removeNonZero costRelease r.1 0 1),
     countOf (Counted.Sp.removeNonZeros costRelease r.1 0 [1, 5])]) = some [some 33, some 11, some 38, some 8, some 11] := by decide +kernel

/-! ### Matrices -/

/-- **C79 (matrices).** The same for a row of a `CRSMatrix` with `n` non zeros, with about twice as many accesses, because entries are
moved along with the columns.  `owning` distinguishes the `CRSMatrix` itself from a `CRSMatrixView`, which never makes room. -/
theorem C79_matrices {V : Type} [Add V] (c : Cfg) (hc : c.debug = false) {colMax : Nat} {m : Crs V} {M : Spec.Matrix V}
    (h : ReachMatrix c colMax m M) {caps : List Nat} (hr : ReportsCapacities c m.shape caps) (i : Nat) (hi : i < M.rows.length)
    (hi' : i < caps.length) (n : Nat) (hn : m.shape.sizeOfArray c i = .ok n) (owning : Bool) (col : Nat) (v : V) (cols : List Nat) (vs : List V) :
    CostsAtMost (Counted.Crs.insertNonZero c owning m i col v) (m.insertNonZero c owning i col v)
      (Nat.log2 (2 * n) + 4 * n + 10 + if owning = false ∨ n < caps[i] then 0 else 6 + 6 * M.rows.length + 8 * caps.sum) ∧
    CostsAtMost (Counted.Crs.insertNonZeros c owning m i cols vs) (m.insertNonZeros c owning i cols vs)
      (cols.length * (2 * Nat.log2 (2 * n) + 4) + 4 * n + 5 +
        if owning = false ∨ n + cols.length ≤ caps[i] then 0 else 6 + 6 * M.rows.length + 8 * caps.sum) ∧
    CostsAtMost (Counted.Crs.removeNonZero c m i col) (m.removeNonZero c i col) (Nat.log2 (2 * n) + 2 * n + 8) ∧
    CostsAtMost (Counted.Crs.removeNonZeros c m i cols) (m.removeNonZeros c i cols)
      (cols.length * (Nat.log2 (2 * n) + 3) + 2 * n + 5) := by
  have hG := reachMatrix_good h
  have hN := (showsMatrix_of_good (c := c) hG).2.1
  obtain ⟨A, cap, B, rfl, hg, -, -⟩ := hG.at_ (List.getElem?_eq_getElem hi)
  have hs : m.shape.sizeOfArray c A.length = .ok (rowList M.numCols M.rows[A.length]).length := hg.shape.sizeOfAt rfl
  rw [hs] at hn
  cases hn
  have e := caps_of_reports hg.shape hr
  have e0 : cap = caps[A.length] := by simp [← e]
  have e1 : (A ++ (rowList M.numCols M.rows[A.length], cap) :: B).length = M.rows.length := by rw [← hN, hg.shape.num]
  have e2 : Layout.total (A ++ (rowList M.numCols M.rows[A.length], cap) :: B) = caps.sum := by rw [← e]; rfl
  rw [← e0]
  refine ⟨?_, ?_, costs_crsRemoveNonZero hc hg col, costs_crsRemoveNonZeros hc hg cols⟩
  · refine (costs_crsInsertNonZero hc hg owning col v).weaken (by omega) ?_
    unfold crsRoomCost
    rw [e1, e2]
    cases owning <;> simp only [Bool.false_eq_true, false_and, if_false, true_and, true_or, if_true, Bool.true_eq_false, false_or] <;>
      (repeat' split) <;> omega
  · refine (costs_crsInsertNonZeros hc hg owning cols vs).weaken (by omega) ?_
    unfold crsRoomCost
    rw [e1, e2]
    cases owning <;> simp only [Bool.false_eq_true, false_and, if_false, true_and, true_or, if_true, Bool.true_eq_false, false_or] <;>
      (repeat' split) <;> omega

-- two rows: the first with four non zeros and room for one more, the second full
example : ((Crs.mk' costRelease 100 2 8 5 : R (Crs Nat)) >>= fun m =>
      Crs.run costRelease 100 m [.insertMany 0 [(1, 10), (3, 30), (5, 50), (7, 70)],
        .insertMany 1 [(1, 10), (2, 20), (3, 30), (4, 40), (5, 50)]]).toOption.map (fun r =>
    [countOf (Counted.Crs.insertNonZero costRelease true r.1 0 0 9), countOf (Counted.Crs.insertNonZero costRelease true r.1 1 0 9),
     countOf (Counted.Crs.insertNonZeros costRelease true r.1 0 [0, 6] [9, 9]), countOf (Counted.Crs.removeNonZero costRelease r.1 0 1),
     countOf (Counted.Crs.removeNonZeros costRelease r.1 0 [1, 5])]) = some [some 19, some 67, some 105, some 17, some 20] := by decide +kernel

/-- The hypotheses are met: of every row the capacity is reported. -/
example (c : Cfg) (ht : c.trivial = true) : ∃ (m : Crs Nat) (M : Spec.Matrix Nat) (caps : List Nat), ReachMatrix c 100 m M ∧
    ReportsCapacities c m.shape caps ∧ 0 < M.rows.length := by
  obtain ⟨m, M, h, hm⟩ := reachMatrix_example c ht
  obtain ⟨L, hg, -⟩ := (reachMatrix_good h).rows
  exact ⟨m, M, _, h, reports_exist c hg.shape, by have := congrArg List.length hm.2; simp at this; omega⟩

end LvArray.Props

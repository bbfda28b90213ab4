import Verif.CountedRowSets
import Verif.CountedSorted
import Verif.CountedRows
import Verif.CrsLemmas

/-!
# What the operations on a row of an `ArrayOfSets`, a `SparsityPattern` or a `CRSMatrix` cost

Helper lemmas.
-/

namespace LvArray.Counted

open LvArray.Spec Layout

/-! ## Sets -/

section sets
variable {T : Type} {c : Cfg} {a : AoA T} {A B : Layout T} {xs : List T} {cap : Nat}

theorem cheapSet {inc : AoA T → Nat → R (AoA T)} {cinc : AoA T → Nat → Counted (AoA T)} {i most size grow : Nat}
    (h : ∀ n, n ≤ most → Costs (cinc a n) (inc a n) 0 grow) : CheapCallBacks (AoS.target inc cinc i) a most size 0 grow where
  incrementSize := h
  insert := fun b _ => (costs_pure b).weaken (by omega) (by omega)
  set := fun b _ _ => costs_pure b
  insertMany := fun b _ _ _ _ => (costs_pure b).weaken (by omega) (by omega)
  remove := fun b _ => (costs_pure b).weaken (by omega) (by omega)
  removeMany := fun b _ _ _ => (costs_pure b).weaken (by omega) (by omega)

theorem roomCost_mono (L : Layout T) {p q : Prop} [Decidable p] [Decidable q] (h : p → q) : roomCost L p ≤ roomCost L q := by
  unfold roomCost
  by_cases hp : p
  · rw [if_pos hp, if_pos (h hp)]
  · rw [if_neg hp]; omega

theorem costs_growing (h : AGood a (A ++ (xs, cap) :: B)) (most : Nat) : ∀ n, n ≤ most →
    Costs (AoS.growing c A.length a n) (LvArray.AoS.growing c A.length a n) 0
      (3 + roomCost (A ++ (xs, cap) :: B) (cap < xs.length + most)) := fun n hn =>
  (costs_dynamicallyGrowArray h n).weaken (by omega) (by
    have := roomCost_mono (A ++ (xs, cap) :: B) (p := cap < xs.length + n) (q := cap < xs.length + most) (by omega)
    omega)

theorem costs_checking (i : Nat) : ∀ n, Costs (AoS.checking c i a n) (LvArray.AoS.checking c i a n) 0 3 := fun n =>
  (costs_capacityCheck c a.shape i n).bindPure

theorem costs_spGrowing {a : AoA Nat} {A B : Layout Nat} {xs : List Nat} (h : AGood a (A ++ (xs, cap) :: B)) (numCols most : Nat) : ∀ n, n ≤ most →
    Costs (Sp.growing c numCols A.length a n) (LvArray.Sp.growing c numCols A.length a n) 0
      (3 + roomCost (A ++ (xs, cap) :: B) (cap < xs.length + most)) := by
  intro n hn
  unfold Sp.growing LvArray.Sp.growing
  refine (costs_sizeOfArray c _ _).bind' (l' := 0) (h' := 2 + roomCost (A ++ (xs, cap) :: B) (cap < xs.length + most))
    (fun k hk => ?_) (by omega) (by omega)
  rw [h.shape.sizeOfAt rfl] at hk
  cases hk
  refine (costs_capacityOfArray c _ _).bind' (l' := 0) (h' := roomCost (A ++ (xs, cap) :: B) (cap < xs.length + most))
    (fun k hk => ?_) (by omega) (by omega)
  rw [h.shape.capacityOfAt rfl] at hk
  cases hk
  unfold AoA.growIf LvArray.AoA.growIf
  simp only
  by_cases hq : cap < xs.length + n
  · simp only [hq, decide_true, if_true]
    refine (costs_setCapacityOfArray (c := c) h _).weaken (by omega) ?_
    unfold roomCost
    rw [if_pos (by omega)]
  · simp only [hq, decide_false, Bool.false_eq_true, if_false]
    exact (costs_pure a).weaken (by omega) (by omega)

variable [LT T] [DecidableLT T] [DecidableEq T] (hc : c.debug = false) (h : AGood a (A ++ (xs, cap) :: B))
include hc h

theorem costs_insertIntoSet {inc : AoA T → Nat → R (AoA T)} {cinc : AoA T → Nat → Counted (AoA T)} {grow : Nat}
    (hi : ∀ n, n ≤ 1 → Costs (cinc a n) (inc a n) 0 grow) (v : T) :
    Costs (AoS.insertIntoSet c inc cinc a A.length v) (LvArray.AoS.insertIntoSet c inc a A.length v) 0
      (Nat.log2 (2 * xs.length) + 2 * xs.length + 7 + grow) := by
  unfold AoS.insertIntoSet LvArray.AoS.insertIntoSet
  refine Costs.thenFree ?_
  refine (costs_sizeOfArray c _ _).bind' (l' := 0) (h' := Nat.log2 (2 * xs.length) + 2 * xs.length + 6 + grow)
    (fun k hk => ?_) (by omega) (by omega)
  rw [h.shape.sizeOfAt rfl] at hk
  cases hk
  refine (costs_ptr a _).bind' (l' := 0) (h' := Nat.log2 (2 * xs.length) + 2 * xs.length + 5 + grow)
    (fun _ _ => ?_) (by omega) (by omega)
  refine (costs_insertOne hc (cheapSet hi) (Nat.le_refl _) v).bind' (l' := 0) (h' := 1) (fun r _ => (costs_setSize c _ _ _).bindPure)
    (by omega) (by simp only; omega)

theorem costs_insertRangeIntoSet [Inhabited T] {inc : AoA T → Nat → R (AoA T)} {cinc : AoA T → Nat → Counted (AoA T)} {grow : Nat}
    (vs : List T) (hi : ∀ n, n ≤ vs.length → Costs (cinc a n) (inc a n) 0 grow) :
    Costs (AoS.insertRangeIntoSet c inc cinc a A.length vs) (LvArray.AoS.insertRangeIntoSet c inc a A.length vs) 0
      (vs.length * (2 * Nat.log2 (2 * xs.length) + 3) + 2 * xs.length + 3 + grow) := by
  unfold AoS.insertRangeIntoSet LvArray.AoS.insertRangeIntoSet
  refine Costs.thenFree ?_
  refine (costs_sizeOfArray c _ _).bind' (l' := 0) (h' := vs.length * (2 * Nat.log2 (2 * xs.length) + 3) + 2 * xs.length + 2 + grow)
    (fun k hk => ?_) (by omega) (by omega)
  rw [h.shape.sizeOfAt rfl] at hk
  cases hk
  refine (costs_ptr a _).bind' (l' := 0) (h' := vs.length * (2 * Nat.log2 (2 * xs.length) + 3) + 2 * xs.length + 1 + grow)
    (fun _ _ => ?_) (by omega) (by omega)
  refine (costs_insertRange hc (cheapSet hi) vs (Nat.le_refl _)).bind' (l' := 0) (h' := 1) (fun r _ => (costs_setSize c _ _ _).bindPure)
    (by omega) (by simp only [Nat.add_zero]; omega)

theorem costs_removeFromSet (v : T) :
    Costs (AoS.removeFromSet c a A.length v) (LvArray.AoS.removeFromSet c a A.length v) 0
      (Nat.log2 (2 * xs.length) + xs.length + 5) := by
  unfold AoS.removeFromSet LvArray.AoS.removeFromSet
  refine Costs.thenFree ?_
  refine (costs_sizeOfArray c _ _).bind' (l' := 0) (h' := Nat.log2 (2 * xs.length) + xs.length + 4)
    (fun k hk => ?_) (by omega) (by omega)
  rw [h.shape.sizeOfAt rfl] at hk
  cases hk
  refine (costs_ptr a _).bind' (l' := 0) (h' := Nat.log2 (2 * xs.length) + xs.length + 3)
    (fun _ _ => ?_) (by omega) (by omega)
  exact (costs_removeOne hc (cheapSet (a := a) (most := 0) (fun n _ => costs_checking _ n)) a v).bind' (l' := 0) (h' := 1) (fun r _ => (costs_setSize c _ _ _).bindPure)
    (by omega) (by simp only; omega)

theorem costs_removeRangeFromSet (vs : List T) :
    Costs (AoS.removeRangeFromSet c a A.length vs) (LvArray.AoS.removeRangeFromSet c a A.length vs) 0
      (vs.length * (Nat.log2 (2 * xs.length) + 2) + xs.length + 3) := by
  unfold AoS.removeRangeFromSet LvArray.AoS.removeRangeFromSet
  refine Costs.thenFree ?_
  refine (costs_sizeOfArray c _ _).bind' (l' := 0) (h' := vs.length * (Nat.log2 (2 * xs.length) + 2) + xs.length + 2)
    (fun k hk => ?_) (by omega) (by omega)
  rw [h.shape.sizeOfAt rfl] at hk
  cases hk
  refine (costs_ptr a _).bind' (l' := 0) (h' := vs.length * (Nat.log2 (2 * xs.length) + 2) + xs.length + 1)
    (fun _ _ => ?_) (by omega) (by omega)
  exact (costs_removeRange hc (cheapSet (a := a) (most := 0) (fun n _ => costs_checking _ n)) a vs).bind' (l' := 0) (h' := 1) (fun r _ => (costs_setSize c _ _ _).bindPure)
    (by omega) (by simp only; omega)

theorem costs_rowContains (v : T) :
    Costs (AoS.contains c a A.length v) (LvArray.AoS.contains c a A.length v) 0 (Nat.log2 (2 * xs.length) + 3) := by
  unfold AoS.contains LvArray.AoS.contains
  refine Costs.thenFree ?_
  refine (costs_sizeOfArray c _ _).bind' (l' := 0) (h' := Nat.log2 (2 * xs.length) + 2) (fun k hk => ?_) (by omega) (by omega)
  rw [h.shape.sizeOfAt rfl] at hk
  cases hk
  refine (costs_ptr a _).bind' (l' := 0) (h' := Nat.log2 (2 * xs.length) + 1) (fun _ _ => ?_) (by omega) (by omega)
  exact (costs_contains hc _ _ _ v)

omit hc [LT T] [DecidableLT T] [DecidableEq T]

theorem costs_clearSet [Inhabited T] :
    Costs (AoS.clearSet c a A.length) (LvArray.AoS.clearSet c a A.length) 0 (xs.length + 3) := by
  unfold AoS.clearSet LvArray.AoS.clearSet
  refine Costs.thenFree ?_
  refine (costs_sizeOfArray c _ _).bind' (l' := 0) (h' := xs.length + 2) (fun k hk => ?_) (by omega) (by omega)
  rw [h.shape.sizeOfAt rfl] at hk
  cases hk
  refine (costs_ptr a _).bind' (l' := 0) (h' := xs.length + 1) (fun _ _ => ?_) (by omega) (by omega)
  exact (costs_resize c _ _ _ _ _).bind' (l' := 0) (h' := 1) (fun _ _ => (costs_setSize c _ _ _).bindPure) (by omega) (by simp only; omega)

end sets

/-! ## Matrices -/

section matrices
variable {V : Type} {c : Cfg} {m : Crs V} {A B : Layout (Nat × V)} {xs : List (Nat × V)} {cap : Nat}

theorem costs_crsSetCapacityOfArray (h : CGood m (A ++ (xs, cap) :: B)) (n : Nat) :
    Costs (Crs.setCapacityOfArray c m A.length n) (m.setCapacityOfArray c A.length n) 0
      (6 + 6 * (A ++ (xs, cap) :: B).length + 8 * Layout.total (A ++ (xs, cap) :: B)) := by
  unfold Crs.setCapacityOfArray LvArray.Crs.setCapacityOfArray
  have hM : Layout.total (A ++ (xs, cap) :: B) = Layout.total A + (cap + Layout.total B) := by simp
  have hlen : (A ++ (xs, cap) :: B).length = A.length + (B.length + 1) := by simp
  have hfx := h.cols.lay.fits (xs.map Prod.fst, cap) (by simp)
  simp only [List.length_map] at hfx
  have hC := h.cols
  have hE := h.ents
  simp only [mapL_append, mapL_cons] at hC hE
  refine Costs.thenFree ?_
  refine (costs_capacityOfArray c m.shape A.length).bind' (l' := 0)
    (h' := 4 + 6 * (A ++ (xs, cap) :: B).length + 8 * Layout.total (A ++ (xs, cap) :: B))
    (fun k hk => ?_) (by omega) (by omega)
  rw [h.shape.capacityOfAt rfl] at hk
  cases hk
  simp only
  split
  · exact (costs_pure m).weaken (by omega) (by omega)
  split
  · have g1 := costs_growRow (c := c.ix) hC (n - cap)
    have g2 := costs_growRow (c := c) hE (n - cap)
    simp only [mapL_length, mapL_total, List.length_append, List.length_cons, ← mapL_cons, ← mapL_append] at g1 g2
    refine g1.bind' (l' := 0) (h' := 3 + 4 * (A ++ (xs, cap) :: B).length + 4 * Layout.total (A ++ (xs, cap) :: B)) (fun columns _ => ?_)
      (by omega) (by split <;> omega)
    refine g2.bind' (l' := 0) (h' := 2 * (A ++ (xs, cap) :: B).length) (fun entries _ => ?_) (by omega) (by split <;> omega)
    refine ((costs_updateOffsets c _ _ _).bindPure).weaken (by omega) ?_
    rw [h.shape.num]; omega
  · rename_i hne hlt
    refine (costs_op _).bind' (l' := 0) (h' := 3 + 6 * (A ++ (xs, cap) :: B).length + 8 * Layout.total (A ++ (xs, cap) :: B))
      (fun off hoff => ?_) (by omega) (by omega)
    refine (costs_sizeOfArray c _ _).bind' (l' := 0) (h' := 2 + 6 * (A ++ (xs, cap) :: B).length + 8 * Layout.total (A ++ (xs, cap) :: B))
      (fun prev hprev => ?_) (by omega) (by omega)
    rw [h.shape.sizeOfAt rfl] at hprev
    cases hprev
    refine (costs_setSize c _ _ _).bind' (l' := 0) (h' := 1 + 6 * (A ++ (xs, cap) :: B).length + 8 * Layout.total (A ++ (xs, cap) :: B))
      (fun s' hs' => ?_) (by omega) (by omega)
    have hmin : min xs.length n = (xs.take n).length := by simp; omega
    obtain ⟨s1, h1, hs1⟩ := AGood.setSizeAt (c := c) h.shape (xs.take n)
    simp only at hs'
    rw [hmin, h1] at hs'
    obtain rfl : s1 = s' := by cases hs'; rfl
    have hnum : m.shape.numArrays = s1.numArrays := by rw [h.shape.num, hs1.num]; simp
    have e : (szs (A ++ (xs.take n, cap) :: B)).drop (A.length + 1) = szs B := by
      rw [szs_append, szs_cons, List.drop_append, List.drop_of_length_le (by simp)]
      simp
    have hB : (szs B).sum ≤ Layout.total B := by
      have := szs_sum_le (L := mapL Prod.fst B) (fun r hr => hC.lay.fits r (by simp [hr]))
      simpa using this
    have hshrink : ∀ {X : Type} (cx : Cfg) (b : Buf X), Costs (Shape.shrinkRow cx s1 A.length (cap - n) off (min xs.length n) xs.length b)
        (s1.shrinkRow cx A.length (cap - n) off (min xs.length n) xs.length b) 0
        (cap + 2 * (A ++ (xs, cap) :: B).length + 2 * Layout.total B) := by
      intro X cx b
      unfold Shape.shrinkRow LvArray.Shape.shrinkRow
      refine (costs_destroy cx _ _ _).bind' (fun b _ => costs_shiftRowsDown (LShape.sizes hs1) (by rw [hs1.num]; simp) A.length _ b)
        (by omega) ?_
      rw [e, ← hnum, h.shape.num]
      omega
    refine (hshrink c.ix m.columns).bind' (l' := 0) (h' := 1 + 4 * (A ++ (xs, cap) :: B).length + (cap + 2 * Layout.total B))
      (fun columns _ => ?_) (by omega) (by omega)
    refine (hshrink c m.entries).bind' (l' := 0) (h' := 2 * (A ++ (xs, cap) :: B).length) (fun entries _ => ?_) (by omega) (by omega)
    refine ((costs_updateOffsets c s1 A.length _).bindPure).weaken (by omega) ?_
    rw [← hnum, h.shape.num]; omega

/-- The work of making room in a matrix: none if there is room. -/
def crsRoomCost (L : Layout (Nat × V)) (exceeded : Prop) [Decidable exceeded] : Nat :=
  if exceeded then 6 + 6 * L.length + 8 * Layout.total L else 0

theorem crsRoomCost_le (L : Layout (Nat × V)) (p : Prop) [Decidable p] : crsRoomCost L p ≤ 6 + 6 * L.length + 8 * Layout.total L := by
  unfold crsRoomCost; split <;> omega

theorem cheapCrs (h : CGood m (A ++ (xs, cap) :: B)) (owning : Bool) (es : List V) (most : Nat) :
    CheapCallBacks (Crs.target c owning A.length xs.length cap es) m most xs.length 1
      (crsRoomCost (A ++ (xs, cap) :: B) (owning = true ∧ cap < xs.length + most)) where
  incrementSize := by
    intro n hn
    simp only [Crs.target, LvArray.Crs.target]
    cases owning with
    | true =>
      simp only [if_true]
      split
      · refine (costs_crsSetCapacityOfArray h _).weaken (by omega) ?_
        unfold crsRoomCost
        rw [if_pos ⟨trivial, by omega⟩]
      · exact (costs_pure m).weaken (by omega) (by omega)
    | false =>
      simp only [Bool.false_eq_true, if_false]
      exact (Costs.thenFree (costs_pure m)).weaken (by omega) (by omega)
  insert := by
    intro m pos
    simp only [Crs.target, LvArray.Crs.target]
    cases es[0]? with
    | none => exact (costs_free _).weaken (by omega) (by omega)
    | some e => exact ((costs_emplace c _ _ _ _ _).bindPure).weaken (by omega) (by omega)
  set := by
    intro m i j
    simp only [Crs.target, LvArray.Crs.target]
    cases es[j]? with
    | none => exact (costs_free _).weaken (by omega) (by omega)
    | some e => exact ((costs_op _).bindPure).weaken (by omega) (by omega)
  insertMany := by
    intro m n j pos prev
    simp only [Crs.target, LvArray.Crs.target]
    cases es[j]? with
    | none => exact (costs_free _).weaken (by omega) (by omega)
    | some e => exact ((costs_shiftUp c _ _ _ _ _).bind (fun _ _ => (costs_op _).bindPure)).weaken (by omega) (by omega)
  remove := by
    intro m pos
    simp only [Crs.target, LvArray.Crs.target]
    exact ((costs_erase c _ _ _ _ _).bindPure).weaken (by omega) (by omega)
  removeMany := by
    intro m n cur next
    simp only [Crs.target, LvArray.Crs.target]
    exact ((costs_shiftDown c _ _ _ _ _).bindPure).weaken (by omega) (by omega)

variable (hc : c.debug = false) (h : CGood m (A ++ (xs, cap) :: B))
include hc h

theorem costs_crsInsertNonZero (owning : Bool) (col : Nat) (e : V) :
    Costs (Crs.insertNonZero c owning m A.length col e) (m.insertNonZero c owning A.length col e) 0
      (Nat.log2 (2 * xs.length) + 4 * xs.length + 10 + crsRoomCost (A ++ (xs, cap) :: B) (owning = true ∧ cap < xs.length + 1)) := by
  unfold Crs.insertNonZero LvArray.Crs.insertNonZero LvArray.Crs.insertNonZeroIn
  generalize hG : crsRoomCost (A ++ (xs, cap) :: B) (owning = true ∧ cap < xs.length + 1) = G
  refine (costs_sizeOfArray c _ _).bind' (l' := 0) (h' := Nat.log2 (2 * xs.length) + 4 * xs.length + 9 + G)
    (fun k hk => ?_) (by omega) (by omega)
  rw [h.shape.sizeOfAt rfl] at hk
  cases hk
  refine (costs_capacityOfArray c _ _).bind' (l' := 0) (h' := Nat.log2 (2 * xs.length) + 4 * xs.length + 7 + G)
    (fun k hk => ?_) (by omega) (by omega)
  rw [h.shape.capacityOfAt rfl] at hk
  cases hk
  refine (costs_op _).bind' (l' := 0) (h' := Nat.log2 (2 * xs.length) + 4 * xs.length + 6 + G)
    (fun _ _ => ?_) (by omega) (by omega)
  refine (costs_insertOne (c := c.ix) hc (cheapCrs h owning [e] 1) (Nat.le_refl _) col).bind' (l' := 0) (h' := 1)
    (fun r _ => (costs_setSize c _ _ _).bindPure) (by omega) (by simp only [hG]; omega)

theorem costs_crsInsertNonZeros (owning : Bool) (cols : List Nat) (es : List V) :
    Costs (Crs.insertNonZeros c owning m A.length cols es) (m.insertNonZeros c owning A.length cols es) 0
      (cols.length * (2 * Nat.log2 (2 * xs.length) + 4) + 4 * xs.length + 5 +
        crsRoomCost (A ++ (xs, cap) :: B) (owning = true ∧ cap < xs.length + cols.length)) := by
  unfold Crs.insertNonZeros LvArray.Crs.insertNonZeros LvArray.Crs.insertNonZerosIn
  generalize hG : crsRoomCost (A ++ (xs, cap) :: B) (owning = true ∧ cap < xs.length + cols.length) = G
  refine (costs_sizeOfArray c _ _).bind' (l' := 0) (h' := cols.length * (2 * Nat.log2 (2 * xs.length) + 4) + 4 * xs.length + 4 + G)
    (fun k hk => ?_) (by omega) (by omega)
  rw [h.shape.sizeOfAt rfl] at hk
  cases hk
  refine (costs_capacityOfArray c _ _).bind' (l' := 0) (h' := cols.length * (2 * Nat.log2 (2 * xs.length) + 4) + 4 * xs.length + 2 + G)
    (fun k hk => ?_) (by omega) (by omega)
  rw [h.shape.capacityOfAt rfl] at hk
  cases hk
  refine (costs_op _).bind' (l' := 0) (h' := cols.length * (2 * Nat.log2 (2 * xs.length) + 4) + 4 * xs.length + 1 + G)
    (fun _ _ => ?_) (by omega) (by omega)
  refine (costs_insertRange (c := c.ix) hc (cheapCrs h owning es cols.length) cols (Nat.le_refl _)).bind' (l' := 0) (h' := 1)
    (fun r _ => (costs_setSize c _ _ _).bindPure) (by omega) (by simp only [hG, Nat.add_assoc, Nat.reduceAdd]; omega)

theorem costs_crsRemoveNonZero (col : Nat) :
    Costs (Crs.removeNonZero c m A.length col) (m.removeNonZero c A.length col) 0 (Nat.log2 (2 * xs.length) + 2 * xs.length + 8) := by
  unfold Crs.removeNonZero LvArray.Crs.removeNonZero LvArray.Crs.removeNonZeroIn
  refine (costs_sizeOfArray c _ _).bind' (l' := 0) (h' := Nat.log2 (2 * xs.length) + 2 * xs.length + 7)
    (fun k hk => ?_) (by omega) (by omega)
  rw [h.shape.sizeOfAt rfl] at hk
  cases hk
  refine (costs_capacityOfArray c _ _).bind' (l' := 0) (h' := Nat.log2 (2 * xs.length) + 2 * xs.length + 5)
    (fun k hk => ?_) (by omega) (by omega)
  rw [h.shape.capacityOfAt rfl] at hk
  cases hk
  refine (costs_op _).bind' (l' := 0) (h' := Nat.log2 (2 * xs.length) + 2 * xs.length + 4)
    (fun _ _ => ?_) (by omega) (by omega)
  refine (costs_removeOne (c := c.ix) hc (cheapCrs h false [] 0) m col).bind' (l' := 0) (h' := 1)
    (fun r _ => (costs_setSize c _ _ _).bindPure) (by omega) (by omega)

omit hc h in
theorem removeLoop_le {σ T : Type} [LT T] [DecidableLT T] [DecidableEq T] (t : LvArray.sortedArrayManipulation.Target σ T) (size : Nat) :
    ∀ (fuel : Nat) (s : σ) (pos n : Nat) (vs : List T) (r : σ × Nat),
    LvArray.sortedArrayManipulation.removeLoop c t size fuel s pos n vs = .ok r → r.2 ≤ n + fuel
  | fuel, s, pos, n, [], r, h => by
    cases fuel <;> (simp only [LvArray.sortedArrayManipulation.removeLoop] at h; cases h; simp)
  | 0, s, pos, n, v :: vs, r, h => by
    simp only [LvArray.sortedArrayManipulation.removeLoop] at h; cases h; simp
  | fuel + 1, s, pos, n, v :: vs, r, h => by
    simp only [LvArray.sortedArrayManipulation.removeLoop] at h
    obtain ⟨p, -, h⟩ := bind_eq_ok.1 h
    obtain ⟨s1, -, h⟩ := bind_eq_ok.1 h
    obtain ⟨s2, -, h⟩ := bind_eq_ok.1 h
    by_cases hp : (if p.2.isEmpty = true then size else p.1) = size
    · rw [if_pos hp] at h; cases h; simp only; omega
    · rw [if_neg hp] at h
      have := removeLoop_le t size fuel _ _ _ _ _ h
      omega

omit hc h in
theorem removeRange_le {σ T : Type} [LT T] [DecidableLT T] [DecidableEq T] (t : LvArray.sortedArrayManipulation.Target σ T) (s : σ)
    (size : Nat) (vs : List T) (r : σ × Nat) (h : LvArray.sortedArrayManipulation.removeRange c t s size vs = .ok r) :
    r.2 ≤ vs.length := by
  simp only [LvArray.sortedArrayManipulation.removeRange] at h
  obtain ⟨_, -, h⟩ := bind_eq_ok.1 h
  obtain ⟨_, -, h⟩ := bind_eq_ok.1 h
  obtain ⟨p, -, h⟩ := bind_eq_ok.1 h
  split at h
  · cases h; simp
  · obtain ⟨q, hq, h⟩ := bind_eq_ok.1 h
    obtain ⟨s1, -, h⟩ := bind_eq_ok.1 h
    have := removeLoop_le t size _ _ _ _ _ _ hq
    cases h
    simp only; omega

theorem costs_crsRemoveNonZeros (cols : List Nat) :
    Costs (Crs.removeNonZeros c m A.length cols) (m.removeNonZeros c A.length cols) 0
      (cols.length * (Nat.log2 (2 * xs.length) + 3) + 2 * xs.length + 5) := by
  unfold Crs.removeNonZeros LvArray.Crs.removeNonZeros LvArray.Crs.removeNonZerosIn
  have e : cols.length * (Nat.log2 (2 * xs.length) + 3) = cols.length * (Nat.log2 (2 * xs.length) + 2) + cols.length := by
    rw [← Nat.mul_succ]
  rw [e]
  refine (costs_sizeOfArray c _ _).bind' (l' := 0)
    (h' := cols.length * (Nat.log2 (2 * xs.length) + 2) + cols.length + 2 * xs.length + 4) (fun k hk => ?_) (by omega) (by omega)
  rw [h.shape.sizeOfAt rfl] at hk
  cases hk
  refine (costs_capacityOfArray c _ _).bind' (l' := 0)
    (h' := cols.length * (Nat.log2 (2 * xs.length) + 2) + cols.length + 2 * xs.length + 2) (fun k hk => ?_) (by omega) (by omega)
  rw [h.shape.capacityOfAt rfl] at hk
  cases hk
  refine (costs_op _).bind' (l' := 0)
    (h' := cols.length * (Nat.log2 (2 * xs.length) + 2) + cols.length + 2 * xs.length + 1) (fun _ _ => ?_) (by omega) (by omega)
  refine (costs_removeRange (c := c.ix) hc (cheapCrs h false [] 0) m cols).bind' (l' := 0) (h' := 1 + cols.length)
    (fun r hr => ?_) (by omega) (by omega)
  have hle := removeRange_le _ _ _ _ r hr
  refine (costs_setSize c _ _ _).bind' (l' := 0) (h' := cols.length) (fun _ _ => ?_) (by omega) (by omega)
  exact ((costs_destroy c _ _ _).bindPure).weaken (by omega) hle

end matrices

end LvArray.Counted

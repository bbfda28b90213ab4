import Verif.CountedSorted
import Verif.SortedArrayLemmas
/-!
# What the operations of `SortedArray` cost

Helper lemmas for the property that operations have the documented costs.
-/

namespace LvArray.Counted

open LvArray.Spec

variable {T : Type} {c : Cfg}

/-- The call backs of `SortedArray` do nothing but make room. -/
theorem cheapCallBacks (c : Cfg) (size : Nat) (b : Buf T) (most : Nat) :
    CheapCallBacks (SortedArr.target (T := T) c size) b most size 0 (2 * size) where
  incrementSize := fun _ _ => costs_dynamicReserve_le c b size _
  insert := fun b _ => (costs_pure b).weaken (by omega) (by omega)
  set := fun b _ _ => costs_pure b
  insertMany := fun b _ _ _ _ => (costs_pure b).weaken (by omega) (by omega)
  remove := fun b _ => (costs_pure b).weaken (by omega) (by omega)
  removeMany := fun b _ _ _ => (costs_pure b).weaken (by omega) (by omega)

/-- Two bounds of one call fit together. -/
theorem _root_.LvArray.Spec.Costs.le {α : Type} {m : Counted α} {x : R α} {l h l' h' : Nat} {a : α} (hx : x = .ok a)
    (H : Costs m x l h) (H' : Costs m x l' h') : l ≤ h' := by
  obtain ⟨k, h1, _, h3⟩ := H.returns 0 a hx
  obtain ⟨k', _, h5, h6⟩ := H'.returns 0 a hx
  rw [h3] at h6
  simp only [Except.ok.injEq, Prod.mk.injEq] at h6
  omega

section
variable [LT T] [DecidableLT T] [DecidableEq T] (hc : c.debug = false) (a : SortedArr T)
include hc

theorem costs_setContains (v : T) : Costs (SortedArr.contains c a v) (a.contains c v) 0 (Nat.log2 (2 * a.size) + 1) :=
  costs_contains hc _ _ a.size v

theorem costs_setInsert (v : T) : Costs (SortedArr.insert c a v) (a.insert c v) 0 (Nat.log2 (2 * a.size) + 4 * a.size + 4) :=
  ((costs_insertOne hc (cheapCallBacks c a.size a.buf 1) (Nat.le_refl _) v).bindPure).weaken (by omega) (by omega)

theorem costs_setRemove (v : T) : Costs (SortedArr.remove c a v) (a.remove c v) 0 (Nat.log2 (2 * a.size) + a.size + 2) :=
  ((costs_removeOne hc (cheapCallBacks c a.size a.buf 0) a.buf v).bindPure).weaken (by omega) (by omega)

theorem costs_setInsertMany [Inhabited T] (vs : List T) : Costs (SortedArr.insertMany c a vs) (a.insertMany c vs) 0
    (vs.length * (2 * Nat.log2 (2 * a.size) + 3) + 4 * a.size) :=
  ((costs_insertRange hc (cheapCallBacks c a.size a.buf vs.length) vs (Nat.le_refl _)).bindPure).weaken (by omega) (by rw [Nat.add_zero]; omega)

theorem costs_setRemoveMany (vs : List T) : Costs (SortedArr.removeMany c a vs) (a.removeMany c vs) 0
    (vs.length * (Nat.log2 (2 * a.size) + 2) + a.size) :=
  ((costs_removeRange hc (cheapCallBacks c a.size a.buf 0) a.buf vs).bindPure).weaken (by omega) (by omega)

/-- Inserting values that all lie behind the array: every one costs a binary search of the whole array. -/
theorem costs_setInsertMany_behind [Inhabited T] {vs : List T} (h0 : a.size ≠ 0)
    (h : ∀ v ∈ vs, LvArray.sortedArrayManipulation.find c LvArray.sortedArrayManipulation.less
      (fun i => (LvArray.SortedArr.target c a.size).read a.buf i) a.size v = .ok a.size) :
    Costs (SortedArr.insertMany c a vs) (a.insertMany c vs) (vs.length * Nat.log2 (a.size + 1))
      (vs.length * (2 * Nat.log2 (2 * a.size) + 3) + 4 * a.size) := by
  have ht := cheapCallBacks (T := T) c a.size a.buf
  unfold SortedArr.insertMany LvArray.SortedArr.insertMany
  refine Costs.bindPure ?_
  have e : vs.length * (2 * Nat.log2 (2 * a.size) + 3) =
      vs.length * (Nat.log2 (2 * a.size) + 1) + vs.length * (Nat.log2 (2 * a.size) + 2) := by
    rw [← Nat.mul_add]; congr 1; omega
  unfold sortedArrayManipulation.insertRange LvArray.sortedArrayManipulation.insertRange
  refine (costs_assertRange hc _ _ _).bind' (l' := vs.length * Nat.log2 (a.size + 1)) (fun _ _ => ?_) (by omega)
    (Nat.le_of_eq (Nat.zero_add _))
  refine Costs.thenFree ?_
  rw [if_neg h0, if_neg h0]
  have hcount := costs_countLoop_behind hc (fun i => (LvArray.SortedArr.target c a.size).read a.buf i) a.size a.size vs.reverse 0
    (fun v hv => h v (by simpa using hv))
  rw [List.length_reverse] at hcount
  refine hcount.bind' (l' := 0) (h' := 2 * a.size + (vs.length * (Nat.log2 (2 * a.size) + 2) + 2 * a.size)) (fun n _ => ?_) (by omega)
    (by omega)
  refine ((ht n).incrementSize n (Nat.le_refl _)).bind (l' := 0) (fun s' _ => ?_)
  split
  · exact (costs_pure _).weaken (by omega) (by omega)
  · have := (costs_insertLoop hc (ht n) a.size vs.reverse s' a.size n (Nat.le_refl _)).bindPure (f := fun s => (s, n))
    rw [List.length_reverse] at this
    exact this.weaken (by omega) (by rw [Nat.add_zero]; omega)

end

end LvArray.Counted

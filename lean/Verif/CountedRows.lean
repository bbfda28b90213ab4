import Verif.CountedLemmas
import Verif.AoALemmas

/-!
# Costs of the operations of `ArrayOfArrays`
-/

namespace LvArray.Counted

open LvArray.Spec Layout

variable {T : Type}

theorem costs_forUp_exactly {σ : Type} {f : Nat → σ → Counted σ} {g : Nat → σ → R σ} (k : Nat) : ∀ (n lo : Nat),
    (∀ i s, Costs (f i s) (g i s) k k) → ∀ s, Costs (forUp n lo f s) (LvArray.forUp n lo g s) (n * k) (n * k)
  | 0, _, _, s => (costs_pure s).weaken (by omega) (by omega)
  | n + 1, lo, H, s => by
    unfold forUp LvArray.forUp
    rw [Nat.succ_mul]
    exact (H lo s).bind' (fun s' _ => costs_forUp_exactly k n (lo + 1) H s') (by omega) (by omega)

/-! ## Sums over rows -/

theorem total_getD (l : List Nat) : ∀ n lo, total n lo (fun i => l.getD i 0) ≤ (l.drop lo).sum
  | 0, lo => by simp [total]
  | n + 1, lo => by
    have ih := total_getD l n (lo + 1)
    rw [total]
    by_cases h : lo < l.length
    · rw [List.drop_eq_getElem_cons h, List.sum_cons]
      simp only [List.getD_eq_getElem?_getD, List.getElem?_eq_getElem h, Option.getD_some] at *
      omega
    · rw [List.drop_of_length_le (by omega)] at ih ⊢
      simp only [List.getD_eq_getElem?_getD, List.getElem?_eq_none (Nat.le_of_not_lt h), Option.getD_none, List.sum_nil] at *
      omega

theorem total_affine (h : Nat → Nat) (a b : Nat) : ∀ n lo, total n lo (fun i => a + b * h i) = n * a + b * total n lo h
  | 0, lo => by simp [total]
  | n + 1, lo => by rw [total, total, total_affine h a b n, Nat.succ_mul, Nat.mul_add]; omega

theorem drop_sum_le (l : List Nat) (n : Nat) : (l.drop n).sum ≤ l.sum := by
  have h : l.sum = (l.take n).sum + (l.drop n).sum := by rw [← List.sum_append, List.take_append_drop]
  omega

theorem szs_sum_le {L : Layout T} (h : ∀ r ∈ L, r.1.length ≤ r.2) : L.szs.sum ≤ Layout.total L := by
  induction L with
  | nil => simp [szs, Layout.total]
  | cons r L ih =>
    have h1 := h r (by simp)
    have h2 := ih (fun r hr => h r (by simp [hr]))
    have e : Layout.total (r :: L) = r.2 + Layout.total L := by simp
    rw [e]
    simp only [szs_cons, List.sum_cons]
    omega

/-! ## Accessors -/

variable {c : Cfg} {s : Shape} {i : Nat}

theorem costs_sizeOfArray (c : Cfg) (s : Shape) (i : Nat) : Costs (Shape.sizeOfArray c s i) (s.sizeOfArray c i) 1 1 :=
  Costs.thenFree (costs_op _)

theorem costs_capacityOfArray (c : Cfg) (s : Shape) (i : Nat) : Costs (Shape.capacityOfArray c s i) (s.capacityOfArray c i) 2 2 :=
  Costs.thenFree (Costs.thenOp (l := 1) (h := 1) fun _ _ => (costs_op _).bindPure)

theorem costs_checkBounds2 (c : Cfg) (s : Shape) (i j : Nat) : Costs (Shape.checkBounds2 c s i j) (s.checkBounds2 c i j) 0 1 := by
  unfold Shape.checkBounds2 LvArray.Shape.checkBounds2
  split
  · split
    · exact (costs_free _).weaken (by omega) (by omega)
    · exact (Costs.thenOp (l := 0) (h := 0) fun _ _ => costs_free _).weaken (by omega) (by omega)
  · exact (costs_pure _).weaken (by omega) (by omega)

theorem costs_checkInsertBounds2 (c : Cfg) (s : Shape) (i j : Nat) :
    Costs (Shape.checkInsertBounds2 c s i j) (s.checkInsertBounds2 c i j) 0 1 := by
  unfold Shape.checkInsertBounds2 LvArray.Shape.checkInsertBounds2
  split
  · split
    · exact (costs_free _).weaken (by omega) (by omega)
    · exact (Costs.thenOp (l := 0) (h := 0) fun _ _ => costs_free _).weaken (by omega) (by omega)
  · exact (costs_pure _).weaken (by omega) (by omega)

theorem costs_capacityCheck (c : Cfg) (s : Shape) (i n : Nat) : Costs (Shape.capacityCheck c s i n) (s.capacityCheck c i n) 0 3 := by
  unfold Shape.capacityCheck LvArray.Shape.capacityCheck
  split
  · exact ((costs_sizeOfArray c s i).bind (fun _ _ => (costs_capacityOfArray c s i).bind (fun _ _ => costs_free _))).weaken
      (by omega) (by omega)
  · exact (costs_pure _).weaken (by omega) (by omega)

theorem costs_setSize (c : Cfg) (s : Shape) (i n : Nat) : Costs (Shape.setSize c s i n) (s.setSize c i n) 0 1 :=
  ((costs_op _).bindPure).weaken (by omega) (by omega)

theorem costs_ptr (a : AoA T) (i : Nat) : Costs (AoA.ptr a i) (a.ptr i) 0 1 := (costs_op _).weaken (by omega) (by omega)

/-! ## Making room -/

theorem costs_shiftRowsUp {X : Type} {l : List Nat} (hl : ∀ i (hi : i < l.length), s.sizeOfArray c i = .ok l[i])
    (hn : s.numArrays = l.length) (i amount : Nat) (b : Buf X) :
    Costs (Shape.shiftRowsUp c s i amount b) (s.shiftRowsUp c i amount b) 0 (2 * s.numArrays + 2 * (l.drop (i + 1)).sum) := by
  unfold Shape.shiftRowsUp LvArray.Shape.shiftRowsUp
  refine (costs_forDown (fun i => 2 + 2 * l.getD i 0) _ _ (fun row h1 h2 b => ?_) b).weaken (by omega) ?_
  · have hr : row < l.length := by omega
    refine (costs_sizeOfArray c s row).bind' (l' := 0) (h' := 1 + l.getD row 0 * 2) (fun n hsz => ?_) (by omega) (by omega)
    rw [hl row hr] at hsz
    cases hsz
    refine ((costs_op _).bind (fun off _ => costs_uninitializedShiftUp c b off _ amount)).weaken (by omega) ?_
    simp [List.getD_eq_getElem?_getD, List.getElem?_eq_getElem hr]
  · rw [total_affine]
    have := total_getD l (s.numArrays - 1 - i) (i + 1)
    omega

theorem costs_shiftRowsDown {X : Type} {l : List Nat} (hl : ∀ i (hi : i < l.length), s.sizeOfArray c i = .ok l[i])
    (hn : s.numArrays = l.length) (i amount : Nat) (b : Buf X) :
    Costs (Shape.shiftRowsDown c s i amount b) (s.shiftRowsDown c i amount b) 0 (2 * s.numArrays + 2 * (l.drop (i + 1)).sum) := by
  unfold Shape.shiftRowsDown LvArray.Shape.shiftRowsDown
  refine (costs_forUp (fun i => 2 + 2 * l.getD i 0) _ _ (fun row h1 h2 b => ?_) b).weaken (by omega) ?_
  · have hr : row < l.length := by omega
    refine (costs_sizeOfArray c s row).bind' (l' := 0) (h' := 1 + l.getD row 0 * 2) (fun n hsz => ?_) (by omega) (by omega)
    rw [hl row hr] at hsz
    cases hsz
    refine ((costs_op _).bind (fun off _ => costs_uninitializedShiftDown c b off _ amount)).weaken (by omega) ?_
    simp [List.getD_eq_getElem?_getD, List.getElem?_eq_getElem hr]
  · rw [total_affine]
    have := total_getD l (s.numArrays - (i + 1)) (i + 1)
    omega

theorem costs_updateOffsets (c : Cfg) (s : Shape) (i : Nat) (f : Nat → Nat) :
    Costs (Shape.updateOffsets c s i f) (s.updateOffsets c i f) ((s.numArrays + 1 - (i + 1)) * 2) ((s.numArrays + 1 - (i + 1)) * 2) :=
  (costs_forUp_exactly 2 _ _ (fun _ _ => Costs.thenOp (l := 1) (h := 1) fun _ _ => costs_op _) _).bindPure

/-- Shapes whose entries can be read. -/
theorem LShape.sizes {X : Type} {L : Layout X} (h : LShape s L) : ∀ i (hi : i < L.szs.length), s.sizeOfArray c i = .ok L.szs[i] := by
  intro i hi
  rw [h.sizeOf' (by simpa using hi), szs_get]

variable {a : AoA T} {L A B : Layout T} {xs : List T} {cap : Nat}

/-- What it costs to give row `i` more room: behind it `tail` slots in `rows` rows, `M` slots altogether. -/
theorem costs_growRow (h : AGood a (A ++ (xs, cap) :: B)) (amount : Nat) :
    Costs (Shape.growRow c a.shape A.length amount a.values) (a.shape.growRow c A.length amount a.values) 0
      (1 + (if a.values.cap < Layout.total (A ++ (xs, cap) :: B) + amount then 2 * Layout.total (A ++ (xs, cap) :: B) else 0) +
        2 * (A ++ (xs, cap) :: B).length + 2 * Layout.total B) := by
  unfold Shape.growRow LvArray.Shape.growRow
  have hr := h.shape.readOff' (i := a.shape.numArrays) (by rw [h.shape.num]; exact Nat.le_refl _)
  rw [h.shape.num, List.take_length] at hr
  refine (Costs.thenOp (l := 0) (h := (if a.values.cap < Layout.total (A ++ (xs, cap) :: B) + amount then
    2 * Layout.total (A ++ (xs, cap) :: B) else 0) + (2 * (A ++ (xs, cap) :: B).length + 2 * Layout.total B)) fun off hoff => ?_).weaken (by omega) (by omega)
  rw [h.shape.num, hr] at hoff
  cases hoff
  refine (costs_dynamicReserve c a.values _ _).bind' (l' := 0) (fun b _ => costs_shiftRowsUp (l := szs (A ++ (xs, cap) :: B))
    (LShape.sizes h.shape) (by rw [h.shape.num]; simp) A.length amount b) (by omega) ?_
  have e : (szs (A ++ (xs, cap) :: B)).drop (A.length + 1) = szs B := by
    rw [szs_append, szs_cons, List.drop_append, List.drop_of_length_le (by simp)]
    simp
  rw [e]
  have := szs_sum_le (L := B) (fun r hr => h.lay.fits r (by simp [hr]))
  rw [h.shape.num]
  omega

theorem costs_setCapacityOfArray (h : AGood a (A ++ (xs, cap) :: B)) (n : Nat) :
    Costs (AoA.setCapacityOfArray c a A.length n) (a.setCapacityOfArray c A.length n)
      (if cap < n then 2 * (B.length + 1) else 0)
      (6 + 4 * (A ++ (xs, cap) :: B).length + 4 * Layout.total (A ++ (xs, cap) :: B)) := by
  unfold AoA.setCapacityOfArray LvArray.AoA.setCapacityOfArray
  have hM : Layout.total (A ++ (xs, cap) :: B) = Layout.total A + (cap + Layout.total B) := by simp
  have hlen : (A ++ (xs, cap) :: B).length = A.length + (B.length + 1) := by simp
  have hfx := h.lay.fits (xs, cap) (by simp)
  simp only at hfx
  refine Costs.thenFree ?_
  refine (costs_capacityOfArray c a.shape A.length).bind' (l' := if cap < n then 2 * (B.length + 1) else 0)
    (h' := 4 + 4 * (A ++ (xs, cap) :: B).length + 4 * Layout.total (A ++ (xs, cap) :: B))
    (fun k hk => ?_) (by omega) (by omega)
  rw [h.shape.capacityOfAt rfl] at hk
  cases hk
  simp only
  split
  · rw [if_neg (by omega)]
    exact (costs_pure a).weaken (by omega) (by omega)
  split
  · rename_i hlt
    refine (costs_growRow h (n - cap)).bind' (l' := (a.shape.numArrays + 1 - (A.length + 1)) * 2)
      (h' := (a.shape.numArrays + 1 - (A.length + 1)) * 2) (fun values _ => (costs_updateOffsets c _ _ _).bindPure) ?_ ?_
    · rw [h.shape.num]; omega
    · rw [h.shape.num]; split <;> omega
  · rename_i hne hlt
    refine ((costs_op _).bind (l' := 0) (h' := 2 + (xs.length + (2 * (A ++ (xs, cap) :: B).length + 2 * Layout.total B) +
      (a.shape.numArrays + 1 - (A.length + 1)) * 2)) (fun off hoff => ?_)).weaken (by omega) (by rw [h.shape.num]; omega)
    refine ((costs_sizeOfArray c _ _).bind (l' := 0) (h' := 1 + (xs.length + (2 * (A ++ (xs, cap) :: B).length + 2 * Layout.total B) +
      (a.shape.numArrays + 1 - (A.length + 1)) * 2)) (fun prev hprev => ?_)).weaken (by omega) (by omega)
    rw [h.shape.sizeOfAt rfl] at hprev
    cases hprev
    refine ((costs_setSize c _ _ _).bind (l' := 0) (h' := (xs.length + (2 * (A ++ (xs, cap) :: B).length + 2 * Layout.total B) +
      (a.shape.numArrays + 1 - (A.length + 1)) * 2)) (fun s' hs' => ?_)).weaken (by omega) (by omega)
    have hmin : min xs.length n = (xs.take n).length := by simp; omega
    obtain ⟨s1, h1, hs1⟩ := AGood.setSizeAt (c := c) h.shape (xs.take n)
    simp only at hs'
    rw [hmin, h1] at hs'
    obtain rfl : s1 = s' := by cases hs'; rfl
    have hnum : a.shape.numArrays = s1.numArrays := by rw [h.shape.num, hs1.num]; simp
    have e : (szs (A ++ (xs.take n, cap) :: B)).drop (A.length + 1) = szs B := by
      rw [szs_append, szs_cons, List.drop_append, List.drop_of_length_le (by simp)]
      simp
    have hB := szs_sum_le (L := B) (fun r hr => h.lay.fits r (by simp [hr]))
    refine Costs.bind' (l := 0) (h := xs.length + (2 * (A ++ (xs, cap) :: B).length + 2 * Layout.total B)) (l' := 0) ?_
      (fun values _ => ((costs_updateOffsets c s1 A.length _).bindPure).weaken (Nat.zero_le _) (Nat.le_refl _)) (by omega) (by rw [hnum]; omega)
    unfold Shape.shrinkRow LvArray.Shape.shrinkRow
    refine (costs_destroy c _ _ _).bind' (fun b _ => costs_shiftRowsDown (LShape.sizes hs1) (by rw [hs1.num]; simp) A.length _ b)
      (by omega) ?_
    rw [e, ← hnum, h.shape.num]
    simp only [szs_length, caps_length]
    omega

/-! ## Operations on one row -/

theorem costs_viewEmplaceBack (c : Cfg) (a : AoA T) (i : Nat) (v : T) :
    Costs (AoA.viewEmplaceBack c a i v) (a.viewEmplaceBack c i v) 0 7 := by
  unfold AoA.viewEmplaceBack LvArray.AoA.viewEmplaceBack
  refine Costs.thenFree ?_
  refine ((costs_capacityCheck c _ _ _).bind (l' := 0) (h' := 4) (fun _ _ => ?_)).weaken (by omega) (by omega)
  refine ((costs_ptr a i).bind (l' := 0) (h' := 3) (fun p _ => ?_)).weaken (by omega) (by omega)
  refine ((costs_sizeOfArray c _ i).bind (l' := 0) (h' := 2) (fun n _ => ?_)).weaken (by omega) (by omega)
  refine ((costs_emplaceBack c _ _ _ v).bind (l' := 0) (h' := 1) (fun values _ => ?_)).weaken (by omega) (by omega)
  exact (costs_setSize c _ _ _).bindPure

theorem costs_viewAppendToArray [Inhabited T] (c : Cfg) (a : AoA T) (i : Nat) (vs : List T) :
    Costs (AoA.viewAppendToArray c a i vs) (a.viewAppendToArray c i vs) 0 (6 + vs.length) := by
  unfold AoA.viewAppendToArray LvArray.AoA.viewAppendToArray
  refine Costs.thenFree ?_
  refine ((costs_ptr a i).bind (l' := 0) (h' := 5 + vs.length) (fun p _ => ?_)).weaken (by omega) (by omega)
  refine ((costs_sizeOfArray c _ i).bind (l' := 0) (h' := 4 + vs.length) (fun n _ => ?_)).weaken (by omega) (by omega)
  refine ((costs_append c _ _ _ vs).bind (l' := 0) (h' := 4) (fun values _ => ?_)).weaken (by omega) (by omega)
  refine ((costs_capacityCheck c _ _ _).bind (l' := 0) (h' := 1) (fun _ _ => ?_)).weaken (by omega) (by omega)
  exact (costs_setSize c _ _ _).bindPure

theorem costs_viewEmplace (h : AGood a (A ++ (xs, cap) :: B)) (j : Nat) (v : T) :
    Costs (AoA.viewEmplace c a A.length j v) (a.viewEmplace c A.length j v) 0 (8 + 2 * (xs.length - j)) := by
  unfold AoA.viewEmplace LvArray.AoA.viewEmplace
  refine ((costs_checkInsertBounds2 c _ _ _).bind (l' := 0) (h' := 7 + 2 * (xs.length - j)) (fun _ _ => ?_)).weaken (by omega) (by omega)
  refine ((costs_capacityCheck c _ _ _).bind (l' := 0) (h' := 4 + 2 * (xs.length - j)) (fun _ _ => ?_)).weaken (by omega) (by omega)
  refine ((costs_ptr a _).bind (l' := 0) (h' := 3 + 2 * (xs.length - j)) (fun p _ => ?_)).weaken (by omega) (by omega)
  refine ((costs_sizeOfArray c _ _).bind (l' := 0) (h' := 2 + 2 * (xs.length - j)) (fun n hn => ?_)).weaken (by omega) (by omega)
  rw [h.shape.sizeOfAt rfl] at hn
  cases hn
  exact ((costs_emplace c _ _ _ j v).bind (fun values _ => (costs_setSize c _ _ _).bindPure)).weaken (by omega) (by simp only; omega)

theorem costs_viewInsertIntoArray [Inhabited T] (h : AGood a (A ++ (xs, cap) :: B)) (j : Nat) (vs : List T) :
    Costs (AoA.viewInsertIntoArray c a A.length j vs) (a.viewInsertIntoArray c A.length j vs) 0
      (7 + 2 * (xs.length - j) + vs.length) := by
  unfold AoA.viewInsertIntoArray LvArray.AoA.viewInsertIntoArray
  refine ((costs_checkInsertBounds2 c _ _ _).bind (l' := 0) (h' := 6 + 2 * (xs.length - j) + vs.length) (fun _ _ => ?_)).weaken (by omega) (by omega)
  refine ((costs_capacityCheck c _ _ _).bind (l' := 0) (h' := 3 + 2 * (xs.length - j) + vs.length) (fun _ _ => ?_)).weaken (by omega) (by omega)
  refine ((costs_ptr a _).bind (l' := 0) (h' := 2 + 2 * (xs.length - j) + vs.length) (fun p _ => ?_)).weaken (by omega) (by omega)
  refine ((costs_sizeOfArray c _ _).bind (l' := 0) (h' := 1 + 2 * (xs.length - j) + vs.length) (fun n hn => ?_)).weaken (by omega) (by omega)
  rw [h.shape.sizeOfAt rfl] at hn
  cases hn
  exact ((costs_insert c _ _ _ j vs).bind (fun values _ => (costs_setSize c _ _ _).bindPure)).weaken (by omega) (by simp only; omega)

theorem costs_eraseFromArray (h : AGood a (A ++ (xs, cap) :: B)) (j n : Nat) :
    Costs (AoA.eraseFromArray c a A.length j n) (a.eraseFromArray c A.length j n) 0 (4 + ((xs.length - (j + n)) + n)) := by
  unfold AoA.eraseFromArray LvArray.AoA.eraseFromArray
  refine ((costs_checkBounds2 c _ _ _).bind (l' := 0) (h' := 3 + ((xs.length - (j + n)) + n)) (fun _ _ => ?_)).weaken (by omega) (by omega)
  refine ((costs_ptr a _).bind (l' := 0) (h' := 2 + ((xs.length - (j + n)) + n)) (fun p _ => ?_)).weaken (by omega) (by omega)
  refine ((costs_sizeOfArray c _ _).bind (l' := 0) (h' := 1 + ((xs.length - (j + n)) + n)) (fun k hk => ?_)).weaken (by omega) (by omega)
  rw [h.shape.sizeOfAt rfl] at hk
  cases hk
  exact ((costs_erase c _ _ _ j n).bind (fun values _ => (costs_setSize c _ _ _).bindPure)).weaken (by omega) (by simp only; omega)

/-- The work of making room: none if there is room. -/
def roomCost (L : Layout T) (exceeded : Prop) [Decidable exceeded] : Nat :=
  if exceeded then 6 + 4 * L.length + 4 * Layout.total L else 0

theorem costs_growIf (h : AGood a (A ++ (xs, cap) :: B)) (n : Nat) (p : Prop) [Decidable p] (hp : p → cap < n) :
    Costs (AoA.growIf c (decide p) a A.length n) (a.growIf c (decide p) A.length n)
      (if p then 2 * (B.length + 1) else 0) (roomCost (A ++ (xs, cap) :: B) p) := by
  unfold AoA.growIf LvArray.AoA.growIf roomCost
  by_cases hq : p
  · simp only [hq, decide_true, if_true]
    have := costs_setCapacityOfArray (c := c) h n
    rwa [if_pos (hp hq)] at this
  · simp only [hq, decide_false, if_false, Bool.false_eq_true]
    exact costs_pure a

theorem costs_dynamicallyGrowArray (h : AGood a (A ++ (xs, cap) :: B)) (k : Nat) :
    Costs (AoA.dynamicallyGrowArray c a A.length k) (a.dynamicallyGrowArray c A.length k)
      (if cap < xs.length + k then 2 * (B.length + 1) else 0) (3 + roomCost (A ++ (xs, cap) :: B) (cap < xs.length + k)) := by
  unfold AoA.dynamicallyGrowArray LvArray.AoA.dynamicallyGrowArray
  refine ((costs_sizeOfArray c _ _).bind (l' := if cap < xs.length + k then 2 * (B.length + 1) else 0)
    (h' := 2 + roomCost (A ++ (xs, cap) :: B) (cap < xs.length + k)) (fun n hn => ?_)).weaken (by omega) (by omega)
  rw [h.shape.sizeOfAt rfl] at hn
  cases hn
  refine ((costs_capacityOfArray c _ _).bind (l' := if cap < xs.length + k then 2 * (B.length + 1) else 0)
    (h' := roomCost (A ++ (xs, cap) :: B) (cap < xs.length + k)) (fun n hn => ?_)).weaken (by omega) (by omega)
  rw [h.shape.capacityOfAt rfl] at hn
  cases hn
  exact costs_growIf h _ (cap < xs.length + k) (fun h => by simp only; omega)

/-- After making room the row is the same. -/
theorem dynamicallyGrow_good (h : AGood a (A ++ (xs, cap) :: B)) (k : Nat) {a' : AoA T}
    (ha : a.dynamicallyGrowArray c A.length k = .ok a') : ∃ cap', AGood a' (A ++ (xs, cap') :: B) := by
  rcases h.dynamicallyGrow (c := c) k with ⟨_, b, hb, hg, _⟩ | ⟨_, hb⟩
  · rw [ha] at hb; cases hb; exact ⟨_, hg⟩
  · rw [ha] at hb; cases hb

theorem costs_emplaceBackRow (h : AGood a (A ++ (xs, cap) :: B)) (v : T) :
    Costs (AoA.emplaceBack c a A.length v) (a.emplaceBack c A.length v)
      (if cap < xs.length + 1 then 2 * (B.length + 1) else 0) (10 + roomCost (A ++ (xs, cap) :: B) (cap < xs.length + 1)) :=
  (costs_dynamicallyGrowArray h 1).bind' (fun a' _ => costs_viewEmplaceBack c a' _ v) (by omega) (by omega)

theorem costs_appendToArrayRow [Inhabited T] (h : AGood a (A ++ (xs, cap) :: B)) (vs : List T) :
    Costs (AoA.appendToArray c a A.length vs) (a.appendToArray c A.length vs) 0
      (9 + vs.length + roomCost (A ++ (xs, cap) :: B) (cap < xs.length + vs.length)) :=
  (costs_dynamicallyGrowArray h vs.length).bind' (fun a' _ => costs_viewAppendToArray c a' _ vs) (by omega) (by omega)

theorem costs_emplaceRow (h : AGood a (A ++ (xs, cap) :: B)) (j : Nat) (v : T) :
    Costs (AoA.emplace c a A.length j v) (a.emplace c A.length j v) 0
      (11 + 2 * (xs.length - j) + roomCost (A ++ (xs, cap) :: B) (cap < xs.length + 1)) :=
  (costs_dynamicallyGrowArray h 1).bind' (fun a' ha => by
    obtain ⟨_, hg⟩ := dynamicallyGrow_good h 1 ha
    exact costs_viewEmplace hg j v) (by omega) (by omega)

theorem costs_insertIntoArrayRow [Inhabited T] (h : AGood a (A ++ (xs, cap) :: B)) (j : Nat) (vs : List T) :
    Costs (AoA.insertIntoArray c a A.length j vs) (a.insertIntoArray c A.length j vs) 0
      (10 + 2 * (xs.length - j) + vs.length + roomCost (A ++ (xs, cap) :: B) (cap < xs.length + vs.length)) :=
  (costs_dynamicallyGrowArray h vs.length).bind' (fun a' ha => by
    obtain ⟨_, hg⟩ := dynamicallyGrow_good h vs.length ha
    exact costs_viewInsertIntoArray hg j vs) (by omega) (by omega)

theorem growIf_good (h : AGood a (A ++ (xs, cap) :: B)) (n : Nat) {a' : AoA T}
    (ha : a.growIf c (decide (cap < n)) A.length n = .ok a') : ∃ cap', AGood a' (A ++ (xs, cap') :: B) := by
  have hfx := h.lay.fits (xs, cap) (by simp)
  simp only at hfx
  unfold LvArray.AoA.growIf at ha
  by_cases hg : cap < n
  · simp only [hg, decide_true, if_true] at ha
    rcases h.setCapacity (c := c) n with ⟨_, b, hb, hg, _⟩ | ⟨_, hb⟩
    · rw [ha] at hb; cases hb
      rw [List.take_of_length_le (by omega)] at hg
      exact ⟨_, hg⟩
    · rw [ha] at hb; cases hb
  · simp only [hg, decide_false, if_false, Bool.false_eq_true] at ha
    cases ha
    exact ⟨_, h⟩

theorem costs_resizeArrayRow (h : AGood a (A ++ (xs, cap) :: B)) (n : Nat) (v : T) :
    Costs (AoA.resizeArray c a A.length n v) (a.resizeArray c A.length n v) 0
      (5 + ((xs.length - n) + (n - xs.length)) + roomCost (A ++ (xs, cap) :: B) (cap < n)) := by
  unfold AoA.resizeArray LvArray.AoA.resizeArray
  refine Costs.thenFree ?_
  refine ((costs_capacityOfArray c _ _).bind (l' := 0) (h' := 3 + ((xs.length - n) + (n - xs.length)) +
    roomCost (A ++ (xs, cap) :: B) (cap < n)) (fun k hk => ?_)).weaken (by omega) (by omega)
  rw [h.shape.capacityOfAt rfl] at hk
  cases hk
  simp only
  refine (costs_growIf (c := c) h n (cap < n) (fun h => h)).bind' (l' := 0) (h' := 3 + ((xs.length - n) + (n - xs.length)))
    (fun a' ha => ?_) (by omega) (by omega)
  obtain ⟨_, hg⟩ := growIf_good h n ha
  refine ((costs_sizeOfArray c _ _).bind (l' := 0) (h' := 2 + ((xs.length - n) + (n - xs.length))) (fun k hk => ?_)).weaken
    (by omega) (by omega)
  rw [hg.shape.sizeOfAt rfl] at hk
  cases hk
  refine Costs.thenFree ?_
  refine ((costs_ptr a' _).bind (l' := 0) (h' := 1 + ((xs.length - n) + (n - xs.length))) (fun p _ => ?_)).weaken (by omega) (by omega)
  exact ((costs_resize c _ _ _ n v).bind (fun values _ => (costs_setSize c _ _ _).bindPure)).weaken (by omega) (by simp only; omega)

/-! ## Operations on the array of rows -/

/-- Appending a row costs a move of all offsets and sizes when they have to be reallocated. -/
theorem costs_appendRow (c : Cfg) (s : Shape) : Costs (Shape.appendRow c s) (s.appendRow c) 0
    (3 + (if s.offsets.cap < s.numArrays + 2 then 2 * (s.numArrays + 1) else 0) +
      (if s.sizes.cap < s.numArrays + 1 then 2 * s.numArrays else 0)) := by
  unfold Shape.appendRow LvArray.Shape.appendRow
  refine (Costs.thenOp (l := 0) (h := ((if s.offsets.cap < s.numArrays + 2 then 2 * (s.numArrays + 1) else 0) + 1) +
    ((if s.sizes.cap < s.numArrays + 1 then 2 * s.numArrays else 0) + 1)) fun off _ => ?_).weaken (by omega) (by omega)
  refine (costs_bufferEmplaceBack c.ix s.offsets (s.numArrays + 1) off).bind' (l' := 0) (fun o _ => ?_) (by omega) (Nat.le_refl _)
  exact (costs_bufferEmplaceBack c.ix s.sizes s.numArrays 0).bindPure

theorem costs_insertRow (c : Cfg) (s : Shape) (i : Nat) : Costs (Shape.insertRow c s i) (s.insertRow c i) 0 (7 + 8 * s.numArrays) := by
  unfold Shape.insertRow LvArray.Shape.insertRow
  refine Costs.thenFree ?_
  refine (Costs.thenOp (l := 0) (h := 6 + 8 * s.numArrays) fun off _ => ?_).weaken (by omega) (by omega)
  refine (costs_bufferEmplace c.ix s.offsets (s.numArrays + 1) (i + 1) off).bind' (l' := 0) (h' := 4 * s.numArrays + 1) (fun o _ => ?_)
    (by omega) (by omega)
  exact (costs_bufferEmplace c.ix s.sizes s.numArrays i 0).bindPure

theorem costs_eraseRow (c : Cfg) (s : Shape) (i : Nat) : Costs (Shape.eraseRow c s i) (s.eraseRow c i) 0 (3 + 2 * s.numArrays) := by
  unfold Shape.eraseRow LvArray.Shape.eraseRow
  refine (costs_bufferErase c.ix s.offsets (s.numArrays + 1) (i + 1)).bind' (l' := 0) (h' := s.numArrays + 1) (fun o _ => ?_)
    (by omega) (by omega)
  exact (costs_bufferErase c.ix s.sizes s.numArrays i).bindPure

theorem roomCost_le (L : Layout T) (p : Prop) [Decidable p] : roomCost L p ≤ 6 + 4 * L.length + 4 * Layout.total L := by
  unfold roomCost; split <;> omega

theorem costs_insertArray [Inhabited T] (h : AGood a (A ++ B)) (vs : List T) :
    Costs (AoA.insertArray c a A.length vs) (a.insertArray c A.length vs) 0
      (26 + 12 * (A ++ B).length + 4 * Layout.total (A ++ B) + vs.length) := by
  unfold AoA.insertArray LvArray.AoA.insertArray
  refine (costs_insertRow c a.shape A.length).bind' (l' := 0) (h' := 19 + 4 * (A ++ B).length + 4 * Layout.total (A ++ B) + vs.length)
    (fun s hs => ?_) (by omega) (by rw [h.shape.num]; omega)
  obtain ⟨s', h1, h2⟩ := h.insertRow (c := c)
  rw [hs] at h1
  cases h1
  refine (costs_appendToArrayRow (c := c) h2 vs).weaken (by omega) ?_
  have := roomCost_le (A ++ ([], 0) :: B) (0 < ([] : List T).length + vs.length)
  simp only [List.length_append, List.length_cons, total_append, total_cons] at this ⊢
  omega

theorem costs_eraseArray (h : AGood a (A ++ (xs, cap) :: B)) :
    Costs (AoA.eraseArray c a A.length) (a.eraseArray c A.length) 0
      (9 + 6 * (A ++ (xs, cap) :: B).length + 4 * Layout.total (A ++ (xs, cap) :: B)) := by
  unfold AoA.eraseArray LvArray.AoA.eraseArray
  refine Costs.thenFree ?_
  refine (costs_setCapacityOfArray (c := c) h 0).bind' (l' := 0) (h' := 3 + 2 * (A ++ (xs, cap) :: B).length) (fun a' ha => ?_)
    (by omega) (by omega)
  obtain ⟨a1, h1, hg, _⟩ := h.setCapacityZero (c := c)
  rw [ha] at h1
  cases h1
  refine ((costs_eraseRow c _ _).bindPure).weaken (by omega) ?_
  rw [hg.shape.num]
  simp only [List.length_append, List.length_cons]
  omega

end LvArray.Counted

import Verif.CountedSorted
import Verif.CountedRows
import Verif.CrsStep
/-!
# What `addToRow` costs

Helper lemmas for the property that operations have the documented costs, in builds without assertions.
-/

namespace LvArray.Counted

open LvArray.Spec LvArray.Layout LvArray.sortedArrayManipulation

variable {V : Type} [Add V] {c : Cfg} (hc : c.debug = false) {m : Crs V} {A B : Layout (Nat × V)} {xs : List (Nat × V)} {cap : Nat}

theorem costs_addAt (c : Cfg) (m : Crs V) (row pos : Nat) (v : V) : Costs (Crs.addAt c m row pos v) (m.addAt c row pos v) 2 2 :=
  (costs_op _).bind (fun _ _ => (costs_op _).bindPure)

include hc

theorem costs_assertColumn (m : Crs V) (row nnz pos col : Nat) :
    Costs (Crs.assertColumn c m row nnz pos col) (m.assertColumn c row nnz pos col) 0 0 := by
  unfold Crs.assertColumn LvArray.Crs.assertColumn
  rw [hc]
  exact costs_pure ()

theorem costs_assertFound (m : Crs V) (row pos col : Nat) :
    Costs (Crs.assertFound c m row pos col) (m.assertFound c row pos col) 0 0 := by
  unfold Crs.assertFound LvArray.Crs.assertFound
  rw [hc]
  exact costs_pure ()

theorem costs_binaryLoop (row nnz : Nat) : ∀ (args : List (Nat × V)) (m : Crs V) (curPos : Nat),
    Costs (Crs.binaryLoop c row nnz m curPos args) (LvArray.Crs.binaryLoop c row nnz m curPos args) 0
      (args.length * (Nat.log2 (2 * nnz) + 2))
  | [], m, _ => (costs_pure m).weaken (by omega) (by omega)
  | (col, v) :: rest, m, curPos => by
    unfold Crs.binaryLoop LvArray.Crs.binaryLoop
    rw [List.length_cons, Nat.succ_mul]
    split
    · exact (costs_free _).weaken (by omega) (by omega)
    · refine (costs_find_le hc _ _ (nnz - curPos) nnz col (by omega)).bind' (l' := 0)
        (h' := rest.length * (Nat.log2 (2 * nnz) + 2) + 2) (fun k _ => ?_) (by omega) (by omega)
      refine (costs_assertColumn hc m row nnz (k + curPos) col).bind' (l' := 0)
        (h' := rest.length * (Nat.log2 (2 * nnz) + 2) + 2) (fun _ _ => ?_) (by omega) (by omega)
      exact (costs_addAt c m row _ v).bind' (fun m' _ => costs_binaryLoop row nnz rest m' _) (by omega) (by omega)

theorem costs_unsortedLoop (row nnz : Nat) : ∀ (args : List (Nat × V)) (m : Crs V),
    Costs (Crs.unsortedLoop c row nnz m args) (LvArray.Crs.unsortedLoop c row nnz m args) 0
      (args.length * (Nat.log2 (2 * nnz) + 2))
  | [], m => (costs_pure m).weaken (by omega) (by omega)
  | (col, v) :: rest, m => by
    unfold Crs.unsortedLoop LvArray.Crs.unsortedLoop
    rw [List.length_cons, Nat.succ_mul]
    refine (costs_find hc _ _ nnz col).bind' (l' := 0)
      (h' := rest.length * (Nat.log2 (2 * nnz) + 2) + 2) (fun k _ => ?_) (by omega) (by omega)
    refine (costs_assertColumn hc m row nnz k col).bind' (l' := 0)
      (h' := rest.length * (Nat.log2 (2 * nnz) + 2) + 2) (fun _ _ => ?_) (by omega) (by omega)
    exact (costs_addAt c m row _ v).bind' (fun m' _ => costs_unsortedLoop row nnz rest m') (by omega) (by omega)

omit hc in
/-- Finding a column takes as many steps as the distance to it. -/
theorem costs_linearScan (h : CGood m (A ++ (xs, cap) :: B)) (curPos k : Nat) : ∀ (g f g2 : List (Nat × V)) (x : V),
    xs = f ++ g ++ (k, x) :: g2 → (∀ y ∈ g, y.1 ≠ k) → ∀ fuel, g.length < fuel →
    Costs (Crs.linearScan m A.length curPos k fuel f.length) (LvArray.Crs.linearScan m A.length curPos k fuel f.length) 0 (g.length + 1) := by
  intro g
  induction g with
  | nil =>
    intro f g2 x hx _ fuel hfu
    obtain ⟨fuel, rfl⟩ : ∃ q, fuel = q + 1 := ⟨fuel - 1, by omega⟩
    unfold Crs.linearScan LvArray.Crs.linearScan
    refine (costs_op _).bind' (l' := 0) (h' := 0) (fun y hy => ?_) (by omega) (by simp)
    rw [LvArray.Crs.column_ok h f.length (by rw [hx]; simp)] at hy
    cases hy
    rw [if_pos (by simp [hx]), if_pos (by simp [hx])]
    exact costs_pure _
  | cons y g ih =>
    intro f g2 x hx hno fuel hfu
    obtain ⟨fuel, rfl⟩ : ∃ q, fuel = q + 1 := ⟨fuel - 1, by omega⟩
    unfold Crs.linearScan LvArray.Crs.linearScan
    refine (costs_op _).bind' (l' := 0) (h' := g.length + 1) (fun z hz => ?_) (by omega) (by simp; omega)
    rw [LvArray.Crs.column_ok h f.length (by rw [hx]; simp)] at hz
    cases hz
    have hy : (xs[f.length]'(by rw [hx]; simp)) = y := by simp [hx]
    rw [hy, if_neg (hno y (by simp)), if_neg (hno y (by simp))]
    have := ih (f ++ [y]) g2 x (by rw [hx]; simp) (fun z hz => hno z (by simp [hz])) fuel (by simp at hfu; omega)
    rw [List.length_append, List.length_singleton] at this
    exact this

/-- The scans of the row together pass every entry at most once. -/
theorem costs_linearLoop (args : List (Nat × V)) : ∀ (m : Crs V) (f g : List (Nat × V)), CGood m (A ++ (f ++ g, cap) :: B) →
    Increasing Prod.fst (f ++ g) → Increasing Prod.fst args → (∀ a ∈ args, ∃ x ∈ g, x.1 = a.1) →
    Costs (Crs.linearLoop c A.length (f ++ g).length m f.length args) (LvArray.Crs.linearLoop c A.length (f ++ g).length m f.length args)
      0 (3 * g.length) := by
  induction args with
  | nil => intro m f g h _ _ _; exact (costs_pure m).weaken (by omega) (by omega)
  | cons a args ih =>
    intro m f g h hi ha hp
    obtain ⟨k, v⟩ := a
    have hg : Increasing Prod.fst g := (List.pairwise_append.1 hi).2.1
    obtain ⟨g1, x, g3, rfl, h1, h2⟩ := LvArray.Crs.split_at hg (hp (k, v) (by simp))
    have hre : f ++ (g1 ++ (k, x) :: g3) = (f ++ g1) ++ (k, x) :: g3 := by simp
    unfold Crs.linearLoop LvArray.Crs.linearLoop
    have hlen : (f ++ (g1 ++ (k, x) :: g3)).length - f.length = (g1 ++ (k, x) :: g3).length := by simp
    have hno : ∀ y ∈ g1, y.1 ≠ k := fun y hy => by have := h1 y hy; omega
    have hscan := LvArray.Crs.linearScan_ok (m := m) h f.length k g1 f g3 x hre hno (g1 ++ (k, x) :: g3).length (by simp)
    have hcost := costs_linearScan (m := m) h f.length k g1 f g3 x hre hno (g1 ++ (k, x) :: g3).length (by simp)
    rw [hlen]
    refine hcost.bind' (l' := 0) (h' := 2 + 3 * g3.length) (fun pos hpos => ?_) (by omega)
      (by simp only [List.length_append, List.length_cons]; omega)
    rw [hscan] at hpos
    cases hpos
    rw [hre] at h hi ⊢
    refine (costs_assertFound hc m _ _ k).bind' (l' := 0) (h' := 2 + 3 * g3.length) (fun _ _ => ?_) (by omega) (by omega)
    refine (costs_addAt c m _ _ v).bind' (l' := 0) (h' := 3 * g3.length) (fun m1 hm1 => ?_) (by omega) (by omega)
    obtain ⟨m2, e1, n1, c1⟩ := LvArray.Crs.addAt_ok (c := c) h v
    rw [hm1] at e1
    cases e1
    have hre2 : (f ++ g1) ++ (k, x + v) :: g3 = (f ++ g1 ++ [(k, x + v)]) ++ g3 := by simp
    rw [hre2] at c1
    have hk2 : (f ++ g1 ++ [(k, x + v)] ++ g3).map (·.1) = ((f ++ g1) ++ (k, x) :: g3).map (·.1) := by simp
    have hl2 : (f ++ g1 ++ [(k, x + v)] ++ g3).length = ((f ++ g1) ++ (k, x) :: g3).length := by
      simpa using congrArg List.length hk2
    have := ih m1 (f ++ g1 ++ [(k, x + v)]) g3 c1 (LvArray.Crs.increasing_of_keys hi hk2) (List.pairwise_cons.1 ha).2
      (by
        intro b hb
        obtain ⟨z, hz, hzb⟩ := hp b (by simp [hb])
        refine ⟨z, ?_, hzb⟩
        have hkb : k < b.1 := (List.pairwise_cons.1 ha).1 b hb
        simp only [List.mem_append, List.mem_cons] at hz
        rcases hz with hz | rfl | hz
        · have := h1 z hz; omega
        · simp only at hzb; omega
        · exact hz)
    rw [hl2, List.length_append (bs := [(k, x + v)]), List.length_singleton] at this
    exact this

theorem costs_addToRowBinarySearch (h : CGood m (A ++ (xs, cap) :: B)) (args : List (Nat × V)) :
    Costs (Crs.addToRowBinarySearch c m A.length args) (m.addToRowBinarySearch c A.length args) 0
      (2 + args.length * (Nat.log2 (2 * xs.length) + 2)) := by
  unfold Crs.addToRowBinarySearch LvArray.Crs.addToRowBinarySearch
  refine Costs.thenFree ?_
  refine (costs_sizeOfArray c _ _).bind' (l' := 0) (h' := 1 + args.length * (Nat.log2 (2 * xs.length) + 2)) (fun n hn => ?_)
    (by omega) (by omega)
  rw [h.shape.sizeOfAt rfl] at hn
  cases hn
  refine Costs.thenFree ?_
  exact (costs_op _).bind' (fun _ _ => costs_binaryLoop hc _ _ args m 0) (by omega) (by simp)

theorem costs_addToRowBinarySearchUnsorted (h : CGood m (A ++ (xs, cap) :: B)) (args : List (Nat × V)) :
    Costs (Crs.addToRowBinarySearchUnsorted c m A.length args) (m.addToRowBinarySearchUnsorted c A.length args) 0
      (2 + args.length * (Nat.log2 (2 * xs.length) + 2)) := by
  unfold Crs.addToRowBinarySearchUnsorted LvArray.Crs.addToRowBinarySearchUnsorted
  refine (costs_sizeOfArray c _ _).bind' (l' := 0) (h' := 1 + args.length * (Nat.log2 (2 * xs.length) + 2)) (fun n hn => ?_)
    (by omega) (by omega)
  rw [h.shape.sizeOfAt rfl] at hn
  cases hn
  refine Costs.thenFree ?_
  exact (costs_op _).bind' (fun _ _ => costs_unsortedLoop hc _ _ args m) (by omega) (by simp)

theorem costs_addToRowLinearSearch (h : CGood m (A ++ (xs, cap) :: B)) (hx : Increasing Prod.fst xs) {args : List (Nat × V)}
    (ha : Increasing Prod.fst args) (hp : ∀ a ∈ args, ∃ x ∈ xs, x.1 = a.1) :
    Costs (Crs.addToRowLinearSearch c m A.length args) (m.addToRowLinearSearch c A.length args) 0 (2 + 3 * xs.length) := by
  unfold Crs.addToRowLinearSearch LvArray.Crs.addToRowLinearSearch
  refine Costs.thenFree ?_
  refine (costs_sizeOfArray c _ _).bind' (l' := 0) (h' := 1 + 3 * xs.length) (fun n hn => ?_) (by omega) (by omega)
  rw [h.shape.sizeOfAt rfl] at hn
  cases hn
  refine Costs.thenFree ?_
  exact (costs_op _).bind' (fun _ _ => costs_linearLoop hc args m [] xs h hx ha hp) (by omega) (by omega)

theorem costs_addToRow (h : CGood m (A ++ (xs, cap) :: B)) (hx : Increasing Prod.fst xs) {args : List (Nat × V)}
    (ha : Increasing Prod.fst args) (hp : ∀ a ∈ args, ∃ x ∈ xs, x.1 = a.1) :
    Costs (Crs.addToRow c m A.length args) (m.addToRow c A.length args) 0
      (3 + (if args.length < xs.length / 4 ∧ 64 < xs.length then args.length * (Nat.log2 (2 * xs.length) + 2) else 3 * xs.length)) := by
  unfold Crs.addToRow LvArray.Crs.addToRow
  refine (costs_sizeOfArray c _ _).bind' (l' := 0) (h' := 2 + (if args.length < xs.length / 4 ∧ 64 < xs.length then
    args.length * (Nat.log2 (2 * xs.length) + 2) else 3 * xs.length)) (fun n hn => ?_) (by omega) (by omega)
  rw [h.shape.sizeOfAt rfl] at hn
  cases hn
  simp only
  split
  · exact costs_addToRowBinarySearch hc h args
  · exact costs_addToRowLinearSearch hc h hx ha hp

end LvArray.Counted

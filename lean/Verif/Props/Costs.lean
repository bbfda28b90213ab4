import Verif.CountedSets
import Verif.CountedAppend
import Verif.CountedCrs
import Verif.Props.SortedSet
import Verif.Props.ArrayOfArrays
import Verif.Props.Sparse
import Mathlib.Data.Finset.Range
import Mathlib.Tactic.Ring
/-!
# C69: operations have the documented costs

`Costs m x lo hi` (Spec/Costs.lean) says that the program `m`, which is `x` with a counter of the accesses to elements, sizes and
offsets, gives what `x` gives, and that whenever it returns it has counted between `lo` and `hi` accesses.  `CostsAtMost` leaves out
the lower bound.
-/

namespace LvArray.Props

open LvArray LvArray.Spec LvArray.Layout LvArray.Counted

set_option linter.unusedSectionVars false

/-! ### Sets -/

/-- **C69 (sets).** In a build without assertions looking up a value in a `SortedArray` of `n` elements takes at most
`log2( 2 n ) + 1` accesses, and inserting or removing one value a number of accesses linear in `n`: the documented O( log n ) and
O( n ).  Every element type, every buffer, every state. -/
theorem C69_set_operations {T : Type} [LT T] [DecidableLT T] [DecidableEq T] (c : Cfg) (hc : c.debug = false) (a : SortedArr T) (v : T) :
    CostsAtMost (Counted.SortedArr.contains c a v) (a.contains c v) (Nat.log2 (2 * a.size) + 1) ∧
    CostsAtMost (Counted.SortedArr.insert c a v) (a.insert c v) (6 * a.size + 4) ∧
    CostsAtMost (Counted.SortedArr.remove c a v) (a.remove c v) (3 * a.size + 2) := by
  have hl : Nat.log2 (2 * a.size) ≤ 2 * a.size := by
    by_cases h : 2 * a.size = 0
    · rw [h]; simp [Nat.log2_zero]
    · exact Nat.le_of_lt (Nat.lt_of_lt_of_le (Nat.lt_two_pow_self) (Nat.log2_self_le h))
  exact ⟨costs_setContains hc a v, (costs_setInsert hc a v).weaken (by omega) (by omega),
    (costs_setRemove hc a v).weaken (by omega) (by omega)⟩

/-- A build without assertions. -/
def costRelease : Cfg := { trivial := true, debug := false, boundsCheck := false }

/-- What a counting call counts from zero. -/
def countOf {α : Type} (m : Counted α) : Option Nat := (m 0).toOption.map (·.2)

-- eight elements: three comparisons and one to see whether the value found is the right one; removing the first moves the others
example : ((SortedArr.init Nat none).run costRelease [.insertMany [1, 3, 5, 7, 9, 11, 13, 15]]).toOption.map (fun r =>
    (countOf (Counted.SortedArr.contains costRelease r.1 9), countOf (Counted.SortedArr.insert costRelease r.1 0),
     countOf (Counted.SortedArr.remove costRelease r.1 1), countOf (Counted.SortedArr.insertMany costRelease r.1 [20, 21, 22]),
     countOf (Counted.SortedArr.removeMany costRelease r.1 [1, 2, 22]))) =
    some (some 4, some 12, some 13, some 21, some 21) := by decide +kernel

/-- **C69 (batches).** In a build without assertions inserting `m` values at once into a `SortedArray` of `n` elements takes at most
`m ( 2 log2( 2 n ) + 3 ) + 4 n` accesses, removing `m` values at most `m ( log2( 2 n ) + 2 ) + n`: the array is passed over once and every
value is searched for. -/
theorem C69_set_batches {T : Type} [LT T] [DecidableLT T] [DecidableEq T] [Inhabited T] (c : Cfg) (hc : c.debug = false) (a : SortedArr T)
    (vs : List T) :
    CostsAtMost (Counted.SortedArr.insertMany c a vs) (a.insertMany c vs) (vs.length * (2 * Nat.log2 (2 * a.size) + 3) + 4 * a.size) ∧
    CostsAtMost (Counted.SortedArr.removeMany c a vs) (a.removeMany c vs) (vs.length * (Nat.log2 (2 * a.size) + 2) + a.size) :=
  ⟨costs_setInsertMany hc a vs, costs_setRemoveMany hc a vs⟩

/-- The array holding `0, …, n - 1`, and the values `n, …, 2 n - 1`. -/
theorem range_reached (c : Cfg) (n : Nat) : ∃ a : SortedArr Nat, (∃ outs, (SortedArr.init Nat none).run c [.insertMany (List.range n)] =
    .ok (a, outs)) ∧ SGood none a (Finset.range n) := by
  have h : Spec.setRun (T := Nat) none ∅ [.insertMany (List.range n)] = some (∅ ∪ (List.range n).toFinset,
      [.num ((List.range n).toFinset \ ∅).card]) := by
    have hs : Spec.sortedUnique (List.range n) := List.pairwise_lt_range
    have hf : Spec.fits none (List.range n).toFinset.card := by intro k hk; cases hk
    simp [Spec.setRun, Spec.setStep, hs, hf]
  obtain ⟨a, h1, h2⟩ := set_run_good c none _ _ ∅ _ _ (set_init_good none) h
  refine ⟨a, ⟨_, h1⟩, ?_⟩
  have : (∅ ∪ (List.range n).toFinset : Finset Nat) = Finset.range n := by ext x; simp
  rw [← this]
  exact h2

/-- **C69 (a documented cost that is not met).** docs/sphinx/SortedArray.rst says that `a.insert( first, last )` is
O( `a.size()` + `distance( first, last )` ).  It is not: there is no constant `K` such that inserting a sorted range takes at most
`K ( n + m + 1 )` accesses, not even for arrays of integers. -/
theorem C69_batch_insert_not_linear (c : Cfg) (hc : c.debug = false) :
    ¬ ∃ K, ∀ (ops : List (SetOp Nat)) (a : SortedArr Nat) (outs : List (SetOut Nat)) (vs : List Nat),
      (SortedArr.init Nat none).run c ops = .ok (a, outs) → vs.Pairwise (· < ·) →
      CostsAtMost (Counted.SortedArr.insertMany c a vs) (a.insertMany c vs) (K * (a.size + vs.length + 1)) := by
  rintro ⟨K, hK⟩
  obtain ⟨a, ⟨outs, hr⟩, hg⟩ := range_reached c (2 ^ (3 * K + 1))
  generalize hn : 2 ^ (3 * K + 1) = n at hr hg
  have hn1 : 1 ≤ n := by rw [← hn]; exact Nat.one_le_two_pow
  have hlog : 3 * K + 1 ≤ Nat.log2 (n + 1) := (Nat.le_log2 (by omega)).2 (by omega)
  have hsz : a.size = n := by rw [hg.size]; simp
  have hv : ((List.range n).map (· + n)).Pairwise (· < ·) := by
    rw [List.pairwise_map]
    exact List.pairwise_lt_range.imp (by omega)
  have hup := hK _ a outs _ hr hv
  obtain ⟨a', ha', _⟩ := SortedArr.insertMany_good c hg _ hv (by intro k hk; cases hk)
  have hfind : ∀ v ∈ (List.range n).map (· + n), sortedArrayManipulation.find c sortedArrayManipulation.less
      (fun i => (SortedArr.target c a.size).read a.buf i) a.size v = .ok a.size := by
    intro v hv
    obtain ⟨f1, f2, e1, e2, e3, e4⟩ := sortedArrayManipulation.find_keys c (fun i => (SortedArr.target c a.size).read a.buf i) _ v (sort_increasing (Finset.range n))
      (fun i hi => SortedArr.read_target c hg a.size i hi)
    have hl : ((Finset.range n).sort (· ≤ ·)).length = a.size := by rw [hsz]; simp
    rw [hl] at e2
    rw [e2]
    have : f2 = [] := by
      cases f2 with
      | nil => rfl
      | cons x f2 =>
        have h1 := e4 x (by simp)
        have h2 : x ∈ (Finset.range n).sort (· ≤ ·) := by rw [e1]; simp
        simp only [Finset.mem_sort, Finset.mem_range] at h2
        simp only [List.mem_map, List.mem_range] at hv
        obtain ⟨w, _, rfl⟩ := hv
        omega
    rw [← hl, e1, this]
    simp
  have hlow := costs_setInsertMany_behind hc a (by omega) hfind
  have := hlow.le ha' hup
  simp only [List.length_map, List.length_range, hsz] at this
  have h2 : n * (3 * K + 1) ≤ n * Nat.log2 (n + 1) := Nat.mul_le_mul_left _ hlog
  have h3 : n * (3 * K + 1) = K * n + K * n + K * n + n := by ring
  have h4 : K * (n + n + 1) = K * n + K * n + K := by ring
  have h5 : K ≤ K * n := Nat.le_mul_of_pos_right _ hn1
  omega

/-! ### Arrays of arrays -/

variable {T : Type} [Inhabited T]

/-- `M`, the sum of the capacities of the arrays. -/
def sumOfCapacities (L : List (List T × Nat)) : Nat := (L.map (·.2)).sum

/-- **C69 (operations on one array).** If the capacity of the array is not exceeded the operations that modify one array have the costs
of those of a `std::vector`: constant for `emplaceBack`, linear in the elements behind the position and the new elements for the others.
-/
theorem C69_rows_with_room (c : Cfg) {a : AoA T} {L : List (List T × Nat)} (h : Reach c a L) (i : Nat) (hi : i < L.length)
    (v : T) (vs : List T) (j k : Nat) :
    (L[i].1.length < L[i].2 → CostsAtMost (Counted.AoA.emplaceBack c a i v) (a.emplaceBack c i v) 10) ∧
    (L[i].1.length < L[i].2 → CostsAtMost (Counted.AoA.emplace c a i j v) (a.emplace c i j v) (11 + 2 * (L[i].1.length - j))) ∧
    (L[i].1.length + vs.length ≤ L[i].2 →
      CostsAtMost (Counted.AoA.appendToArray c a i vs) (a.appendToArray c i vs) (9 + vs.length)) ∧
    (L[i].1.length + vs.length ≤ L[i].2 →
      CostsAtMost (Counted.AoA.insertIntoArray c a i j vs) (a.insertIntoArray c i j vs) (10 + 2 * (L[i].1.length - j) + vs.length)) ∧
    CostsAtMost (Counted.AoA.eraseFromArray c a i j k) (a.eraseFromArray c i j k) (4 + (L[i].1.length - (j + k)) + k) ∧
    (k ≤ L[i].2 → CostsAtMost (Counted.AoA.resizeArray c a i k v) (a.resizeArray c i k v)
      (5 + (L[i].1.length - k) + (k - L[i].1.length))) := by
  have hg := reach_good h
  obtain ⟨A, xs, cap, B, rfl, rfl, e⟩ := split1 hi
  rw [e]
  simp only
  refine ⟨fun hl => ?_, fun hl => ?_, fun hl => ?_, fun hl => ?_, ?_, fun hl => ?_⟩
  · refine (costs_emplaceBackRow hg v).weaken (by omega) ?_
    unfold roomCost; rw [if_neg (by omega)]
  · refine (costs_emplaceRow hg j v).weaken (by omega) ?_
    unfold roomCost; rw [if_neg (by omega)]; omega
  · refine (costs_appendToArrayRow hg vs).weaken (by omega) ?_
    unfold roomCost; rw [if_neg (by omega)]; omega
  · refine (costs_insertIntoArrayRow hg j vs).weaken (by omega) ?_
    unfold roomCost; rw [if_neg (by omega)]; omega
  · exact (costs_eraseFromArray hg j k).weaken (by omega) (by omega)
  · refine (costs_resizeArrayRow hg k v).weaken (by omega) ?_
    unfold roomCost; rw [if_neg (by omega)]; omega

/-- **C69 (operations on one array, without room).** Otherwise there is an added cost that is linear in the number of arrays and the sum of
the capacities. -/
theorem C69_rows_without_room (c : Cfg) {a : AoA T} {L : List (List T × Nat)} (h : Reach c a L) (i : Nat) (hi : i < L.length)
    (v : T) (vs : List T) (j k : Nat) :
    CostsAtMost (Counted.AoA.emplaceBack c a i v) (a.emplaceBack c i v) (16 + 4 * L.length + 4 * sumOfCapacities L) ∧
    CostsAtMost (Counted.AoA.emplace c a i j v) (a.emplace c i j v)
      (17 + 2 * (L[i].1.length - j) + 4 * L.length + 4 * sumOfCapacities L) ∧
    CostsAtMost (Counted.AoA.appendToArray c a i vs) (a.appendToArray c i vs) (15 + vs.length + 4 * L.length + 4 * sumOfCapacities L) ∧
    CostsAtMost (Counted.AoA.insertIntoArray c a i j vs) (a.insertIntoArray c i j vs)
      (16 + 2 * (L[i].1.length - j) + vs.length + 4 * L.length + 4 * sumOfCapacities L) ∧
    CostsAtMost (Counted.AoA.resizeArray c a i k v) (a.resizeArray c i k v)
      (11 + (L[i].1.length - k) + (k - L[i].1.length) + 4 * L.length + 4 * sumOfCapacities L) ∧
    CostsAtMost (Counted.AoA.setCapacityOfArray c a i k) (a.setCapacityOfArray c i k) (6 + 4 * L.length + 4 * sumOfCapacities L) := by
  have hg := reach_good h
  obtain ⟨A, xs, cap, B, rfl, rfl, e⟩ := split1 hi
  rw [e]
  simp only
  have hs : ∀ (p : Prop) [Decidable p], roomCost (A ++ (xs, cap) :: B) p ≤
      6 + 4 * (A ++ (xs, cap) :: B).length + 4 * sumOfCapacities (A ++ (xs, cap) :: B) := fun p _ => roomCost_le _ p
  refine ⟨(costs_emplaceBackRow hg v).weaken (by omega) ?_, (costs_emplaceRow hg j v).weaken (by omega) ?_,
    (costs_appendToArrayRow hg vs).weaken (by omega) ?_, (costs_insertIntoArrayRow hg j vs).weaken (by omega) ?_,
    (costs_resizeArrayRow hg k v).weaken (by omega) ?_, (costs_setCapacityOfArray hg k).weaken (by omega) (Nat.le_refl _)⟩
  · have := hs (cap < xs.length + 1); omega
  · have := hs (cap < xs.length + 1); omega
  · have := hs (cap < xs.length + vs.length); omega
  · have := hs (cap < xs.length + vs.length); omega
  · have := hs (cap < k); omega

/-- **C69 (inserting and erasing arrays).** `insertArray` and `eraseArray` are linear in the number of arrays, the sum of the capacities and
the number of new elements, as documented. -/
theorem C69_insert_erase_array (c : Cfg) {a : AoA T} {L : List (List T × Nat)} (h : Reach c a L) (i : Nat) (vs : List T) :
    (i ≤ L.length → CostsAtMost (Counted.AoA.insertArray c a i vs) (a.insertArray c i vs)
      (26 + 12 * L.length + 4 * sumOfCapacities L + vs.length)) ∧
    (i < L.length → CostsAtMost (Counted.AoA.eraseArray c a i) (a.eraseArray c i) (9 + 6 * L.length + 4 * sumOfCapacities L)) := by
  have hg := reach_good h
  refine ⟨fun hi => ?_, fun hi => ?_⟩
  · have e : L = L.take i ++ L.drop i := (List.take_append_drop i L).symm
    have hl : (L.take i).length = i := by simp; omega
    have := costs_insertArray (c := c) (a := a) (A := L.take i) (B := L.drop i) (by rw [← e]; exact hg) vs
    rw [hl, ← e] at this
    exact this
  · obtain ⟨A, xs, cap, B, rfl, rfl, e⟩ := split1 hi
    exact costs_eraseArray hg

/-- **C69 (appending arrays).** `appendArray( n )` takes at most `13 + n` accesses, the documented O( n ), if none of the three buffers
has to be reallocated, and a number of accesses linear in `n`, the number of arrays and the sum of the capacities in every case. -/
theorem C69_appendArray (c : Cfg) {a : AoA T} {L : List (List T × Nat)} (h : Reach c a L) (n : Nat) :
    (L.length + 2 ≤ a.shape.offsets.cap → L.length + 1 ≤ a.shape.sizes.cap → sumOfCapacities L + n ≤ a.values.cap →
      CostsAtMost (Counted.AoA.appendArraySize c a n) (a.appendArraySize c n) (13 + n)) ∧
    CostsAtMost (Counted.AoA.appendArraySize c a n) (a.appendArraySize c n) (15 + n + 4 * L.length + 2 * sumOfCapacities L) := by
  have hg := reach_good h
  refine ⟨fun h1 h2 h3 => (costs_appendArraySize hg n).weaken (by omega) ?_, (costs_appendArraySize hg n).weaken (by omega) ?_⟩
  · have h3 : Layout.total L + n ≤ a.values.cap := h3
    unfold relocation
    rw [if_neg (by omega), if_neg (by omega), if_neg (by omega)]
    omega
  · have h1 := relocation_le a.shape.offsets.cap (L.length + 1) 1
    have h2 := relocation_le a.shape.sizes.cap L.length 1
    have h3 : relocation a.values.cap (Layout.total L) n ≤ 2 * sumOfCapacities L := relocation_le _ _ _
    omega

/-- **C69 (appending arrays, amortised).** Any sequence of `appendArray( n )` to an array of arrays takes at most 21 accesses for every call
and 5 for every new element, besides an amount that is linear in the size before the first call: the documented O( n ) per call on average. -/
theorem C69_appendArray_amortised (c : Cfg) {a : AoA T} {L : List (List T × Nat)} (h : Reach c a L) (ns : List Nat) :
    CostsAtMost (ns.foldlM (Counted.AoA.appendArraySize c) a) (ns.foldlM (AoA.appendArraySize c) a)
      (21 * ns.length + 5 * ns.sum + (8 * L.length + 4 * sumOfCapacities L + 4)) := by
  have hg := reach_good h
  refine (costs_appendMany ns hg).weaken (by omega) ?_
  have h1 := pot_le a.shape.offsets.cap (L.length + 1)
  have h2 := pot_le a.shape.sizes.cap L.length
  have h3 : pot a.values.cap (Layout.total L) ≤ 4 * sumOfCapacities L := pot_le _ _
  omega

-- three arrays with 3, 4 and 2 elements, the first with room for one more
example : (AoA.mk' costRelease 2 4 >>= fun a => AoA.run (T := Nat) costRelease a
      [.appendToArray 0 [1, 2, 3], .appendToArray 1 [4, 5, 6, 7], .appendArraySize 2]).toOption.map (fun a =>
    (countOf (Counted.AoA.emplaceBack costRelease a 0 9), countOf (Counted.AoA.emplaceBack costRelease a 1 9),
     countOf (Counted.AoA.insertArray costRelease a 1 [7]), countOf (Counted.AoA.eraseArray costRelease a 1),
     countOf (Counted.AoA.appendArraySize costRelease a 3))) =
    some (some 7, some 20, some 41, some 23, some 16) := by decide +kernel

/-- A new array of `n` arrays without capacity is reached. -/
theorem reach_new (c : Cfg) (n : Nat) : ∃ a : AoA T, AoA.mk' c n 0 = .ok a ∧ Reach c a (List.replicate n ([], 0)) := by
  obtain ⟨a, h1, h2⟩ := mk_good (T := T) c n 0
  exact ⟨a, h1, n, 0, [], a, by simp [NoEmptyInsert], h1, rfl, rfl⟩

/-- **C69 (a documented cost that is not met).** docs/sphinx/ArrayOfArrays.rst says that `emplaceBack` is O( M ) if the array is full, M
the sum of the capacities.  It is not: there is no constant `K` such that it takes at most `K ( M + 1 )` accesses, because the offsets of all
later arrays have to be changed even if these are empty. -/
theorem C69_emplaceBack_not_linear_in_capacities (c : Cfg) :
    ¬ ∃ K, ∀ (a : AoA Nat) (L : List (List Nat × Nat)) (i v : Nat), Reach c a L → i < L.length →
      CostsAtMost (Counted.AoA.emplaceBack c a i v) (a.emplaceBack c i v) (K * (sumOfCapacities L + 1)) := by
  rintro ⟨K, hK⟩
  obtain ⟨a, _, hr⟩ := reach_new (T := Nat) c (K + 1)
  have hg := reach_good hr
  have hup := hK a _ 0 7 hr (by simp)
  have e : (List.replicate (K + 1) ([], 0) : List (List Nat × Nat)) = [] ++ ([], 0) :: List.replicate K ([], 0) := by
    rw [List.replicate_succ]; rfl
  rw [e] at hg
  have hlow := costs_emplaceBackRow (c := c) hg 7
  rw [if_pos (by simp)] at hlow
  have hM : sumOfCapacities (List.replicate (K + 1) (([] : List Nat), 0)) = 0 := by
    unfold sumOfCapacities; simp
  rw [hM] at hup
  rcases hg.emplaceBack (c := c) 7 with ⟨_, a', ha', _⟩ | ⟨hn, _⟩
  · have := hlow.le ha' hup
    simp only [List.length_replicate] at this
    omega
  · refine hn (.inr (.inr ?_))
    intro r hr
    rw [← e] at hr
    obtain ⟨_, rfl⟩ := List.mem_replicate.1 hr
    rfl

/-- **C69 (a documented cost that is not met).** docs/sphinx/ArrayOfArrays.rst says that `appendArray( n )` is O( n ).  A single call is
not: there is no constant `K` such that it takes at most `K ( n + 1 )` accesses, because the offsets may have to be reallocated. -/
theorem C69_appendArray_not_linear (c : Cfg) :
    ¬ ∃ K, ∀ (a : AoA Nat) (L : List (List Nat × Nat)) (n : Nat), Reach c a L →
      CostsAtMost (Counted.AoA.appendArraySize c a n) (a.appendArraySize c n) (K * (n + 1)) := by
  rintro ⟨K, hK⟩
  obtain ⟨a, hm, hr⟩ := reach_new (T := Nat) c K
  have hg := reach_good hr
  obtain ⟨h1, h2⟩ := mk_full hm
  have hup := hK a _ 0 hr
  have hlow := costs_appendArraySize_from (c := c) hg h2 (by rw [h1]; simp) 0
  rcases hg.appendArraySize (c := c) 0 with ⟨_, a', ha', _⟩ | ⟨hn, _⟩
  · have := hlow.le ha' hup
    simp only [List.length_replicate] at this
    omega
  · refine hn (.inl ?_)
    simpa using hg.lay.room

/-! ### Matrices -/

/-- **C69 (matrices).** In a build without assertions, adding to `m` columns of a row of a `CRSMatrix` with `n` non zeros takes at most
`2 + m ( log2( 2 n ) + 2 )` accesses with the binary searches, the documented O( m log n ), and at most `2 + 3 n` with the linear search, the
documented O( n ), if the columns are sorted and all present, which `addToRowLinearSearch` requires.  `addToRow` costs what the search it chooses costs. -/
theorem C69_addToRow {V : Type} [Add V] (c : Cfg) (hc : c.debug = false) {colMax : Nat} {m : Crs V} {M : Spec.Matrix V}
    (h : ReachMatrix c colMax m M) (i : Nat) (hi : i < M.rows.length) (n : Nat) (hn : m.shape.sizeOfArray c i = .ok n)
    (args : List (Nat × V)) :
    CostsAtMost (Counted.Crs.addToRowBinarySearchUnsorted c m i args) (m.addToRowBinarySearchUnsorted c i args)
      (2 + args.length * (Nat.log2 (2 * n) + 2)) ∧
    CostsAtMost (Counted.Crs.addToRowBinarySearch c m i args) (m.addToRowBinarySearch c i args)
      (2 + args.length * (Nat.log2 (2 * n) + 2)) ∧
    (sortedUnique (args.map (·.1)) → (∀ a ∈ args, (M.rows[i] a.1).isSome) →
      CostsAtMost (Counted.Crs.addToRowLinearSearch c m i args) (m.addToRowLinearSearch c i args) (2 + 3 * n) ∧
      CostsAtMost (Counted.Crs.addToRow c m i args) (m.addToRow c i args)
        (3 + (if args.length < n / 4 ∧ 64 < n then args.length * (Nat.log2 (2 * n) + 2) else 3 * n))) := by
  replace h := reachMatrix_good h
  obtain ⟨A, cap, B, rfl, hg, hr, hset⟩ := h.at_ (List.getElem?_eq_getElem hi)
  have hs : m.shape.sizeOfArray c A.length = .ok (rowList M.numCols M.rows[A.length]).length := hg.shape.sizeOfAt rfl
  rw [hs] at hn
  cases hn
  refine ⟨costs_addToRowBinarySearchUnsorted hc hg args, costs_addToRowBinarySearch hc hg args, fun hsort hp => ?_⟩
  have hp' := fun a ha => (key_iff hr a.1).2 (hp a ha)
  have hx := rowList_increasing M.numCols M.rows[A.length]
  exact ⟨costs_addToRowLinearSearch hc hg hx (List.pairwise_map.1 hsort) hp', costs_addToRow hc hg hx (List.pairwise_map.1 hsort) hp'⟩

example : ((Crs.mk' costRelease 100 2 8 5 : R (Crs Nat)) >>= fun m =>
      Crs.run costRelease 100 m [.insertMany 0 [(1, 10), (3, 30), (5, 50), (7, 70)]]).toOption.map (fun r =>
    (countOf (Counted.Crs.addToRowLinearSearch costRelease r.1 0 [(3, 1), (7, 1)]),
     countOf (Counted.Crs.addToRowBinarySearch costRelease r.1 0 [(3, 1), (7, 1)]),
     countOf (Counted.Crs.addToRow costRelease r.1 0 [(3, 1), (7, 1)]))) = some (some 10, some 11, some 11) := by decide +kernel

end LvArray.Props

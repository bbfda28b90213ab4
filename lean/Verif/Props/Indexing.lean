import Verif.SliceLemmas
import Verif.SliceOps

/-!
# C01 - C06, C39, C45: index mapping, slices, iteration, copies between slices, type-punned views

`layout p dims` is an array with permutation `p` and dimension sizes `dims`; `(layout p dims).call c idx` is the
memory position `a( idx... )` refers to, `.chain c pre` is `a[ pre0 ][ pre1 ]...`.
-/

namespace LvArray.Props

open indexing Spec

/-- Calling with in-bounds indices succeeds with the mixed radix address, whether or not bounds are checked. -/
theorem call_ok {p dims : List Nat} (hp : IsPermutation p dims.length) (c : Cfg) {idx : List Int}
    (h : InBounds dims idx) : (layout p dims).call c idx = .ok (horner (reorder p dims) (reorder p idx)) := by
  have hv := (invalidIndices_iff dims idx (InBounds.length h)).mpr h
  have hh := linearIndex_eq_horner hp (InBounds.length h)
  unfold Slice.call layout
  simp only [checkIndices, hv, errorIf_false, hh, Int.zero_add]
  split <;> simp

theorem isPermutation_of_valid {p dims : List Nat} (hv : typeManipulation.isValidPermutation p = true)
    (hl : p.length = dims.length) : IsPermutation p dims.length := by
  rw [← hl]; exact (isValidPermutation_iff p).mp hv

theorem size_eq (p dims : List Nat) : (layout p dims).size = dims.prod := multiplyAll_eq dims

/-- **C01.** For every permutation accepted by the library and all dimension sizes: `size()` is the product of the
sizes, in-bounds multi-indices address positions of `[0, size())`, different ones different positions, and every
position is addressed. -/
theorem C01_bijection (c : Cfg) (p dims : List Nat) (hv : typeManipulation.isValidPermutation p = true)
    (hl : p.length = dims.length) :
    (layout p dims).size = dims.prod ∧
    (∀ idx, InBounds dims idx → ∃ a, (layout p dims).call c idx = .ok a ∧ 0 ≤ a ∧ a < (dims.prod : Nat)) ∧
    (∀ i j, InBounds dims i → InBounds dims j → (layout p dims).call c i = (layout p dims).call c j → i = j) ∧
    (∀ a : Int, 0 ≤ a → a < (dims.prod : Nat) → ∃ idx, InBounds dims idx ∧ (layout p dims).call c idx = .ok a) := by
  have hp := isPermutation_of_valid hv hl
  refine ⟨size_eq p dims, fun idx h => ?_, fun i j hi hj h => ?_, fun a h0 h1 => ?_⟩
  · have hb := horner_bounds ((reorder_inBounds hp).mp h).2
    rw [reorder_prod hp] at hb
    exact ⟨_, call_ok hp c h, hb⟩
  · rw [call_ok hp c hi, call_ok hp c hj] at h
    have hi' := ((reorder_inBounds hp).mp hi).2
    have hj' := ((reorder_inBounds hp).mp hj).2
    have h' : horner (reorder p dims) (reorder p i) = horner (reorder p dims) (reorder p j) := by simpa using h
    have l1 := horner_lt_iff hi' hj'
    have l2 := horner_lt_iff hj' hi'
    have n1 : ¬ reorder p i < reorder p j := by rw [← l1]; omega
    have n2 : ¬ reorder p j < reorder p i := by rw [← l2]; omega
    exact reorder_inj hp (InBounds.length hi) (InBounds.length hj)
      (List.le_antisymm (List.not_lt.mp n2) (List.not_lt.mp n1))
  · rw [← reorder_prod hp] at h1
    obtain ⟨js, hjs, he⟩ := horner_surj h0 h1
    obtain ⟨idx, hlen, hidx⟩ := exists_reorder hp (js := js) (by rw [InBounds.length hjs, reorder_length, hl])
    have hin : InBounds dims idx := (reorder_inBounds hp).mpr ⟨hlen, by rw [hidx]; exact hjs⟩
    exact ⟨idx, hin, by rw [call_ok hp c hin, hidx, he]⟩

/-- The hypotheses of C01 - C05 are met by a three dimensional permuted array. -/
example : typeManipulation.isValidPermutation [2, 0, 1] = true ∧ [2, 0, 1].length = [4, 3, 2].length ∧
    InBounds [4, 3, 2] [3, 0, 1] ∧
    (layout [2, 0, 1] [4, 3, 2]).call ⟨true, true, false⟩ [3, 0, 1] = .ok 21 := by decide

/-- **C02.** The dimension named last in the permutation has stride one, and memory order is the lexicographic order
of the indices read in permutation order. -/
theorem C02_memory_order (c : Cfg) (p dims : List Nat) (hv : typeManipulation.isValidPermutation p = true)
    (hl : p.length = dims.length) :
    (∀ k, p.getLast? = some k → (layout p dims).strides.getD k 0 = 1 ∧ (layout p dims).usd = k) ∧
    (∀ i j a b, InBounds dims i → InBounds dims j → (layout p dims).call c i = .ok a → (layout p dims).call c j = .ok b →
      (a < b ↔ reorder p i < reorder p j)) := by
  have hp := isPermutation_of_valid hv hl
  refine ⟨fun k hk => ?_, fun i j a b hi hj ha hb => ?_⟩
  · have hne : p ≠ [] := by rintro rfl; simp at hk
    have hdl : p = p.dropLast ++ [k] := by
      rw [List.getLast?_eq_some_getLast hne] at hk
      have := List.dropLast_append_getLast hne
      rw [Option.some.inj hk] at this
      exact this.symm
    have hk' := getStrideOneDimension_eq hdl
    refine ⟨?_, by simp [layout, hk']⟩
    have := stride_usd hp (by rintro rfl; simp at hl; exact hne hl)
    rw [hk'] at this
    exact this
  · rw [call_ok hp c hi] at ha
    rw [call_ok hp c hj] at hb
    cases ha; cases hb
    exact horner_lt_iff ((reorder_inBounds hp).mp hi).2 ((reorder_inBounds hp).mp hj).2

/-- Column major 2-d array: `(5, 0)` comes before `(0, 1)` in memory. -/
example : (layout [1, 0] [7, 2]).call ⟨true, true, false⟩ [5, 0] = .ok 5 ∧
    (layout [1, 0] [7, 2]).call ⟨true, true, false⟩ [0, 1] = .ok 7 ∧
    reorder [1, 0] [(5 : Int), 0] < reorder [1, 0] [(0 : Int), 1] := by decide

/-- **C03.** Chaining `operator[]` over any prefix of the indices and applying `operator()` to the rest is
`operator()` on all of them (including which calls abort), for every array shape; and the slice reached has the
remaining dimension sizes. -/
theorem C03_chained_subscript (c : Cfg) (p dims : List Nat) (hv : typeManipulation.isValidPermutation p = true)
    (hl : p.length = dims.length) (pre rest : List Int) (hr : pre.length + rest.length = dims.length) :
    ((layout p dims).chain c pre >>= fun s => s.call c rest) = (layout p dims).call c (pre ++ rest) ∧
    ∀ s, (layout p dims).chain c pre = .ok s → s.dims = dims.drop pre.length := by
  have hp := isPermutation_of_valid hv hl
  exact ⟨Slice.chain_call c _ pre rest hr (calculateStrides_spec hp).1, fun s hs => (Slice.chain_shape hs).1⟩

example : ((layout [0, 2, 1] [4, 3, 2]).chain ⟨true, true, false⟩ [1, 2] >>= fun s => s.call ⟨true, true, false⟩ [1]) =
    .ok 11 := by decide

/-- **C04.** With bounds checking on, `a( idx... )` aborts exactly when `idx` is not a multi-index of the array, and
otherwise addresses a position inside the allocation; the same holds for chained `operator[]`. -/
theorem C04_checked_access (c : Cfg) (hc : c.boundsCheck = true) (p dims : List Nat)
    (hv : typeManipulation.isValidPermutation p = true) (hl : p.length = dims.length) (idx : List Int)
    (hi : idx.length = dims.length) :
    ((layout p dims).call c idx = .error .abort ↔ ¬ InBounds dims idx) ∧
    (∀ a, (layout p dims).call c idx = .ok a → InBounds dims idx ∧ 0 ≤ a ∧ a < (dims.prod : Nat)) ∧
    ((layout p dims).chain c idx >>= fun s => s.call c []) = (layout p dims).call c idx := by
  have h3 := (C03_chained_subscript c p dims hv hl idx [] (by simpa using hi)).1
  rw [List.append_nil] at h3
  by_cases hin : InBounds dims idx
  · obtain ⟨a, ha, hb⟩ := (C01_bijection c p dims hv hl).2.1 idx hin
    refine ⟨by simp [ha, hin], fun b hb' => ?_, h3⟩
    rw [ha] at hb'; cases hb'
    exact ⟨hin, hb⟩
  · have : (layout p dims).call c idx = .error .abort := by
      have hinv : invalidIndices dims idx = true := by
        cases h : invalidIndices dims idx with
        | true => rfl
        | false => exact absurd ((invalidIndices_iff dims idx hi).mp h) hin
      simp [Slice.call, layout, hc, checkIndices, hinv]
    exact ⟨by simp [this, hin], fun b hb => by simp [this] at hb, h3⟩

example : (layout [0, 1] [2, 3]).call ⟨true, true, false⟩ [-1, 4] = .error .abort ∧
    (layout [0, 1] [2, 3]).call ⟨true, true, false⟩ [0, 3] = .error .abort ∧
    (layout [0, 1] [2, 3]).call ⟨true, true, false⟩ [1, 2] = .ok 5 := by decide

theorem getD_mem {l : List Nat} {k : Nat} (h : k < l.length) : l.getD k 0 ∈ l := by
  rw [List.getD_eq_getElem?_getD, List.getElem?_eq_getElem h]; exact List.getElem_mem h

/-- The memory positions of the elements of `s` are exactly `[from, from + len)`. -/
def Occupies (c : Cfg) (s : Slice) (start : Int) (len : Nat) : Prop :=
  ∀ a : Int, (∃ idx, InBounds s.dims idx ∧ s.call c idx = .ok a) ↔ start ≤ a ∧ a < start + len

/-- What a slice call with in-bounds indices computes. -/
theorem slice_call_ok (c : Cfg) (s : Slice) {idx : List Int} (h : InBounds s.dims idx) :
    s.call c idx = .ok (s.data + getLinearIndex s.usd s.strides idx) := by
  have hv := (invalidIndices_iff s.dims idx (InBounds.length h)).mpr h
  unfold Slice.call
  simp only [checkIndices, hv, errorIf_false]
  split <;> simp

/-- A slice whose strides are those of an array of its own dimension sizes occupies consecutive positions. -/
theorem occupies_of_tight (c : Cfg) (s : Slice) (q : List Nat) (hq : IsPermutation q s.dims.length)
    (hs : s.strides = calculateStrides q s.dims)
    (hu : ∀ k < s.strides.length, (k : Int) = s.usd → s.strides.getD k 0 = 1) :
    Occupies c s s.data s.size ∧
      ∀ idx, InBounds s.dims idx → s.call c idx = .ok (s.data + horner (reorder q s.dims) (reorder q idx)) := by
  have hlin : ∀ idx, InBounds s.dims idx →
      s.call c idx = .ok (s.data + horner (reorder q s.dims) (reorder q idx)) := by
    intro idx h
    have hlen : s.strides.length = s.dims.length := by rw [hs]; exact (calculateStrides_spec hq).1
    rw [slice_call_ok c s h, slice_sum (q := q) (by rw [hlen]; exact hq) (by rw [InBounds.length h, hlen]) hu]
    congr 2
    exact sum_eq_horner (dims := s.dims) (fun k => s.strides.getD k 0) (fun k => idx.getD k 0) q
      (by rw [hs]; exact (calculateStrides_spec hq).2)
  refine ⟨fun a => ⟨?_, ?_⟩, hlin⟩
  · rintro ⟨idx, h, ha⟩
    rw [hlin idx h] at ha
    cases ha
    have hb := horner_bounds ((reorder_inBounds hq).mp h).2
    rw [reorder_prod hq] at hb
    have : s.size = s.dims.prod := multiplyAll_eq _
    omega
  · rintro ⟨h0, h1⟩
    have hsz : s.size = s.dims.prod := multiplyAll_eq _
    obtain ⟨js, hjs, he⟩ := horner_surj (dims := reorder q s.dims) (m := a - s.data) (by omega)
      (by rw [reorder_prod hq]; omega)
    obtain ⟨idx, hlen, hidx⟩ := exists_reorder hq (js := js)
      (by rw [InBounds.length hjs, reorder_length, IsPermutation.length hq])
    have hin : InBounds s.dims idx := (reorder_inBounds hq).mpr ⟨hlen, by rw [hidx]; exact hjs⟩
    exact ⟨idx, hin, by rw [hlin idx hin, hidx, he]; congr 1; omega⟩

theorem exists_zero_of_prod_zero {l : List Nat} (h : l.prod = 0) : ∃ d ∈ l, d = 0 := by
  induction l with
  | nil => simp at h
  | cons x xs ih =>
    rw [List.prod_cons] at h
    rcases Nat.mul_eq_zero.mp h with h | h
    · exact ⟨x, by simp, h⟩
    · obtain ⟨d, hd, e⟩ := ih h; exact ⟨d, by simp [hd], e⟩

/-- A slice with an empty dimension has no elements. -/
theorem occupies_empty (c : Cfg) (s : Slice) (h : s.dims.prod = 0) : Occupies c s s.data s.size := by
  obtain ⟨d, hd, rfl⟩ := exists_zero_of_prod_zero h
  intro a
  have hsz : s.size = 0 := by rw [Slice.size, multiplyAll_eq]; exact h
  constructor
  · rintro ⟨idx, hin, _⟩
    exact absurd (InBounds.pos hin 0 hd) (by omega)
  · rintro ⟨h0, h1⟩; omega

/-- All dimensions of an array are non-empty when those of a slice are and the fixed indices were in bounds. -/
theorem dims_pos {dims : List Nat} {pre : List Int} (hpre : InBounds (dims.take pre.length) pre)
    (h : (dims.drop pre.length).prod ≠ 0) : ∀ k < dims.length, 0 < dims.getD k 0 := by
  intro k hk
  have hm : dims.getD k 0 ∈ dims.take pre.length ++ dims.drop pre.length := by
    rw [List.take_append_drop]; simp [hk]
  rcases List.mem_append.mp hm with hm | hm
  · exact InBounds.pos hpre _ hm
  · have := List.dvd_prod hm
    rcases Nat.eq_zero_or_pos (dims.getD k 0) with h0 | h0
    · rw [h0] at this
      exact absurd (Nat.zero_dvd.mp this) h
    · exact h0

/-- **C05, soundness.** Whenever `isContiguous()` holds of a slice obtained by fixing leading indices, its elements
occupy exactly `size()` consecutive positions starting at its first element, so `dataIfContiguous`, `begin` and `end`
describe exactly the slice's elements, or abort. -/
theorem C05_contiguous_sound (c : Cfg) (p dims : List Nat) (hv : typeManipulation.isValidPermutation p = true)
    (hl : p.length = dims.length) (pre : List Int) (hpre : InBounds (dims.take pre.length) pre)
    (hlt : pre.length < dims.length) :
    ∃ s, (layout p dims).chain c pre = .ok s ∧
      (s.isContiguous = true → Occupies c s s.data s.size ∧ s.beginEnd = .ok (s.data, s.data + s.size)) ∧
      (s.isContiguous = false → s.beginEnd = .error .abort ∧ s.dataIfContiguous = .error .abort) := by
  have hp := isPermutation_of_valid hv hl
  obtain ⟨s, hs⟩ := Slice.chain_ok (c := c) (s := layout p dims) hpre
  obtain ⟨h1, h2, h3⟩ := Slice.chain_shape hs
  refine ⟨s, hs, fun hc => ⟨?_, ?_⟩, fun hc => ?_⟩
  · by_cases hz : s.dims.prod = 0
    · exact occupies_empty c s hz
    · have hpos := dims_pos hpre (by rw [h1] at hz; exact hz)
      have ht := contiguous_tight hp hlt hpos h1 h2 h3 hc
      refine (occupies_of_tight c s (restPerm p pre.length) ?_ (by rw [h1]; exact ht) ?_).1
      · rw [h1]; show IsPermutation _ (dims.drop pre.length).length
        rw [List.length_drop]; exact restPerm_perm hp (by omega)
      · rw [h2, h3]; exact slice_usd hp hlt
  · have h0 := ((isContiguous_iff s).mp hc).1
    simp [Slice.beginEnd, Slice.dataIfContiguous, hc, show ¬ s.usd < 0 by omega]
  · by_cases h0 : s.usd < 0 <;> simp [Slice.beginEnd, Slice.dataIfContiguous, hc, h0]

example : InBounds ([4, 3, 2].take [(1 : Int)].length) [(1 : Int)] ∧
    ((layout [0, 1, 2] [4, 3, 2]).chain ⟨true, true, false⟩ [1] >>= fun s => s.beginEnd) = .ok (6, 12) ∧
    ((layout [1, 0, 2] [4, 3, 2]).chain ⟨true, true, false⟩ [1] >>= fun s => s.beginEnd) = .error .abort := by decide

/-- **C05, exactness (partial).** When every dimension of the array has at least two entries, `isContiguous()` is true
exactly when the elements occupy `size()` consecutive positions starting at the first.  Missing from the full
statement: arrays with dimensions of size 0 or 1, for which it is false, see `C05_not_exact_empty`,
`C05_not_exact_unit`. -/
theorem C05_contiguous_exact_partial (c : Cfg) (p dims : List Nat)
    (hv : typeManipulation.isValidPermutation p = true) (hl : p.length = dims.length) (pre : List Int)
    (hpre : InBounds (dims.take pre.length) pre) (hlt : pre.length < dims.length) (h2 : ∀ d ∈ dims, 2 ≤ d)
    {s : Slice} (hs : (layout p dims).chain c pre = .ok s) :
    s.isContiguous = true ↔ Occupies c s s.data s.size := by
  have hp := isPermutation_of_valid hv hl
  obtain ⟨e1, e2, e3⟩ := Slice.chain_shape hs
  have e1 : s.dims = dims.drop pre.length := e1
  have e2 : s.strides = (calculateStrides p dims).drop pre.length := e2
  have e3 : s.usd = (typeManipulation.getStrideOneDimension p : Nat) - (pre.length : Int) := e3
  have hget : ∀ k < dims.length, 2 ≤ dims.getD k 0 := fun k hk => h2 _ (by simp [hk])
  constructor
  · intro hc
    obtain ⟨s', hs', hcc, _⟩ := C05_contiguous_sound c p dims hv hl pre hpre hlt
    rw [hs] at hs'; cases hs'
    exact (hcc hc).1
  · intro hocc
    set m := pre.length with hm
    have hqp : IsPermutation (restPerm p m) (dims.drop m).length := by
      rw [List.length_drop]; exact restPerm_perm hp (by omega)
    have hslen : s.strides.length = (dims.drop m).length := by
      rw [e2, List.length_drop, (calculateStrides_spec hp).1, List.length_drop]
    have husd : ∀ k < s.strides.length, (k : Int) = s.usd → s.strides.getD k 0 = 1 := by
      rw [e2, e3]; exact slice_usd hp hlt
    have hposd : ∀ d ∈ dims.drop m, 0 < d := fun d hd => by have := h2 d (List.mem_of_mem_drop hd); omega
    -- the last element lies inside
    have hin : InBounds s.dims (maxIdx (dims.drop m)) := by rw [e1]; exact maxIdx_inBounds hposd
    have hmax := (hocc _).mp ⟨_, hin, slice_call_ok c s hin⟩
    have hmlen : (maxIdx (dims.drop m)).length = s.strides.length := by simp [maxIdx, hslen]
    have hsz : s.size = (dims.drop m).prod := by rw [Slice.size, multiplyAll_eq, e1]
    rw [slice_sum (q := restPerm p m) (by rw [hslen]; exact hqp) hmlen husd] at hmax
    have htight : ((restPerm p m).map (fun k => (maxIdx (dims.drop m)).getD k 0 *
        ((calculateStrides (restPerm p m) (dims.drop m)).getD k 0 : Nat))).sum = (dims.drop m).prod - 1 := by
      rw [sum_eq_horner (dims := dims.drop m) (fun k => (calculateStrides (restPerm p m) (dims.drop m)).getD k 0)
        (fun k => (maxIdx (dims.drop m)).getD k 0) (restPerm p m) (calculateStrides_spec hqp).2]
      have := horner_maxIdx (reorder (restPerm p m) (dims.drop m))
      rw [← reorder_maxIdx hqp, reorder_prod hqp] at this
      exact this
    have hge : ∀ k ∈ restPerm p m, ∃ l r, p = l ++ (m + k) :: r ∧ s.strides.getD k 0 =
        (calculateStrides (restPerm p m) (dims.drop m)).getD k 0 * fixedProd dims m r := by
      intro k hk
      have hk' := (IsPermutation.mem hqp).mp hk
      rw [List.length_drop] at hk'
      obtain ⟨l, r, e⟩ := exists_split ((IsPermutation.mem hp).mpr (show m + k < dims.length by omega))
      refine ⟨l, r, e, ?_⟩
      have := stride_rest hp (by omega) e (show m ≤ m + k by omega)
      rw [show m + k - m = k by omega] at this
      rw [e2, List.getD_eq_getElem?_getD, List.getElem?_drop, ← List.getD_eq_getElem?_getD, this]
    have hfp : ∀ r, 0 < fixedProd dims m r := fixedProd_pos (fun k hk => by have := hget k (by omega); omega)
    have heq := sum_strict (q := restPerm p m) (f := fun k => (maxIdx (dims.drop m)).getD k 0)
      (S := fun k => s.strides.getD k 0) (T := fun k => (calculateStrides (restPerm p m) (dims.drop m)).getD k 0)
      (fun k hk => by
        have hk' := (IsPermutation.mem hqp).mp hk
        have hkd : k < dims.length - m := by rwa [List.length_drop] at hk'
        have := hget (m + k) (by omega)
        have e : (maxIdx (dims.drop m)).getD k 0 = (dims.getD (m + k) 0 : Nat) - 1 := by
          rw [List.getD_eq_getElem?_getD, List.getD_eq_getElem?_getD,
            List.getElem?_eq_getElem (show m + k < dims.length by omega)]
          simp only [maxIdx, List.getElem?_map, List.getElem?_drop,
            List.getElem?_eq_getElem (show m + k < dims.length by omega), Option.map_some, Option.getD_some]
        rw [e]; omega)
      (fun k hk => by
        obtain ⟨l, r, _, e⟩ := hge k hk
        show _ ≤ s.strides.getD k 0
        rw [e]
        exact Nat.le_mul_of_pos_right _ (hfp r))
      (by rw [htight]; omega)
    -- the fastest remaining dimension has stride one, hence is the unit stride dimension
    have hpT : ∀ k ∈ restPerm p m, 0 < (calculateStrides (restPerm p m) (dims.drop m)).getD k 0 := by
      intro k hk
      obtain ⟨l, r, e⟩ := exists_split hk
      rw [strides_split hqp e]
      apply list_prod_pos
      intro d hd
      obtain ⟨j, hj, rfl⟩ := List.mem_map.mp hd
      have hj' := (IsPermutation.mem hqp).mp (show j ∈ restPerm p m by rw [e]; simp [hj])
      exact hposd _ (getD_mem hj')
    have hfix1 : ∀ k ∈ restPerm p m, ∃ l r, p = l ++ (m + k) :: r ∧ fixedProd dims m r = 1 := by
      intro k hk
      obtain ⟨l, r, e, h⟩ := hge k hk
      refine ⟨l, r, e, ?_⟩
      have h' := heq k hk
      rw [h] at h'
      have := hpT k hk
      exact Nat.eq_of_mul_eq_mul_left this (by omega)
    have husd0 : 0 ≤ s.usd := by
      rw [e3]
      by_contra hcon
      have hpne : p ≠ [] := by rintro rfl; simp at hl; omega
      set u := typeManipulation.getStrideOneDimension p with hu
      have hlast : p = p.dropLast ++ [p.getLast hpne] := (List.dropLast_append_getLast hpne).symm
      have hul : u = p.getLast hpne := getStrideOneDimension_eq hlast
      have hum : u < m := by omega
      obtain ⟨l, k, r, e, hk, _⟩ := split_first_rest hp hlt
      have hkn : k < dims.length := (IsPermutation.mem hp).mp (by rw [e]; simp)
      obtain ⟨l', r', e', hf⟩ := hfix1 (k - m) ((IsPermutation.mem hqp).mpr (by rw [List.length_drop]; omega))
      rw [show m + (k - m) = k by omega] at e'
      have hr' : r' ≠ [] := by
        rintro rfl
        have : u = k := getStrideOneDimension_eq e'
        omega
      have hmem : u ∈ r' := by
        have hg : p.getLast? = r'.getLast? := by
          rw [e', List.getLast?_append]
          cases r' with
          | nil => exact absurd rfl hr'
          | cons x xs => rw [List.getLast?_cons_cons, List.getLast?_eq_some_getLast (by simp)]; simp
        rw [List.getLast?_eq_some_getLast hpne, List.getLast?_eq_some_getLast hr'] at hg
        rw [hul, Option.some.inj hg]; exact List.getLast_mem hr'
      have hd : dims.getD u 0 ∣ fixedProd dims m r' := by
        apply List.dvd_prod
        exact List.mem_map.mpr ⟨u, by simp [hmem]; omega, rfl⟩
      rw [hf] at hd
      have := hget u (by omega)
      have := Nat.dvd_one.mp hd
      omega
    refine (isContiguous_iff s).mpr ⟨husd0, .inr fun i hi _ => ?_⟩
    rw [e1] at hi ⊢
    have hi' : i ∈ restPerm p m := (IsPermutation.mem hqp).mpr hi
    have h' := heq i hi'
    rw [h']
    obtain ⟨l, r, e⟩ := exists_split hi'
    rw [strides_split hqp e, ((others_perm (e ▸ hqp)).map _).prod_eq, List.map_append, List.prod_append]
    apply Nat.le_mul_of_pos_left
    apply list_prod_pos
    intro d hd
    obtain ⟨j, hj, rfl⟩ := List.mem_map.mp hd
    have hj' := (IsPermutation.mem hqp).mp (show j ∈ restPerm p m by rw [e]; simp [hj])
    exact hposd _ (getD_mem hj')

/-- **C05 fails for empty slices**: a slice of shape `(0, 5, 3)` has no elements, yet `begin()` aborts on it. -/
theorem C05_not_exact_empty :
    ∃ s, (layout [0, 1, 2, 3] [2, 0, 5, 3]).chain ⟨true, true, false⟩ [1] = .ok s ∧
      Occupies ⟨true, true, false⟩ s s.data s.size ∧ s.isContiguous = false ∧ s.beginEnd = .error .abort := by
  refine ⟨⟨0, [0, 5, 3], [15, 3, 1], 2⟩, by decide, occupies_empty _ _ (by decide), by decide, by decide⟩

/-- **C05 fails for slices with a dimension of size one**: `a[ i ]` of a `(5, 1, 3)` array with permutation `(1, 0, 2)`
is three consecutive elements, yet `isContiguous()` is false. -/
theorem C05_not_exact_unit :
    ∃ s, (layout [1, 0, 2] [5, 1, 3]).chain ⟨true, true, false⟩ [1] = .ok s ∧
      Occupies ⟨true, true, false⟩ s s.data s.size ∧ s.isContiguous = false := by
  refine ⟨⟨3, [1, 3], [15, 1], 1⟩, by decide, ?_, by decide⟩
  have hin : ∀ idx, InBounds [1, 3] idx ↔ ∃ i : Int, idx = [0, i] ∧ 0 ≤ i ∧ i < 3 := by
    intro idx
    constructor
    · intro h
      match idx, h with
      | [a, b], h =>
        simp [InBounds] at h
        exact ⟨b, by congr 1; omega, h.2⟩
    · rintro ⟨i, rfl, h⟩; simp [InBounds, h]
  intro a
  constructor
  · rintro ⟨idx, h, ha⟩
    rw [slice_call_ok _ _ h] at ha
    obtain ⟨i, rfl, h0, h1⟩ := (hin idx).mp h
    simp [getLinearIndex, condMul] at ha
    simp [Slice.size, multiplyAll]; omega
  · rintro ⟨h0, h1⟩
    simp [Slice.size, multiplyAll] at h0 h1
    have h := (hin [0, a - 3]).mpr ⟨a - 3, rfl, by omega, by omega⟩
    refine ⟨[0, a - 3], h, ?_⟩
    rw [slice_call_ok _ _ h]
    simp [getLinearIndex, condMul]

end LvArray.Props

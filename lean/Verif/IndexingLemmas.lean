import Verif.Indexing
import Verif.Spec.Index
import Mathlib.Data.List.Nodup

/-!
# Lemmas about strides and linear indices
-/

namespace LvArray

open indexing Spec

/-- Mixed radix value of an index list (leftmost digit most significant). -/
def horner : List Nat → List Int → Int
  | _ :: ds, i :: is => i * (ds.prod : Nat) + horner ds is
  | _, _ => 0

theorem InBounds.length {dims : List Nat} {idx : List Int} (h : InBounds dims idx) : idx.length = dims.length := by
  induction dims generalizing idx with
  | nil => cases idx <;> simp_all [InBounds]
  | cons d ds ih => cases idx with
    | nil => simp [InBounds] at h
    | cons i is => simp [InBounds] at h; simp [ih h.2]

theorem inBounds_iff {dims : List Nat} {idx : List Int} :
    InBounds dims idx ↔ idx.length = dims.length ∧ ∀ k < dims.length, 0 ≤ idx.getD k 0 ∧ idx.getD k 0 < (dims.getD k 0 : Nat) := by
  induction dims generalizing idx with
  | nil => cases idx <;> simp [InBounds]
  | cons d ds ih =>
    cases idx with
    | nil => simp [InBounds]
    | cons i is =>
      simp only [InBounds, ih, List.length_cons, Nat.add_right_cancel_iff]
      constructor
      · rintro ⟨h0, hl, h⟩
        refine ⟨hl, fun k hk => ?_⟩
        cases k with
        | zero => simpa using h0
        | succ k => simpa using h k (by omega)
      · rintro ⟨hl, h⟩
        refine ⟨by simpa using h 0 (by omega), hl, fun k hk => by simpa using h (k + 1) (by omega)⟩

theorem horner_bounds {dims : List Nat} {idx : List Int} (h : InBounds dims idx) :
    0 ≤ horner dims idx ∧ horner dims idx < (dims.prod : Nat) := by
  induction dims generalizing idx with
  | nil => cases idx <;> simp_all [InBounds, horner]
  | cons d ds ih =>
    cases idx with
    | nil => simp [InBounds] at h
    | cons i is =>
      obtain ⟨⟨h0, h1⟩, h2⟩ := h
      obtain ⟨a, b⟩ := ih h2
      simp only [horner, List.prod_cons]
      have hp : (0 : Int) ≤ (ds.prod : Nat) := by omega
      refine ⟨by have := Int.mul_nonneg h0 hp; omega, ?_⟩
      have h3 : (i + 1) * (ds.prod : Nat) ≤ (d : Int) * (ds.prod : Nat) := Int.mul_le_mul_of_nonneg_right (by omega) hp
      rw [Int.add_mul] at h3
      push_cast
      omega

theorem horner_lt_iff {dims : List Nat} {a b : List Int} (ha : InBounds dims a) (hb : InBounds dims b) :
    horner dims a < horner dims b ↔ a < b := by
  induction dims generalizing a b with
  | nil =>
    cases a <;> cases b <;> simp_all [InBounds, horner]
  | cons d ds ih =>
    cases a with
    | nil => simp [InBounds] at ha
    | cons i is =>
      cases b with
      | nil => simp [InBounds] at hb
      | cons j js =>
        obtain ⟨⟨i0, i1⟩, hi⟩ := ha
        obtain ⟨⟨j0, j1⟩, hj⟩ := hb
        have := ih hi hj
        obtain ⟨a0, a1⟩ := horner_bounds hi
        obtain ⟨b0, b1⟩ := horner_bounds hj
        have hp : (0 : Int) ≤ (ds.prod : Nat) := by omega
        simp only [horner, List.cons_lt_cons_iff]
        rcases Int.lt_trichotomy i j with h | h | h
        · have h3 : (i + 1) * (ds.prod : Nat) ≤ j * (ds.prod : Nat) := Int.mul_le_mul_of_nonneg_right (by omega) hp
          rw [Int.add_mul] at h3
          simp only [h, true_or, iff_true]
          omega
        · subst h
          simp only [Int.lt_irrefl, true_and, false_or, ← this]
          omega
        · have h3 : (j + 1) * (ds.prod : Nat) ≤ i * (ds.prod : Nat) := Int.mul_le_mul_of_nonneg_right (by omega) hp
          rw [Int.add_mul] at h3
          constructor
          · intro h4; omega
          · rintro (h4 | ⟨h4, _⟩) <;> omega

theorem horner_surj {dims : List Nat} {m : Int} (h0 : 0 ≤ m) (h1 : m < (dims.prod : Nat)) :
    ∃ idx, InBounds dims idx ∧ horner dims idx = m := by
  induction dims generalizing m with
  | nil => exact ⟨[], trivial, by simp [horner] at *; omega⟩
  | cons d ds ih =>
    have hp : (0 : Int) < (ds.prod : Nat) := by
      rcases Nat.eq_zero_or_pos ds.prod with h | h
      · rw [List.prod_cons, h] at h1; simp at h1; omega
      · omega
    obtain ⟨is, his, he⟩ := ih (Int.emod_nonneg m (by omega)) (Int.emod_lt_of_pos m hp)
    refine ⟨m / (ds.prod : Nat) :: is, ⟨⟨Int.ediv_nonneg h0 (by omega), ?_⟩, his⟩, ?_⟩
    · apply Int.ediv_lt_of_lt_mul hp
      rw [List.prod_cons] at h1; push_cast at h1; exact h1
    · simp only [horner, he]
      have := Int.mul_ediv_add_emod m (ds.prod : Nat)
      rw [Int.mul_comm] at this
      exact this

theorem multiplyAll_eq (l : List Nat) : multiplyAll l = l.prod := by
  fun_induction multiplyAll l <;> simp_all

/-- Skipping the multiplication at a dimension of stride one changes nothing. -/
theorem getLinearIndex_eq {usd : Int} {strides : List Nat} {idx : List Int} (hl : idx.length = strides.length)
    (h : ∀ k < strides.length, (k : Int) = usd → strides.getD k 0 = 1) :
    getLinearIndex usd strides idx = (List.zipWith (fun (i : Int) (s : Nat) => i * s) idx strides).sum := by
  have cm : ∀ (u : Int) (i : Int) (s : Nat), (u = 0 → s = 1) → condMul (u == 0) i s = i * s := by
    intro u i s hs
    by_cases hu : u = 0
    · simp [condMul, hu, hs hu]
    · simp [condMul, hu]
  induction strides generalizing usd idx with
  | nil => simp at hl; simp [hl, getLinearIndex]
  | cons s ss ih =>
    have hs : usd = 0 → s = 1 := fun hu => by simpa using h 0 (by simp) (by simp [hu])
    cases idx with
    | nil => simp at hl
    | cons i is =>
      cases is with
      | nil =>
        simp at hl; subst hl
        simp [getLinearIndex, cm usd i s hs]
      | cons j js =>
        rw [getLinearIndex, cm usd i s hs, ih (usd := usd - 1) (by simpa using hl) (fun k hk hu => by
          simpa using h (k + 1) (by simpa using hk) (by push_cast; omega))]
        simp

theorem zipWith_sum_range {idx : List Int} {strides : List Nat} (hl : idx.length = strides.length) :
    (List.zipWith (fun (i : Int) (s : Nat) => i * s) idx strides).sum =
      ((List.range idx.length).map (fun k => idx.getD k 0 * (strides.getD k 0 : Nat))).sum := by
  congr 1
  apply List.ext_getElem
  · simp [hl]
  · intro k h1 h2
    simp at h1 h2
    simp [List.getD_eq_getElem?_getD, List.getElem?_eq_getElem h2, List.getElem?_eq_getElem (hl ▸ h2)]

section perm

variable {p dims : List Nat}

theorem IsPermutation.nodup {n : Nat} (h : IsPermutation p n) : p.Nodup := h.nodup_iff.mpr List.nodup_range

theorem IsPermutation.length {n : Nat} (h : IsPermutation p n) : p.length = n := by
  simpa using h.length_eq

theorem IsPermutation.mem {n : Nat} (h : IsPermutation p n) {k : Nat} : k ∈ p ↔ k < n := by
  rw [h.mem_iff]; simp

theorem foldedStride_eq (i : Nat) :
    foldedStride p dims i = ((p.drop (i + 1)).map (fun k => dims.getD k 0)).prod := by
  have key : ∀ (l : List Nat) (a : Nat), l.foldl (fun acc j => acc * dims.getD (p.getD j 0) 0) a =
      a * (l.map (fun j => dims.getD (p.getD j 0) 0)).prod := by
    intro l
    induction l with
    | nil => simp
    | cons x xs ih => intro a; simp only [List.foldl_cons, List.map_cons, List.prod_cons, ih, Nat.mul_assoc]
  rw [foldedStride, key, Nat.one_mul]
  congr 1
  apply List.ext_getElem
  · simp
  · intro k h1 h2
    simp at h1
    have : i + 1 + k < p.length := by omega
    simp [List.getElem?_eq_getElem this]

theorem calculateStrides_spec (hp : IsPermutation p dims.length) :
    (calculateStrides p dims).length = dims.length ∧
      ∀ i < p.length, (calculateStrides p dims).getD (p.getD i 0) 0 =
        ((p.drop (i + 1)).map (fun k => dims.getD k 0)).prod := by
  have hlen := IsPermutation.length hp
  have hnd := IsPermutation.nodup hp
  have key : ∀ m ≤ p.length, ((List.range m).foldl (fun s i => s.set (p.getD i 0) (foldedStride p dims i))
      (List.replicate p.length 0)).length = p.length ∧ ∀ i < m,
      ((List.range m).foldl (fun s i => s.set (p.getD i 0) (foldedStride p dims i))
        (List.replicate p.length 0)).getD (p.getD i 0) 0 = foldedStride p dims i := by
    intro m hm
    induction m with
    | zero => simp
    | succ m ih =>
      obtain ⟨h1, h2⟩ := ih (by omega)
      rw [List.range_succ, List.foldl_append, List.foldl_cons, List.foldl_nil]
      generalize (List.range m).foldl (fun s i => s.set (p.getD i 0) (foldedStride p dims i))
        (List.replicate p.length 0) = S at *
      refine ⟨by simpa using h1, fun i hi => ?_⟩
      have hpi : ∀ i < p.length, p.getD i 0 < p.length := fun i hi => by
        have : p.getD i 0 ∈ p := by simp [hi]
        have := (IsPermutation.mem hp).mp this
        omega
      have hpm := hpi m (by omega)
      by_cases him : i = m
      · subst him
        simp only [List.getD_eq_getElem?_getD] at *
        rw [List.getElem?_set_self (by omega)]; simp
      · have : p.getD m 0 ≠ p.getD i 0 := by
          intro he
          simp only [List.getD_eq_getElem?_getD, List.getElem?_eq_getElem (show m < p.length by omega),
            List.getElem?_eq_getElem (show i < p.length by omega), Option.getD_some] at he
          have := (List.Nodup.getElem_inj_iff hnd).mp he
          omega
        have h3 := h2 i (by omega)
        simp only [List.getD_eq_getElem?_getD] at *
        rw [List.getElem?_set_ne this]; exact h3
  obtain ⟨h1, h2⟩ := key p.length (Nat.le_refl _)
  refine ⟨by rw [← hlen]; exact h1, fun i hi => ?_⟩
  rw [← foldedStride_eq]
  exact h2 i hi

/-- The last dimension of the permutation has stride one. -/
theorem stride_usd (hp : IsPermutation p dims.length) (hn : dims ≠ []) :
    (calculateStrides p dims).getD (typeManipulation.getStrideOneDimension p) 0 = 1 := by
  have hlen := IsPermutation.length hp
  have : 0 < p.length := by rw [hlen]; exact List.length_pos_iff.mpr hn
  rw [typeManipulation.getStrideOneDimension, (calculateStrides_spec hp).2 _ (by omega)]
  rw [show p.length - 1 + 1 = p.length by omega]; simp

theorem sum_eq_horner (S : Nat → Nat) (f : Nat → Int) (q : List Nat)
    (h : ∀ i < q.length, S (q.getD i 0) = ((q.drop (i + 1)).map (fun k => dims.getD k 0)).prod) :
    (q.map (fun k => f k * (S k : Nat))).sum = horner (q.map (fun k => dims.getD k 0)) (q.map f) := by
  induction q with
  | nil => simp [horner]
  | cons x xs ih =>
    have h0 := h 0 (by simp)
    simp only [List.getD_cons_zero, Nat.zero_add, List.drop_succ_cons, List.drop_zero] at h0
    simp only [List.map_cons, List.sum_cons, horner, h0]
    rw [ih (fun i hi => by simpa using h (i + 1) (by simpa using hi))]

/-- The address of an element is the mixed radix value of its indices read in permutation order. -/
theorem linearIndex_eq_horner (hp : IsPermutation p dims.length) {idx : List Int} (hl : idx.length = dims.length) :
    getLinearIndex (typeManipulation.getStrideOneDimension p : Nat) (calculateStrides p dims) idx =
      horner (reorder p dims) (reorder p idx) := by
  have hs := calculateStrides_spec hp
  by_cases hn : dims = []
  · subst hn
    have : p = [] := List.eq_nil_of_length_eq_zero (by simpa using IsPermutation.length hp)
    subst this
    simp at hl; subst hl
    simp [reorder, horner, getLinearIndex, calculateStrides]
  rw [getLinearIndex_eq (by rw [hl, hs.1]) (fun k hk he => ?_), zipWith_sum_range (by rw [hl, hs.1])]
  · rw [hl]
    have : ((List.range dims.length).map (fun k => idx.getD k 0 * ((calculateStrides p dims).getD k 0 : Nat))).sum =
        (p.map (fun k => idx.getD k 0 * ((calculateStrides p dims).getD k 0 : Nat))).sum :=
      (List.Perm.sum_eq (hp.map _)).symm
    rw [this, sum_eq_horner (dims := dims) (fun k => (calculateStrides p dims).getD k 0) (fun k => idx.getD k 0) p hs.2]
    rfl
  · have : k = typeManipulation.getStrideOneDimension p := by exact_mod_cast he
    rw [this]; exact stride_usd hp hn

theorem reorder_length {α : Type} [Inhabited α] (p : List Nat) (xs : List α) : (reorder p xs).length = p.length := by
  simp [reorder]

theorem reorder_getD {α : Type} [Inhabited α] (p : List Nat) (xs : List α) (k : Nat) (hk : k < p.length) :
    (reorder p xs).getD k default = xs.getD (p.getD k 0) default := by
  simp [reorder, List.getD_eq_getElem?_getD, List.getElem?_eq_getElem hk]

theorem reorder_inBounds (hp : IsPermutation p dims.length) {idx : List Int} :
    InBounds dims idx ↔ idx.length = dims.length ∧ InBounds (reorder p dims) (reorder p idx) := by
  have hlen := IsPermutation.length hp
  rw [inBounds_iff, inBounds_iff]
  simp only [reorder_length, true_and]
  constructor
  · rintro ⟨h1, h2⟩
    refine ⟨h1, fun k hk => ?_⟩
    have hm : p.getD k 0 < dims.length := (IsPermutation.mem hp).mp (by simp [hk])
    have e1 : (reorder p idx).getD k 0 = _ := reorder_getD p idx k hk
    have e2 : (reorder p dims).getD k 0 = _ := reorder_getD p dims k hk
    rw [e1, e2]
    exact h2 _ hm
  · rintro ⟨h1, h2⟩
    refine ⟨h1, fun k hk => ?_⟩
    have hm : k ∈ p := (IsPermutation.mem hp).mpr hk
    obtain ⟨j, hj, rfl⟩ := List.getElem_of_mem hm
    have e1 : (reorder p idx).getD j 0 = _ := reorder_getD p idx j hj
    have e2 : (reorder p dims).getD j 0 = _ := reorder_getD p dims j hj
    have := h2 j hj
    rw [e1, e2] at this
    simpa [List.getD_eq_getElem?_getD, List.getElem?_eq_getElem hj] using this

/-- Every permuted tuple comes from a tuple. -/
theorem exists_reorder (hp : IsPermutation p dims.length) {js : List Int} (hjs : js.length = dims.length) :
    ∃ idx : List Int, idx.length = dims.length ∧ reorder p idx = js := by
  have hlen := IsPermutation.length hp
  refine ⟨(List.range dims.length).map (fun k => js.getD (p.idxOf k) 0), by simp, ?_⟩
  apply List.ext_getElem
  · simp [reorder, hlen, hjs]
  · intro i h1 h2
    have hi : i < p.length := by simpa [reorder] using h1
    have hm : p[i] < dims.length := (IsPermutation.mem hp).mp (List.getElem_mem hi)
    simp only [reorder, List.getElem_map]
    rw [List.getD_eq_getElem?_getD, List.getElem?_map, List.getElem?_range hm]
    simp only [Option.map_some, Option.getD_some]
    rw [(IsPermutation.nodup hp).idxOf_getElem i hi]
    simp [List.getD_eq_getElem?_getD, List.getElem?_eq_getElem h2]

theorem reorder_inj (hp : IsPermutation p dims.length) {a b : List Int} (ha : a.length = dims.length)
    (hb : b.length = dims.length) (h : reorder p a = reorder p b) : a = b := by
  apply List.ext_getElem
  · omega
  · intro k h1 h2
    have hm : k ∈ p := (IsPermutation.mem hp).mpr (by omega)
    obtain ⟨j, hj, rfl⟩ := List.getElem_of_mem hm
    have e1 := reorder_getD p a j hj
    have e2 := reorder_getD p b j hj
    rw [h, e2] at e1
    simp [List.getD_eq_getElem?_getD, List.getElem?_eq_getElem hj] at e1
    rw [List.getElem?_eq_getElem h1, List.getElem?_eq_getElem h2] at e1
    simpa using e1.symm

theorem reorder_prod (hp : IsPermutation p dims.length) : (reorder p dims).prod = dims.prod := by
  have h1 : (reorder p dims).Perm (reorder (List.range dims.length) dims) := hp.map _
  have h2 : reorder (List.range dims.length) dims = dims := by
    apply List.ext_getElem
    · simp [reorder]
    · intro i h1 h2
      simp [reorder, h2]
  rw [h1.prod_eq, h2]

end perm

theorem invalidIndices_iff (dims : List Nat) (idx : List Int) (hl : idx.length = dims.length) :
    invalidIndices dims idx = false ↔ InBounds dims idx := by
  have key : ∀ (l : List Int) (k : Nat) (b : Bool), (l.foldl (fun (st : Nat × Bool) (index : Int) =>
      (st.1 + 1, st.2 || decide (index < 0) || decide (index ≥ ((dims.getD st.1 0 : Nat) : Int)))) (k, b)).2 = false ↔
      b = false ∧ ∀ j < l.length, 0 ≤ l.getD j 0 ∧ l.getD j 0 < (dims.getD (k + j) 0 : Nat) := by
    intro l
    induction l with
    | nil => simp
    | cons x xs ih =>
      intro k b
      rw [List.foldl_cons, ih]
      simp only [Bool.or_eq_false_iff, decide_eq_false_iff_not, List.length_cons]
      constructor
      · rintro ⟨⟨⟨hb, h0⟩, h1⟩, h2⟩
        refine ⟨hb, fun j hj => ?_⟩
        cases j with
        | zero => simp at *; omega
        | succ j =>
          have := h2 j (by omega)
          rw [show k + 1 + j = k + (j + 1) by omega] at this
          simpa using this
      · rintro ⟨hb, h⟩
        have h0 := h 0 (by omega)
        simp at h0
        refine ⟨⟨⟨hb, by omega⟩, by simp; omega⟩, fun j hj => ?_⟩
        have := h (j + 1) (by omega)
        rw [show k + (j + 1) = k + 1 + j by omega] at this
        simpa using this
  rw [invalidIndices, key, inBounds_iff]
  simp [hl]

end LvArray

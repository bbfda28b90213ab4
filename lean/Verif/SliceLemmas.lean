import Verif.IndexingLemmas
import Mathlib.Data.List.Perm.Subperm
import Mathlib.Data.List.ProdSigma
import Mathlib.Algebra.BigOperators.Group.List.Lemmas

/-!
# Lemmas about slices: chaining and contiguity
-/

namespace LvArray

open indexing Spec

theorem isValidPermutation_iff (p : List Nat) :
    typeManipulation.isValidPermutation p = true ↔ IsPermutation p p.length := by
  have hc : ∀ k, typeManipulation.contains k p = true ↔ k ∈ p := by
    intro k
    induction p with
    | nil => simp [typeManipulation.contains]
    | cons x xs ih => simp [typeManipulation.contains, ih]
  simp only [typeManipulation.isValidPermutation, List.all_eq_true, List.mem_range, hc]
  constructor
  · intro h
    have : List.range p.length ⊆ p := fun k hk => h k (by simpa using hk)
    exact ((List.nodup_range.subperm this).perm_of_length_le (by simp)).symm
  · intro h k hk
    exact (IsPermutation.mem h).mpr hk

namespace Slice

theorem checkBounds_in (c : Cfg) (s : Slice) (i : Int) (h : 0 ≤ i ∧ i < (s.dims.headD 0 : Nat)) :
    s.checkBounds c i = .ok () := by
  unfold checkBounds
  split
  · rw [show (decide (i < 0) || decide (i ≥ ((s.dims.headD 0 : Nat) : Int))) = false by
      simp only [Bool.or_eq_false_iff, decide_eq_false_iff_not]; omega]; rfl
  · rfl

theorem checkBounds_out (c : Cfg) (hc : c.boundsCheck = true) (s : Slice) (i : Int)
    (h : ¬ (0 ≤ i ∧ i < (s.dims.headD 0 : Nat))) : s.checkBounds c i = .error .abort := by
  unfold checkBounds
  rw [if_pos hc, show (decide (i < 0) || decide (i ≥ ((s.dims.headD 0 : Nat) : Int))) = true by
    simp only [Bool.or_eq_true, decide_eq_true_eq]; omega]; rfl

/-- Chaining and then calling is calling with all the indices, aborting in the same cases. -/
theorem chain_call (c : Cfg) (s : Slice) (pre rest : List Int) (hl : pre.length + rest.length = s.dims.length)
    (hs : s.strides.length = s.dims.length) :
    (s.chain c pre >>= fun t => t.call c rest) = s.call c (pre ++ rest) := by
  induction pre generalizing s with
  | nil => simp [chain]
  | cons i is ih =>
    obtain ⟨data, dims, strides, usd⟩ := s
    cases dims with
    | nil => simp at hl
    | cons d ds =>
      cases strides with
      | nil => simp at hs
      | cons st sts =>
        simp only [List.length_cons] at hl hs
        have hlin : getLinearIndex usd (st :: sts) (i :: (is ++ rest)) =
            condMul (usd == 0) i st + getLinearIndex (usd - 1) sts (is ++ rest) := by
          cases h : is ++ rest with
          | nil => simp [getLinearIndex]
          | cons j js => simp [getLinearIndex]
        have hrest : (is ++ rest).length = ds.length := by simp; omega
        have ih' := ih { data := data + condMul (usd == 0) i st, dims := ds, strides := sts, usd := usd - 1 }
          (by simp; omega) (by simpa using hs)
        by_cases hb : c.boundsCheck
        · by_cases hi : 0 ≤ i ∧ i < (d : Nat)
          · have h1 := checkBounds_in c ⟨data, d :: ds, st :: sts, usd⟩ i hi
            have h2 : invalidIndices (d :: ds) (i :: (is ++ rest)) = invalidIndices ds (is ++ rest) := by
              have e1 := invalidIndices_iff (d :: ds) (i :: (is ++ rest)) (by simp at hrest ⊢; omega)
              have e2 := invalidIndices_iff ds (is ++ rest) hrest
              simp only [InBounds, hi, true_and, ← e2, and_self] at e1
              cases h : invalidIndices ds (is ++ rest) <;> simp_all
            simp only [chain, at_, h1, List.headD_cons, bind_ok, List.tail_cons]
            rw [ih']
            simp only [call, hb, if_true, checkIndices, List.cons_append, h2, hlin]
            cases invalidIndices ds (is ++ rest) <;> simp [Int.add_assoc]
          · have h1 := checkBounds_out c hb ⟨data, d :: ds, st :: sts, usd⟩ i hi
            have h2 : invalidIndices (d :: ds) (i :: (is ++ rest)) = true := by
              have e1 := invalidIndices_iff (d :: ds) (i :: (is ++ rest)) (by simp at hrest ⊢; omega)
              cases h : invalidIndices (d :: ds) (i :: (is ++ rest)) with
              | true => rfl
              | false => exact absurd (e1.mp h).1 (by simpa using hi)
            simp only [chain, at_, h1, bind_err, call, checkIndices, List.cons_append, h2, hb, if_true, errorIf_true]
        · simp only [chain, at_, checkBounds, hb, Bool.false_eq_true, if_false, List.headD_cons, bind_ok, List.tail_cons]
          rw [ih']
          simp only [call, hb, Bool.false_eq_true, if_false, List.cons_append, hlin]
          rw [Int.add_assoc]

/-- What a chained slice looks like. -/
theorem chain_shape {c : Cfg} {s t : Slice} {pre : List Int} (h : s.chain c pre = .ok t) :
    t.dims = s.dims.drop pre.length ∧ t.strides = s.strides.drop pre.length ∧ t.usd = s.usd - pre.length := by
  induction pre generalizing s with
  | nil => simp [chain] at h; simp [h]
  | cons i is ih =>
    rw [chain, at_] at h
    cases hc : s.checkBounds c i with
    | error e => simp [hc] at h
    | ok u =>
      simp only [hc, bind_ok] at h
      obtain ⟨h1, h2, h3⟩ := ih h
      refine ⟨by simp [h1], by simp [h2], by rw [h3]; simp; omega⟩

theorem chain_ok {c : Cfg} {s : Slice} {pre : List Int} (h : InBounds (s.dims.take pre.length) pre) :
    ∃ t, s.chain c pre = .ok t := by
  induction pre generalizing s with
  | nil => exact ⟨s, rfl⟩
  | cons i is ih =>
    obtain ⟨data, dims, strides, usd⟩ := s
    cases dims with
    | nil => simp [InBounds] at h
    | cons d ds =>
      simp only [List.length_cons, List.take_succ_cons, InBounds] at h
      rw [chain, at_, checkBounds_in c ⟨data, d :: ds, strides, usd⟩ i h.1]
      simp only [bind_ok, List.tail_cons]
      exact ih h.2

end Slice

theorem InBounds.append {a b : List Nat} {x y : List Int} (hx : InBounds a x) (hy : InBounds b y) :
    InBounds (a ++ b) (x ++ y) := by
  induction a generalizing x with
  | nil => cases x <;> simp_all [InBounds]
  | cons d ds ih => cases x with
    | nil => simp [InBounds] at hx
    | cons i is => exact ⟨hx.1, ih hx.2⟩

theorem InBounds.pos {a : List Nat} {x : List Int} (hx : InBounds a x) : ∀ d ∈ a, 0 < d := by
  induction a generalizing x with
  | nil => simp
  | cons d ds ih => cases x with
    | nil => simp [InBounds] at hx
    | cons i is =>
      intro e he
      have := hx.1
      rcases List.mem_cons.mp he with rfl | he
      · omega
      · exact ih hx.2 e he

/-! ## Contiguity -/

section contig

variable {p dims : List Nat}

/-- The permutation of the dimensions left after fixing the first `m` indices. -/
def restPerm (p : List Nat) (m : Nat) : List Nat := (p.filter (fun k => decide (m ≤ k))).map (fun k => k - m)

theorem restPerm_perm {n m : Nat} (hp : IsPermutation p n) (hm : m ≤ n) : IsPermutation (restPerm p m) (n - m) := by
  have h1 := (List.Perm.filter (fun k => decide (m ≤ k)) hp).map (fun k => k - m)
  have h2 : ((List.range n).filter (fun k => decide (m ≤ k))).map (fun k => k - m) = List.range (n - m) := by
    obtain ⟨j, rfl⟩ : ∃ j, n = m + j := ⟨n - m, by omega⟩
    rw [List.range_add, List.filter_append]
    have e1 : (List.range m).filter (fun k => decide (m ≤ k)) = [] := by simp
    have e2 : ((List.range j).map (fun x => m + x)).filter (fun k => decide (m ≤ k)) = (List.range j).map (fun x => m + x) := by
      simp
    rw [e1, e2]
    simp
    apply List.ext_getElem <;> simp
  rw [h2] at h1
  exact h1

theorem strides_split (hp : IsPermutation p dims.length) {l r : List Nat} {k : Nat} (h : p = l ++ k :: r) :
    (calculateStrides p dims).getD k 0 = (r.map (fun k => dims.getD k 0)).prod := by
  have := (calculateStrides_spec hp).2 l.length (by rw [h]; simp)
  have e1 : p.getD l.length 0 = k := by rw [h]; simp
  have e2 : p.drop (l.length + 1) = r := by
    rw [h, List.drop_append]; simp
  rw [e1, e2] at this
  exact this

/-- Product of the fixed dimensions in a stretch of the permutation. -/
def fixedProd (dims : List Nat) (m : Nat) (r : List Nat) : Nat :=
  ((r.filter (fun k => !decide (m ≤ k))).map (fun k => dims.getD k 0)).prod

theorem prod_split (r : List Nat) (m : Nat) :
    (r.map (fun k => dims.getD k 0)).prod =
      ((restPerm r m).map (fun k => (dims.drop m).getD k 0)).prod * fixedProd dims m r := by
  induction r with
  | nil => simp [restPerm, fixedProd]
  | cons x xs ih =>
    simp only [restPerm, fixedProd] at ih
    by_cases h : m ≤ x
    · simp only [restPerm, fixedProd, List.map_cons, List.prod_cons, List.filter_cons, h, decide_true, if_true,
        Bool.not_true, Bool.false_eq_true, if_false, ih]
      rw [Nat.mul_assoc]
      congr 1
      simp [List.getD_eq_getElem?_getD, List.getElem?_drop, show m + (x - m) = x by omega]
    · simp only [restPerm, fixedProd, List.map_cons, List.prod_cons, List.filter_cons, h, decide_false,
        Bool.false_eq_true, if_false, Bool.not_false, if_true, ih]
      rw [Nat.mul_left_comm]

theorem restPerm_split {l r : List Nat} {k m : Nat} (hk : m ≤ k) :
    restPerm (l ++ k :: r) m = restPerm l m ++ (k - m) :: restPerm r m := by
  simp [restPerm, List.filter_append, hk]

/-- The stride of a remaining dimension is its tight stride times the fixed dimensions that vary faster. -/
theorem stride_rest (hp : IsPermutation p dims.length) {m : Nat} (hm : m ≤ dims.length) {l r : List Nat} {k : Nat}
    (h : p = l ++ k :: r) (hk : m ≤ k) :
    (calculateStrides p dims).getD k 0 =
      (calculateStrides (restPerm p m) (dims.drop m)).getD (k - m) 0 * fixedProd dims m r := by
  have hq : IsPermutation (restPerm p m) (dims.drop m).length := by
    rw [List.length_drop]; exact restPerm_perm hp hm
  rw [strides_split hp h, prod_split r m, strides_split hq (by rw [h]; exact restPerm_split hk)]

theorem fixedProd_append (m : Nat) (a b : List Nat) :
    fixedProd dims m (a ++ b) = fixedProd dims m a * fixedProd dims m b := by
  simp [fixedProd]

theorem list_prod_pos {l : List Nat} (h : ∀ d ∈ l, 0 < d) : 0 < l.prod := by
  induction l with
  | nil => simp
  | cons x xs ih =>
    rw [List.prod_cons]
    exact Nat.mul_pos (h x (by simp)) (ih (fun d hd => h d (by simp [hd])))

theorem fixedProd_pos {m : Nat} (hpos : ∀ k < m, 0 < dims.getD k 0) (r : List Nat) : 0 < fixedProd dims m r := by
  apply list_prod_pos
  intro d hd
  simp only [List.mem_map, List.mem_filter] at hd
  obtain ⟨k, ⟨_, hk⟩, rfl⟩ := hd
  exact hpos k (by simpa using hk)

/-- The loop over `j` in `isContiguous`. -/
theorem prodOthers_eq (n i : Nat) (D : Nat → Nat) :
    (List.range n).foldl (fun (prod : Nat) (j : Nat) => if j != i then prod * D j else prod) 1 =
      (((List.range n).filter (fun j => j != i)).map D).prod := by
  have key : ∀ (l : List Nat) (a : Nat), l.foldl (fun (prod : Nat) (j : Nat) => if j != i then prod * D j else prod) a =
      a * ((l.filter (fun j => j != i)).map D).prod := by
    intro l
    induction l with
    | nil => simp
    | cons x xs ih =>
      intro a
      rw [List.foldl_cons, ih]
      by_cases h : x = i
      · simp [h]
      · simp [h, Nat.mul_assoc]
  rw [key, Nat.one_mul]

/-- For the slowest dimension of a permutation the product of all other dimensions is its stride; in general it is
at least the stride when no dimension is zero. -/
theorem others_perm {n : Nat} {l r : List Nat} {k : Nat} (hp : IsPermutation (l ++ k :: r) n) :
    ((List.range n).filter (fun j => j != k)).Perm (l ++ r) := by
  have h1 := (List.Perm.filter (fun j => j != k) hp).symm
  have hnd := IsPermutation.nodup hp
  refine h1.trans ?_
  rw [List.filter_append, List.filter_cons]
  simp only [bne_self_eq_false, Bool.false_eq_true, if_false]
  rw [List.nodup_append] at hnd
  obtain ⟨_, hr, hd⟩ := hnd
  rw [List.nodup_cons] at hr
  rw [List.filter_eq_self.mpr (fun a ha => by
      have := hd a ha k (by simp); simpa using this),
    List.filter_eq_self.mpr (fun a ha => by
      simp only [bne_iff_ne, ne_eq]
      rintro rfl; exact hr.1 ha)]

theorem foldl_and_true {α : Type} (f : Bool → α → Bool) (P : α → Bool) (hf : ∀ b x, f b x = (b && P x)) (l : List α) :
    ∀ b, l.foldl f b = (b && l.all P) := by
  induction l with
  | nil => simp
  | cons x xs ih => intro b; rw [List.foldl_cons, ih, hf, List.all_cons, Bool.and_assoc]

theorem isContiguous_iff (s : Slice) : s.isContiguous = true ↔
    0 ≤ s.usd ∧ ((s.dims.length = 1 ∧ s.usd = 0) ∨ ∀ i < s.dims.length, (i : Int) ≠ s.usd →
      s.strides.getD i 0 ≤ (((List.range s.dims.length).filter (fun j => j != i)).map (fun j => s.dims.getD j 0)).prod) := by
  unfold Slice.isContiguous
  by_cases h : s.usd < 0
  · simp [h]
  · rw [if_neg h]
    by_cases h1 : s.dims.length = 1 ∧ s.usd = 0
    · simp [h1]
    · rw [if_neg (by simpa using h1),
        foldl_and_true _ (fun (i : Nat) => decide ((i : Int) = s.usd) || decide (s.strides.getD i 0 ≤
          (((List.range s.dims.length).filter (fun j => j != i)).map (fun j => s.dims.getD j 0)).prod))]
      · simp only [Bool.true_and, List.all_eq_true, List.mem_range, Bool.or_eq_true, decide_eq_true_eq]
        constructor
        · intro h2
          exact ⟨by omega, .inr fun i hi hne => (h2 i hi).resolve_left hne⟩
        · rintro ⟨_, h2 | h2⟩
          · exact absurd h2 h1
          · intro i hi
            by_cases he : (i : Int) = s.usd
            · exact .inl he
            · exact .inr (h2 i hi he)
      · intro b i
        by_cases he : (i : Int) = s.usd
        · simp [he]
        · simp only [beq_iff_eq, he, if_false, decide_false, Bool.false_or]
          rw [prodOthers_eq s.dims.length i (fun j => s.dims.getD j 0)]

/-- The sum form of the address of an element of a slice. -/
theorem slice_sum {usd : Int} {strides : List Nat} {idx : List Int} {q : List Nat}
    (hq : IsPermutation q strides.length) (hl : idx.length = strides.length)
    (h : ∀ k < strides.length, (k : Int) = usd → strides.getD k 0 = 1) :
    getLinearIndex usd strides idx = (q.map (fun k => idx.getD k 0 * (strides.getD k 0 : Nat))).sum := by
  rw [getLinearIndex_eq hl h, zipWith_sum_range hl, hl]
  exact (List.Perm.sum_eq (hq.map _)).symm

theorem exists_split {q : List Nat} {k : Nat} (h : k ∈ q) : ∃ l r, q = l ++ k :: r := by
  obtain ⟨l, r, e⟩ := List.append_of_mem h
  exact ⟨l, r, e⟩

/-- Split a permutation at the slowest remaining dimension. -/
theorem split_first_rest {n m : Nat} (hp : IsPermutation p n) (hm : m < n) :
    ∃ l k r, p = l ++ k :: r ∧ m ≤ k ∧ ∀ j ∈ l, j < m := by
  have hex : ∃ k ∈ p, m ≤ k := ⟨m, (IsPermutation.mem hp).mpr hm, Nat.le_refl _⟩
  clear hp hm
  induction p with
  | nil => simp at hex
  | cons x xs ih =>
    by_cases hx : m ≤ x
    · exact ⟨[], x, xs, rfl, hx, by simp⟩
    · obtain ⟨k, hk, hmk⟩ := hex
      rcases List.mem_cons.mp hk with rfl | hk
      · exact absurd hmk hx
      · obtain ⟨l, k', r, e, h1, h2⟩ := ih ⟨k, hk, hmk⟩
        exact ⟨x :: l, k', r, by rw [e]; rfl, h1, by
          intro j hj
          rcases List.mem_cons.mp hj with rfl | hj
          · omega
          · exact h2 j hj⟩

/-- If the fixed dimensions varying faster than the slowest remaining one have product one, the strides of the slice
are those of an array of the remaining dimensions. -/
theorem strides_tight (hp : IsPermutation p dims.length) {m : Nat} (hm : m < dims.length) {l r : List Nat} {k : Nat}
    (h : p = l ++ k :: r) (_ : m ≤ k) (hl : ∀ j ∈ l, j < m) (h1 : fixedProd dims m r = 1) :
    (calculateStrides p dims).drop m = calculateStrides (restPerm p m) (dims.drop m) := by
  have hq : IsPermutation (restPerm p m) (dims.drop m).length := by
    rw [List.length_drop]; exact restPerm_perm hp (by omega)
  have e1 := (calculateStrides_spec hp).1
  have e2 := (calculateStrides_spec hq).1
  apply List.ext_getElem
  · simp [e1, e2]
  · intro i hi1 hi2
    have hmi : m + i ∈ p := (IsPermutation.mem hp).mpr (by simp [e1] at hi1; omega)
    have key : ∃ l' r', p = l' ++ (m + i) :: r' ∧ fixedProd dims m r' = 1 := by
      rw [h] at hmi
      rcases List.mem_append.mp hmi with hmi | hmi
      · exact absurd (hl _ hmi) (by omega)
      · rcases List.mem_cons.mp hmi with he | hmi
        · exact ⟨l, r, by rw [he]; exact h, h1⟩
        · obtain ⟨a, b, e⟩ := exists_split hmi
          refine ⟨l ++ k :: a, b, by rw [h, e]; simp, ?_⟩
          rw [e, show a ++ (m + i) :: b = (a ++ [m + i]) ++ b by simp, fixedProd_append] at h1
          exact Nat.eq_one_of_mul_eq_one_left h1
    obtain ⟨l', r', e, hf⟩ := key
    have := stride_rest hp (Nat.le_of_lt hm) e (by omega)
    rw [hf, Nat.mul_one, show m + i - m = i by omega] at this
    rw [List.getD_eq_getElem?_getD, List.getD_eq_getElem?_getD, List.getElem?_eq_getElem hi2,
      List.getElem?_eq_getElem (by simp at hi1; omega)] at this
    simpa using this

/-- Unit stride dimension of a slice. -/
theorem slice_usd (hp : IsPermutation p dims.length) {m : Nat} (hm : m < dims.length) :
    ∀ k < ((calculateStrides p dims).drop m).length,
      (k : Int) = (typeManipulation.getStrideOneDimension p : Nat) - (m : Int) →
      ((calculateStrides p dims).drop m).getD k 0 = 1 := by
  intro k _ he
  have := stride_usd hp (by rintro rfl; simp at hm)
  rw [List.getD_eq_getElem?_getD] at *
  rw [List.getElem?_drop, show m + k = typeManipulation.getStrideOneDimension p by omega]
  exact this

theorem getStrideOneDimension_eq {l : List Nat} {k : Nat} (h : p = l ++ [k]) :
    typeManipulation.getStrideOneDimension p = k := by
  rw [h]; simp [typeManipulation.getStrideOneDimension]

/-- `isContiguous` on a slice with no empty dimension makes the strides tight. -/
theorem contiguous_tight (hp : IsPermutation p dims.length) {m : Nat} (hm : m < dims.length)
    (hpos : ∀ k < dims.length, 0 < dims.getD k 0) {t : Slice} (ht : t.dims = dims.drop m)
    (hs : t.strides = (calculateStrides p dims).drop m)
    (hu : t.usd = (typeManipulation.getStrideOneDimension p : Nat) - (m : Int)) (hc : t.isContiguous = true) :
    t.strides = calculateStrides (restPerm p m) (dims.drop m) := by
  obtain ⟨l, k, r, h, hk, hl⟩ := split_first_rest hp hm
  have hq : IsPermutation (restPerm p m) (dims.drop m).length := by
    rw [List.length_drop]; exact restPerm_perm hp (by omega)
  have hkn : k < dims.length := (IsPermutation.mem hp).mp (by rw [h]; simp)
  rw [hs]
  refine strides_tight hp hm h hk hl ?_
  by_cases hr : r = []
  · subst hr; simp [fixedProd]
  · -- `k` is not the unit stride dimension
    have hne : ((k - m : Nat) : Int) ≠ t.usd := by
      rw [hu]
      intro he
      have h2 : typeManipulation.getStrideOneDimension p = k := by omega
      obtain ⟨r', x, rfl⟩ : ∃ r' x, r = r' ++ [x] := ⟨r.dropLast, r.getLast hr, (List.dropLast_append_getLast hr).symm⟩
      have h3 : typeManipulation.getStrideOneDimension p = x :=
        getStrideOneDimension_eq (l := l ++ k :: r') (by rw [h]; simp)
      have hnd := IsPermutation.nodup hp
      rw [h] at hnd
      have := (List.nodup_append.mp hnd).2.1
      rw [List.nodup_cons] at this
      exact this.1 (by rw [← h2, h3]; simp)
    obtain ⟨h0, hcase⟩ := (isContiguous_iff t).mp hc
    rcases hcase with ⟨hd1, hu0⟩ | hall
    · rw [ht, List.length_drop] at hd1
      exact absurd (by omega : ((k - m : Nat) : Int) = t.usd) hne
    · have h4 := hall (k - m) (by rw [ht, List.length_drop]; omega) hne
      rw [ht, hs] at h4
      have e5 : restPerm p m = [] ++ (k - m) :: restPerm r m := by
        rw [h, restPerm_split hk]
        have : restPerm l m = [] := by
          simp only [restPerm, List.map_eq_nil_iff, List.filter_eq_nil_iff, decide_eq_true_eq]
          intro j hj; have := hl j hj; omega
        rw [this]
      have h6 := (others_perm (e5 ▸ hq)).map (fun j => (dims.drop m).getD j 0)
      rw [h6.prod_eq, List.nil_append] at h4
      have h7 := strides_split hq e5
      rw [← h7] at h4
      have h8 := stride_rest hp (by omega) h hk
      rw [List.getD_eq_getElem?_getD, List.getElem?_drop, show m + (k - m) = k by omega,
        ← List.getD_eq_getElem?_getD, h8] at h4
      have h9 : 0 < (calculateStrides (restPerm p m) (dims.drop m)).getD (k - m) 0 := by
        rw [h7]
        apply list_prod_pos
        intro d hd
        obtain ⟨j, hj, rfl⟩ := List.mem_map.mp hd
        have hj' : j ∈ restPerm p m := by rw [e5]; simp [hj]
        have := (IsPermutation.mem hq).mp hj'
        rw [List.length_drop] at this
        have hh := hpos (m + j) (by omega)
        rw [List.getD_eq_getElem?_getD] at hh
        simpa [List.getD_eq_getElem?_getD, List.getElem?_drop] using hh
      have h10 := fixedProd_pos (dims := dims) (m := m) (fun j hj => hpos j (by omega)) r
      have h11 : fixedProd dims m r ≤ 1 := by
        by_contra hcon
        have := Nat.mul_le_mul_left ((calculateStrides (restPerm p m) (dims.drop m)).getD (k - m) 0)
          (show 2 ≤ fixedProd dims m r by omega)
        omega
      omega

/-- The greatest multi-index of a box. -/
def maxIdx (dims : List Nat) : List Int := dims.map (fun (d : Nat) => (d : Int) - 1)

theorem maxIdx_inBounds {dims : List Nat} (h : ∀ d ∈ dims, 0 < d) : InBounds dims (maxIdx dims) := by
  induction dims with
  | nil => simp [maxIdx, InBounds]
  | cons d ds ih =>
    have := h d (by simp)
    exact ⟨by simp; omega, ih (fun e he => h e (by simp [he]))⟩

theorem horner_maxIdx (dims : List Nat) : horner dims (maxIdx dims) = (dims.prod : Nat) - 1 := by
  induction dims with
  | nil => simp [horner]
  | cons d ds ih =>
    rw [maxIdx, List.map_cons, horner]
    have : horner ds (List.map (fun d : Nat => (d : Int) - 1) ds) = (ds.prod : Nat) - 1 := ih
    rw [this, List.prod_cons]
    push_cast
    rw [Int.sub_mul]; omega

theorem reorder_maxIdx {p dims : List Nat} (hp : IsPermutation p dims.length) :
    reorder p (maxIdx dims) = maxIdx (reorder p dims) := by
  apply List.ext_getElem
  · simp [reorder, maxIdx]
  · intro i h1 h2
    have hi : i < p.length := by simpa [reorder] using h1
    have hm : p[i] < dims.length := (IsPermutation.mem hp).mp (List.getElem_mem hi)
    simp [reorder, maxIdx, hm]

theorem sum_strict {q : List Nat} {f : Nat → Int} {S T : Nat → Nat} (hf : ∀ k ∈ q, 0 < f k) (hST : ∀ k ∈ q, T k ≤ S k)
    (h : (q.map (fun k => f k * (S k : Nat))).sum ≤ (q.map (fun k => f k * (T k : Nat))).sum) :
    ∀ k ∈ q, S k = T k := by
  have key : ∀ q : List Nat, (∀ k ∈ q, 0 < f k) → (∀ k ∈ q, T k ≤ S k) →
      (q.map (fun k => f k * (T k : Nat))).sum ≤ (q.map (fun k => f k * (S k : Nat))).sum := by
    intro q
    induction q with
    | nil => simp
    | cons x xs ih =>
      intro h1 h2
      simp only [List.map_cons, List.sum_cons]
      have a := ih (fun k hk => h1 k (by simp [hk])) (fun k hk => h2 k (by simp [hk]))
      have b := Int.mul_le_mul_of_nonneg_left (Int.ofNat_le.mpr (h2 x (by simp))) (Int.le_of_lt (h1 x (by simp)))
      omega
  induction q with
  | nil => simp
  | cons x xs ih =>
    simp only [List.map_cons, List.sum_cons] at h
    have a := key xs (fun k hk => hf k (by simp [hk])) (fun k hk => hST k (by simp [hk]))
    have b := Int.mul_le_mul_of_nonneg_left (Int.ofNat_le.mpr (hST x (by simp))) (Int.le_of_lt (hf x (by simp)))
    intro k hk
    rcases List.mem_cons.mp hk with rfl | hk
    · have e : f k * (S k : Nat) = f k * (T k : Nat) := by omega
      have := Int.eq_of_mul_eq_mul_left (by have := hf k (by simp); omega) e
      exact_mod_cast this
    · exact ih (fun k hk => hf k (by simp [hk])) (fun k hk => hST k (by simp [hk])) (by omega) k hk

end contig

end LvArray

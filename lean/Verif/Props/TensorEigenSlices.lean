import Verif.TensorEigenSlicesLemmas
import Verif.Props.TensorEigen
import Verif.Props.TensorFixedSlices

/-!
# C83: eigenvalues, eigenvectors and normalisation in one memory

In exact real arithmetic.  The symmetric matrix is copied before anything is written, so the destinations may be any part of it.
-/

namespace LvArray.Props

open LvArray.tensorOps Spec Polynomial

/-- `symEigenvalues< 2 >` writes the roots of the characteristic polynomial of the matrix in memory with their multiplicity, in ascending
order, and nothing else. -/
theorem C83_eigenvalues2 (c : Cfg) (fpCopy : Vec ℝ) {dst src : Slice} (mem : Store ℝ) (hd : IsVector 2 dst) (hD : Distinct 2 dst)
    (hs : IsVector 3 src) :
    Leaves (Cells 2 dst) mem
      (fun new => (packed2 src mem).charpoly = (X - C (vectorAt 2 dst new 0)) * (X - C (vectorAt 2 dst new 1)) ∧
        vectorAt 2 dst new 0 ≤ vectorAt 2 dst new 1)
      (Slices.symEigenvalues2 c fpCopy dst src mem) := by
  obtain ⟨new, e, H⟩ := Slices.symEigenvalues2_follows c fpCopy mem hd hD hs
  refine ⟨new, e, ?_, H.2⟩
  beta_reduce
  rw [vectorAt_shown H]
  have h := C43_two fpCopy (Slices.vecAt dst mem) (Slices.vecAt src mem)
  exact ⟨h.1, h.2.1⟩

/-- `symEigenvalues< 3 >`. -/
theorem C83_eigenvalues3 (c : Cfg) (fpCopy : Vec ℝ) {dst src : Slice} (mem : Store ℝ) (hd : IsVector 3 dst) (hD : Distinct 3 dst)
    (hs : IsVector 6 src) :
    Leaves (Cells 3 dst) mem
      (fun new => (packed3 src mem).charpoly =
          (X - C (vectorAt 3 dst new 0)) * (X - C (vectorAt 3 dst new 1)) * (X - C (vectorAt 3 dst new 2)) ∧
        vectorAt 3 dst new 0 ≤ vectorAt 3 dst new 1 ∧ vectorAt 3 dst new 1 ≤ vectorAt 3 dst new 2)
      (Slices.symEigenvalues3 c fpCopy dst src mem) := by
  obtain ⟨new, e, H⟩ := Slices.symEigenvalues3_follows c fpCopy mem hd hD hs
  refine ⟨new, e, ?_, H.2⟩
  beta_reduce
  rw [vectorAt_shown H]
  have h := C43_three fpCopy (Slices.vecAt dst mem) (Slices.vecAt src mem)
  exact ⟨h.1, h.2.1, h.2.2.1⟩

/-- The eigenvalues may replace the first entries of the packed matrix itself. -/
example (c : Cfg) (fpCopy : Vec ℝ) (mem : Store ℝ) : IsVector 2 ⟨1, [2], [1], 0⟩ ∧ Distinct 2 ⟨1, [2], [1], 0⟩ ∧ IsVector 3 ⟨1, [3], [1], 0⟩ ∧
    ∃ new, Slices.symEigenvalues2 c fpCopy ⟨1, [2], [1], 0⟩ ⟨1, [3], [1], 0⟩ mem = .ok new ∧ new 1 + new 2 = mem 1 + mem 2 := by
  have hd : IsVector 2 ⟨1, [2], [1], 0⟩ := ⟨rfl, rfl, fun _ => rfl⟩
  have hD : Distinct 2 ⟨1, [2], [1], 0⟩ := fun i j _ _ h => by simp [entry] at h; omega
  have hs : IsVector 3 ⟨1, [3], [1], 0⟩ := ⟨rfl, rfl, fun _ => rfl⟩
  refine ⟨hd, hD, hs, ?_⟩
  obtain ⟨new, e, ⟨h, _⟩, _⟩ := C83_eigenvalues2 c fpCopy mem hd hD hs
  refine ⟨new, e, ?_⟩
  have t := congrArg (fun p => p.coeff 1) h
  simp only [Matrix.charpoly_fin_two, sub_mul, mul_sub, coeff_sub, coeff_add, ← C_mul, coeff_X_mul, coeff_C_mul, coeff_C,
    coeff_X, coeff_X_pow, coeff_mul_C] at t
  simp [Matrix.trace, Fin.sum_univ_two, packed2, voigt2, vectorAt, vector, entry] at t
  linarith

/-- `symEigenvectors< 2 >` writes the eigenvalues and, as the rows of a matrix, orthonormal eigenvectors of the matrix in memory, and nothing
else.  `epsilon` is the machine epsilon of the type. -/
theorem C83_eigenvectors2 (c : Cfg) {epsilon : ℝ} (h0 : 0 ≤ epsilon) (h1 : epsilon < 1) (fpCopy : Vec ℝ) {values vectors src : Slice}
    (mem : Store ℝ) (he : IsVector 2 values) (hE : Distinct 2 values) (hv : IsMatrix 2 2 vectors) (hV : Distinct2 2 2 vectors)
    (hs : IsVector 3 src) (hN : NoneShared (Cells 2 values) (Cells2 2 2 vectors)) :
    Leaves (fun a => Cells 2 values a ∨ Cells2 2 2 vectors a) mem
      (fun new => (packed2 src mem).charpoly = (X - C (vectorAt 2 values new 0)) * (X - C (vectorAt 2 values new 1)) ∧
        vectorAt 2 values new 0 ≤ vectorAt 2 values new 1 ∧
        matrixAt 2 vectors new * (matrixAt 2 vectors new).transpose = 1 ∧
        ∀ i, (packed2 src mem).mulVec (matrixAt 2 vectors new i) = vectorAt 2 values new i • matrixAt 2 vectors new i)
      (Slices.symEigenvectors2 c epsilon fpCopy values vectors src mem) := by
  obtain ⟨new, e, B⟩ := Slices.symEigenvectors2_follows c epsilon fpCopy mem he hE hv hV hs hN
  refine ⟨new, e, ?_, fun q hq => B.rest q (fun h => hq (.inl h)) (fun h => hq (.inr h))⟩
  beta_reduce
  rw [vectorAt_shown (Slices.shows1_of B.vals), matrixAt_shown (Slices.shows2_of B.vecs)]
  obtain ⟨a, b, d⟩ := C50_two h0 h1 fpCopy (Slices.vecAt values mem) (Slices.matAt vectors mem) (Slices.vecAt src mem) _ _ (Prod.eta _).symm
  have h := C43_two fpCopy (Slices.vecAt values mem) (Slices.vecAt src mem)
  refine ⟨?_, ?_, b, d⟩
  · rw [a]; exact h.1
  · rw [a]; exact h.2.1

/-- `symEigenvectors< 3 >`: the vectors are orthonormal, and off by no more than `2 * epsilon` times the distance of the smallest from the
largest eigenvalue. -/
theorem C83_eigenvectors3 (c : Cfg) {epsilon : ℝ} (h0 : 0 ≤ epsilon) (h1 : epsilon < 1) (candidate fpCopy : Vec ℝ)
    {values vectors src : Slice} (mem : Store ℝ) (he : IsVector 3 values) (hE : Distinct 3 values) (hv : IsMatrix 3 3 vectors)
    (hV : Distinct2 3 3 vectors) (hs : IsVector 6 src) (hN : NoneShared (Cells 3 values) (Cells2 3 3 vectors)) :
    Leaves (fun a => Cells 3 values a ∨ Cells2 3 3 vectors a) mem
      (fun new => (packed3 src mem).charpoly =
          (X - C (vectorAt 3 values new 0)) * (X - C (vectorAt 3 values new 1)) * (X - C (vectorAt 3 values new 2)) ∧
        vectorAt 3 values new 0 ≤ vectorAt 3 values new 1 ∧ vectorAt 3 values new 1 ≤ vectorAt 3 values new 2 ∧
        matrixAt 3 vectors new * (matrixAt 3 vectors new).transpose = 1 ∧
        (∀ i, ∑ j, ((packed3 src mem).mulVec (matrixAt 3 vectors new i) - vectorAt 3 values new i • matrixAt 3 vectors new i) j ^ 2 ≤
          (2 * epsilon * (vectorAt 3 values new 2 - vectorAt 3 values new 0)) ^ 2) ∧
        ((vectorAt 3 values new 0 = vectorAt 3 values new 1 ∨
            2 * epsilon * (vectorAt 3 values new 2 - vectorAt 3 values new 0) < vectorAt 3 values new 1 - vectorAt 3 values new 0) →
          (vectorAt 3 values new 1 = vectorAt 3 values new 2 ∨
            2 * epsilon * (vectorAt 3 values new 2 - vectorAt 3 values new 0) < vectorAt 3 values new 2 - vectorAt 3 values new 1) →
          ∀ i, (packed3 src mem).mulVec (matrixAt 3 vectors new i) = vectorAt 3 values new i • matrixAt 3 vectors new i))
      (Slices.symEigenvectors3 c epsilon candidate fpCopy values vectors src mem) := by
  obtain ⟨new, e, B⟩ := Slices.symEigenvectors3_follows c epsilon candidate fpCopy mem he hE hv hV hs hN
  refine ⟨new, e, ?_, fun q hq => B.rest q (fun h => hq (.inl h)) (fun h => hq (.inr h))⟩
  beta_reduce
  rw [vectorAt_shown (Slices.shows1_of B.vals), matrixAt_shown (Slices.shows2_of B.vecs)]
  obtain ⟨a, b, d⟩ := C50_three h0 h1 candidate fpCopy (Slices.vecAt values mem) (Slices.matAt vectors mem) (Slices.vecAt src mem) _ _
    (Prod.eta _).symm
  have h := C43_three fpCopy (Slices.vecAt values mem) (Slices.vecAt src mem)
  refine ⟨?_, ?_, ?_, b, d, fun g0 g2 => C50_three_separated h0 h1 candidate fpCopy _ _ _ _ _ (Prod.eta _).symm g0 g2⟩
  · rw [a]; exact h.1
  · rw [a]; exact h.2.1
  · rw [a]; exact h.2.2.1

/-- Addresses that meet the hypotheses: values in three cells, vectors in the nine after them with columns next to each other or rows next to
each other, and the matrix in the first six of them all. -/
example : IsVector 3 ⟨1, [3], [1], 0⟩ ∧ Distinct 3 ⟨1, [3], [1], 0⟩ ∧ IsVector 6 ⟨1, [6], [1], 0⟩ ∧
    (∀ m, m = (⟨4, [3, 3], [3, 1], 1⟩ : Slice) ∨ m = ⟨4, [3, 3], [1, 3], 0⟩ →
      IsMatrix 3 3 m ∧ Distinct2 3 3 m ∧ NoneShared (Cells 3 ⟨1, [3], [1], 0⟩) (Cells2 3 3 m)) := by
  refine ⟨⟨rfl, rfl, fun _ => rfl⟩, fun i j _ _ h => by simp [entry] at h; omega, ⟨rfl, rfl, fun _ => rfl⟩, ?_⟩
  rintro m (rfl | rfl)
  · refine ⟨⟨rfl, rfl, fun h => by simp at h, fun _ => rfl⟩, fun i j k l _ _ _ _ h => by simp [entry2] at h; omega, ?_⟩
    rintro a ⟨i, hi, rfl⟩ ⟨k, l, hk, hl, h⟩
    simp [entry, entry2] at h; omega
  · refine ⟨⟨rfl, rfl, fun _ => rfl, fun h => by simp at h⟩, fun i j k l _ _ _ _ h => by simp [entry2] at h; omega, ?_⟩
    rintro a ⟨i, hi, rfl⟩ ⟨k, l, hk, hl, h⟩
    simp [entry, entry2] at h; omega

/-- The eigenvalues and the eigenvectors must not share memory: no content of it could then be right for twice the identity. -/
theorem C83_eigenvectors_shared {values vectors : Slice} {k l i : Fin 2} (h : entry values k = entry2 vectors i l) (new : Store ℝ)
    (hv : ∀ j : Fin 2, vectorAt 2 values new j = 2) : matrixAt 2 vectors new * (matrixAt 2 vectors new).transpose ≠ 1 := by
  intro ho
  have h1 := congrFun (congrFun ho i) i
  have h2 : matrixAt 2 vectors new i l = 2 := by
    rw [← hv k]
    show new _ = new _
    rw [h]
  rw [Matrix.mul_apply, Fin.sum_univ_two, Matrix.one_apply_eq] at h1
  simp only [Matrix.transpose_apply] at h1
  fin_cases l
  · rw [show matrixAt 2 vectors new i 0 = 2 from h2] at h1
    nlinarith [sq_nonneg (matrixAt 2 vectors new i 1)]
  · rw [show matrixAt 2 vectors new i 1 = 2 from h2] at h1
    nlinarith [sq_nonneg (matrixAt 2 vectors new i 0)]

/-- `normalize` divides the vector by its length, which it returns; nothing else changes. -/
theorem C83_normalize (c : Cfg) {n : Nat} (hn : 0 < n) {v : Slice} (mem : Store ℝ) (hd : IsVector n v) (hD : Distinct n v)
    (hv : vectorAt n v mem ≠ 0) :
    0 < √(∑ i, vectorAt n v mem i ^ 2) ∧
    Returns (Cells n v) mem (√(∑ i, vectorAt n v mem i ^ 2))
      (fun new => (∀ i, vectorAt n v new i = vectorAt n v mem i / √(∑ i, vectorAt n v mem i ^ 2)) ∧ ∑ i, vectorAt n v new i ^ 2 = 1)
      (Slices.normalize c n v mem) := by
  have hz : ∃ i, i < n ∧ Slices.vecAt v mem i ≠ 0 := by
    by_contra h
    push Not at h
    exact hv (funext fun i => h i i.2)
  obtain ⟨a, b, d, f, g⟩ := C40_normalize hn _ hz
  have hl : tensorOps.l2Norm n (Slices.vecAt v mem) = √(∑ i, vectorAt n v mem i ^ 2) := by
    rw [a, Finset.sum_range]; rfl
  obtain ⟨⟨new, x⟩, e, H, rfl⟩ := Slices.normalize_follows c mem mem hn hd hD _ (Slices.shows1_start n v mem)
  have hq : ∀ i : Fin n, vectorAt n v new i = vectorAt n v mem i / √(∑ i, vectorAt n v mem i ^ 2) := fun i => by
    rw [vectorAt_shown H, ← hl]; exact g.1 i i.2
  refine ⟨hl ▸ b, new, by rw [e, d, hl], ⟨hq, ?_⟩, H.2⟩
  have p : 0 < √(∑ i, vectorAt n v mem i ^ 2) := hl ▸ b
  have s : 0 ≤ ∑ i, vectorAt n v mem i ^ 2 := Finset.sum_nonneg fun i _ => sq_nonneg _
  simp only [hq, div_pow, ← Finset.sum_div, Real.sq_sqrt s]
  exact div_self (fun h => by rw [h, Real.sqrt_zero] at p; exact absurd p (lt_irrefl _))

example : IsVector 2 ⟨5, [2], [3], -1⟩ ∧ Distinct 2 ⟨5, [2], [3], -1⟩ ∧ vectorAt 2 ⟨5, [2], [3], -1⟩ (fun a => (a : ℝ)) ≠ 0 ∧
    √(∑ i, vectorAt 2 ⟨5, [2], [3], -1⟩ (fun a => (a : ℝ)) i ^ 2) = √89 := by
  refine ⟨⟨rfl, rfl, fun h => by simp at h⟩, fun i j _ _ h => by simp [entry] at h; omega, fun h => ?_, ?_⟩
  · have := congrFun h 0
    simp [vectorAt, vector, entry] at this
  · simp [vectorAt, vector, entry, Fin.sum_univ_two]; norm_num

/-- With bounds checking a call whose arguments do not have the right sizes ends the program before anything is changed. -/
theorem C83_eigen_sizes {c : Cfg} (hc : c.boundsCheck = true) (m v w : Slice) (hm : m.dims.length = 2) (hv : v.dims.length = 1)
    (hw : w.dims.length = 1) (n : Nat) (epsilon : ℝ) (candidate fpCopy : Vec ℝ) (mem : Store ℝ) :
    (¬ (v.dims = [2] ∧ w.dims = [3]) → Slices.symEigenvalues2 c fpCopy v w mem = .error .abort) ∧
    (¬ (v.dims = [3] ∧ w.dims = [6]) → Slices.symEigenvalues3 c fpCopy v w mem = .error .abort) ∧
    (¬ (v.dims = [2] ∧ m.dims = [2, 2] ∧ w.dims = [3]) → Slices.symEigenvectors2 c epsilon fpCopy v m w mem = .error .abort) ∧
    (¬ (v.dims = [3] ∧ m.dims = [3, 3] ∧ w.dims = [6]) → Slices.symEigenvectors3 c epsilon candidate fpCopy v m w mem = .error .abort) ∧
    (v.dims ≠ [n] → Slices.normalize c n v mem = .error .abort) := by
  refine ⟨?_, ?_, ?_, ?_, ?_⟩
  · intro h
    simp only [Slices.symEigenvalues2, Slices.sizes_checked hc 2 hv, Slices.sizes_checked hc 3 hw]
    by_cases h0 : v.dims = [2]
    case neg => simp only [if_neg h0, bind_ok, bind_err]
    by_cases h1 : w.dims = [3]
    case neg => simp only [if_pos h0, if_neg h1, bind_ok, bind_err]
    exact absurd ⟨h0, h1⟩ h
  · intro h
    simp only [Slices.symEigenvalues3, Slices.sizes_checked hc 3 hv, Slices.sizes_checked hc 6 hw]
    by_cases h0 : v.dims = [3]
    case neg => simp only [if_neg h0, bind_ok, bind_err]
    by_cases h1 : w.dims = [6]
    case neg => simp only [if_pos h0, if_neg h1, bind_ok, bind_err]
    exact absurd ⟨h0, h1⟩ h
  · intro h
    simp only [Slices.symEigenvectors2, Slices.sizes_checked hc 2 hv, Slices.sizes2_checked hc 2 2 hm, Slices.sizes_checked hc 3 hw]
    by_cases h0 : v.dims = [2]
    case neg => simp only [if_neg h0, bind_ok, bind_err]
    by_cases h1 : m.dims = [2, 2]
    case neg => simp only [if_pos h0, if_neg h1, bind_ok, bind_err]
    by_cases h2 : w.dims = [3]
    case neg => simp only [if_pos h0, if_pos h1, if_neg h2, bind_ok, bind_err]
    exact absurd ⟨h0, h1, h2⟩ h
  · intro h
    simp only [Slices.symEigenvectors3, Slices.sizes_checked hc 3 hv, Slices.sizes2_checked hc 3 3 hm, Slices.sizes_checked hc 6 hw]
    by_cases h0 : v.dims = [3]
    case neg => simp only [if_neg h0, bind_ok, bind_err]
    by_cases h1 : m.dims = [3, 3]
    case neg => simp only [if_pos h0, if_neg h1, bind_ok, bind_err]
    by_cases h2 : w.dims = [6]
    case neg => simp only [if_pos h0, if_pos h1, if_neg h2, bind_ok, bind_err]
    exact absurd ⟨h0, h1, h2⟩ h
  · intro h
    simp only [Slices.normalize, Slices.sizes_checked hc n hv]
    rw [if_neg h, bind_err]

end LvArray.Props

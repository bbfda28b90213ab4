import Verif.TensorEigenLemmas
import Verif.TensorVectors

/-!
# C43 and C50: eigenvalues and eigenvectors of symmetric matrices of size two and three

In exact real arithmetic.
-/

namespace LvArray.Props

open LvArray.tensorOps Spec Polynomial

/-- `symEigenvalues< 2 >`: the roots of the characteristic polynomial with their multiplicity, in ascending order. -/
theorem C43_two (fpCopy dst s : Vec ℝ) :
    (voigt2 s).charpoly = (X - C (symEigenvalues2 fpCopy dst s 0)) * (X - C (symEigenvalues2 fpCopy dst s 1)) ∧
    symEigenvalues2 fpCopy dst s 0 ≤ symEigenvalues2 fpCopy dst s 1 ∧
    ∀ i, ¬ i < 2 → symEigenvalues2 fpCopy dst s i = dst i := by
  have hc : ∀ i, i < 3 → s i = copy 3 fpCopy s i := fun i hi =>
    ((C40_fill_copy 3 3 fpCopy s (fun _ _ => 0) (fun _ _ => 0) 0).2.2.1.1 i hi).symm
  have h := (shiftAndScale_spec 2 (by omega) (copy 3 fpCopy s)).congr (by omega) hc
  obtain ⟨r, hr⟩ : ∃ r, r = shiftAndScale 2 (copy 3 fpCopy s) := ⟨_, rfl⟩
  have e0 : symEigenvalues2 fpCopy dst s 0 = -√(r.1 2 * r.1 2 - r.1 0 * r.1 1) * r.2.2 + r.2.1 := by rw [hr]; rfl
  have e1 : symEigenvalues2 fpCopy dst s 1 = √(r.1 2 * r.1 2 - r.1 0 * r.1 1) * r.2.2 + r.2.1 := by rw [hr]; rfl
  rw [← hr] at h
  obtain ⟨m, sh, t⟩ := r
  have ht : m 0 + m 1 = 0 := h.trace
  have h0 : s 0 = t * m 0 + sh := h.diag 0 (by omega)
  have h1 : s 1 = t * m 1 + sh := h.diag 1 (by omega)
  have h2 : s 2 = t * m 2 := h.off 2 (by omega) (by decide)
  have hn : 0 ≤ t := h.nonneg
  have hm : m 1 = -m 0 := by linarith
  have hq : 0 ≤ m 2 * m 2 - m 0 * m 1 := by rw [hm]; nlinarith [sq_nonneg (m 2), sq_nonneg (m 0)]
  have hs := Real.mul_self_sqrt hq
  have hp := Real.sqrt_nonneg (m 2 * m 2 - m 0 * m 1)
  refine ⟨?_, ?_, fun i hi => ?_⟩
  · rw [charpoly2, product2, e0, e1, h0, h1, h2]
    show _ = X ^ 2 - C (-√(m 2 * m 2 - m 0 * m 1) * t + sh + (√(m 2 * m 2 - m 0 * m 1) * t + sh)) * X +
      C ((-√(m 2 * m 2 - m 0 * m 1) * t + sh) * (√(m 2 * m 2 - m 0 * m 1) * t + sh))
    congr 3
    · congr 1; linear_combination t * ht
    · linear_combination (t * sh) * ht + t ^ 2 * hs
  · rw [e0, e1]
    show -√(m 2 * m 2 - m 0 * m 1) * t + sh ≤ √(m 2 * m 2 - m 0 * m 1) * t + sh
    nlinarith [mul_nonneg hp hn]
  · simp only [symEigenvalues2, eigenvaluesOfShiftedMatrix2, Vec.put]; grind

/-- `symEigenvalues< 3 >`: the roots of the characteristic polynomial with their multiplicity, in ascending order. -/
theorem C43_three (fpCopy dst s : Vec ℝ) :
    (voigt3 s).charpoly = (X - C (symEigenvalues3 fpCopy dst s 0)) * (X - C (symEigenvalues3 fpCopy dst s 1)) *
      (X - C (symEigenvalues3 fpCopy dst s 2)) ∧
    symEigenvalues3 fpCopy dst s 0 ≤ symEigenvalues3 fpCopy dst s 1 ∧
    symEigenvalues3 fpCopy dst s 1 ≤ symEigenvalues3 fpCopy dst s 2 ∧
    ∀ i, ¬ i < 3 → symEigenvalues3 fpCopy dst s i = dst i := by
  have hc : ∀ i, i < 6 → s i = copy 6 fpCopy s i := fun i hi =>
    ((C40_fill_copy 6 6 fpCopy s (fun _ _ => 0) (fun _ _ => 0) 0).2.2.1.1 i hi).symm
  have h := (shiftAndScale_spec 3 (by omega) (copy 6 fpCopy s)).congr (by omega) hc
  obtain ⟨r, hr⟩ : ∃ r, r = shiftAndScale 3 (copy 6 fpCopy s) := ⟨_, rfl⟩
  have e0 : symEigenvalues3 fpCopy dst s 0 = r.2.2 * eigenvaluesOfShiftedMatrix3 dst r.1 0 + r.2.1 := by rw [hr]; rfl
  have e1 : symEigenvalues3 fpCopy dst s 1 = r.2.2 * eigenvaluesOfShiftedMatrix3 dst r.1 1 + r.2.1 := by rw [hr]; rfl
  have e2 : symEigenvalues3 fpCopy dst s 2 = r.2.2 * eigenvaluesOfShiftedMatrix3 dst r.1 2 + r.2.1 := by rw [hr]; rfl
  rw [← hr] at h
  obtain ⟨m, sh, t⟩ := r
  have ht : m 0 + m 1 + m 2 = 0 := h.trace
  obtain ⟨x, hx⟩ : ∃ x, x = eigenvaluesOfShiftedMatrix3 dst m 0 := ⟨_, rfl⟩
  obtain ⟨y, hy⟩ : ∃ y, y = eigenvaluesOfShiftedMatrix3 dst m 1 := ⟨_, rfl⟩
  obtain ⟨z, hz⟩ : ∃ z, z = eigenvaluesOfShiftedMatrix3 dst m 2 := ⟨_, rfl⟩
  obtain ⟨hxy, hyz, hsum, hpair, hprod⟩ := shifted_eigenvalues3 dst m ht x y z hx hy hz
  simp only [← hx, ← hy, ← hz] at e0 e1 e2
  have h0 : s 0 = t * m 0 + sh := h.diag 0 (by omega)
  have h1 : s 1 = t * m 1 + sh := h.diag 1 (by omega)
  have h2 : s 2 = t * m 2 + sh := h.diag 2 (by omega)
  have h3 : s 3 = t * m 3 := h.off 3 (by omega) (by decide)
  have h4 : s 4 = t * m 4 := h.off 4 (by omega) (by decide)
  have h5 : s 5 = t * m 5 := h.off 5 (by omega) (by decide)
  have hn : 0 ≤ t := h.nonneg
  refine ⟨?_, ?_, ?_, fun i hi => ?_⟩
  · have a1 : s 0 + s 1 + s 2 = t * x + sh + (t * y + sh) + (t * z + sh) := by
      rw [h0, h1, h2]; linear_combination t * ht - t * hsum
    have a2 : s 0 * s 1 + s 0 * s 2 + s 1 * s 2 - s 3 * s 3 - s 4 * s 4 - s 5 * s 5 =
        (t * x + sh) * (t * y + sh) + (t * x + sh) * (t * z + sh) + (t * y + sh) * (t * z + sh) := by
      rw [h0, h1, h2, h3, h4, h5]; linear_combination 2 * t * sh * ht - 2 * t * sh * hsum - t ^ 2 * hpair
    have a3 : symDeterminant3 s = (t * x + sh) * (t * y + sh) * (t * z + sh) := by
      rw [symDeterminant3] at hprod
      rw [symDeterminant3, h0, h1, h2, h3, h4, h5]
      linear_combination -t ^ 3 * hprod - sh * t ^ 2 * hpair + sh ^ 2 * t * ht - sh ^ 2 * t * hsum
    rw [charpoly3, product3, e0, e1, e2, a1, a2, a3]
  · rw [e0, e1]; nlinarith [mul_le_mul_of_nonneg_left hxy hn]
  · rw [e1, e2]; nlinarith [mul_le_mul_of_nonneg_left hyz hn]
  · simp only [symEigenvalues3, eigenvaluesOfShiftedMatrix3, Vec.put]; grind

/-! ## Norms -/

/-- `l2Norm` and `normalize`: a vector that is not zero becomes a unit vector of the same direction; the old length is returned. -/
theorem C40_normalize {n : Nat} (hn : 0 < n) (v : Vec ℝ) (hv : ∃ i, i < n ∧ v i ≠ 0) :
    l2Norm n v = √(∑ i ∈ Finset.range n, v i ^ 2) ∧ 0 < l2Norm n v ∧
    (normalize n v).2 = l2Norm n v ∧ l2Norm n (normalize n v).1 = 1 ∧
    VectorIs n (normalize n v).1 v (fun i => v i / l2Norm n v) := by
  have e : l2Norm n v = √(∑ i ∈ Finset.range n, v i ^ 2) := by rw [l2Norm, (C40_inner hn v v).2]
  have hpos : 0 < ∑ i ∈ Finset.range n, v i ^ 2 := by
    obtain ⟨i, hi, hv⟩ := hv
    exact Finset.sum_pos' (fun j _ => sq_nonneg _) ⟨i, Finset.mem_range.2 hi, by positivity⟩
  have hp : 0 < l2Norm n v := by rw [e]; exact Real.sqrt_pos.2 hpos
  have hs : VectorIs n (normalize n v).1 v (fun i => v i / l2Norm n v) := by
    obtain ⟨h1, h2⟩ := (C40_vector n v v v (invSqrt (l2NormSquared n v))).1
    refine ⟨fun i hi => (h1 i hi).trans ?_, h2⟩
    show v i * (1 / l2Norm n v) = _
    rw [mul_one_div]
  refine ⟨e, hp, ?_, ?_, hs⟩
  · show 1 / (1 / l2Norm n v) = _
    rw [one_div_one_div]
  · have : l2NormSquared n (normalize n v).1 = 1 := by
      rw [(C40_inner hn _ v).2, Finset.sum_congr rfl fun i hi => by rw [hs.1 i (Finset.mem_range.1 hi), div_pow], ← Finset.sum_div]
      have : l2Norm n v ^ 2 = ∑ i ∈ Finset.range n, v i ^ 2 := by rw [e]; exact Real.sq_sqrt hpos.le
      rw [this]; exact div_self hpos.ne'
    rw [l2Norm, this, Real.sqrt_one]

/-- The hypotheses of `C40_normalize` with `(3, 4)`, whose norm is 5. -/
example : (∃ i, i < 2 ∧ (fun i => if i = 0 then (3 : ℝ) else 4) i ≠ 0) ∧
    l2Norm 2 (fun i => if i = 0 then (3 : ℝ) else 4) = 5 := by
  have h : ∃ i, i < 2 ∧ (fun i => if i = 0 then (3 : ℝ) else 4) i ≠ 0 := ⟨0, by norm_num, by norm_num⟩
  refine ⟨h, ?_⟩
  rw [(C40_normalize (by norm_num) _ h).1]
  rw [show ∑ i ∈ Finset.range 2, (fun i => if i = 0 then (3 : ℝ) else 4) i ^ 2 = 5 ^ 2 by
    norm_num [Finset.sum_range_succ]]
  exact Real.sqrt_sq (by norm_num)

/-! ## C50: eigenvectors -/

/-- `symEigenvectors< 2 >`: the eigenvalues are those of `symEigenvalues`, the rows are orthonormal, and row `i` is an eigenvector for
eigenvalue `i`. -/
theorem C50_two {epsilon : ℝ} (h0 : 0 ≤ epsilon) (h1 : epsilon < 1) (fpCopy dst : Vec ℝ) (Q : Mat ℝ) (s : Vec ℝ)
    (e : Vec ℝ) (V : Mat ℝ) (hr : symEigenvectors2 epsilon fpCopy dst Q s = (e, V)) :
    e = symEigenvalues2 fpCopy dst s ∧
    square 2 V * (square 2 V).transpose = 1 ∧
    ∀ i : Fin 2, (voigt2 s).mulVec (square 2 V i) = e i • square 2 V i := by
  have hc : ∀ i, i < 3 → s i = copy 3 fpCopy s i := fun i hi =>
    ((C40_fill_copy 3 3 fpCopy s (fun _ _ => 0) (fun _ _ => 0) 0).2.2.1.1 i hi).symm
  have h := (shiftAndScale_spec 2 (by omega) (copy 3 fpCopy s)).congr (by omega) hc
  obtain ⟨r, hr'⟩ : ∃ r, r = shiftAndScale 2 (copy 3 fpCopy s) := ⟨_, rfl⟩
  have he : e = symEigenvalues2 fpCopy dst s := (congrArg Prod.fst hr).symm
  obtain ⟨q, hq⟩ : ∃ q, q = √(r.1 2 * r.1 2 - r.1 0 * r.1 1) := ⟨_, rfl⟩
  have e0 : e 0 = -q * r.2.2 + r.2.1 := by rw [he, hq, hr']; rfl
  have e1 : e 1 = q * r.2.2 + r.2.1 := by rw [he, hq, hr']; rfl
  have hV : V = if q - -q ≤ epsilon then (((Q.put 0 0 1).put 0 1 0).put 1 0 0).put 1 1 1
      else kernel2 Q (symAddIdentity 2 r.1 (-q)) := by
    rw [hq, hr']; exact (congrArg Prod.snd hr).symm
  rw [← hr'] at h
  obtain ⟨m, sh, t⟩ := r
  simp only at e0 e1 hV hq
  have ht : m 0 + m 1 = 0 := h.trace
  have s0 : s 0 = t * m 0 + sh := h.diag 0 (by omega)
  have s1 : s 1 = t * m 1 + sh := h.diag 1 (by omega)
  have s2 : s 2 = t * m 2 := h.off 2 (by omega) (by decide)
  have hm1 : m 1 = -m 0 := by linarith
  have hqn : 0 ≤ m 2 * m 2 - m 0 * m 1 := by rw [hm1]; nlinarith [sq_nonneg (m 2), sq_nonneg (m 0)]
  have hqq : q * q = m 2 * m 2 - m 0 * m 1 := by rw [hq]; exact Real.mul_self_sqrt hqn
  have hq0 : 0 ≤ q := by rw [hq]; exact Real.sqrt_nonneg _
  suffices hE : V 0 0 * V 0 0 + V 0 1 * V 0 1 = 1 ∧ V 1 0 * V 1 0 + V 1 1 * V 1 1 = 1 ∧ V 0 0 * V 1 0 + V 0 1 * V 1 1 = 0 ∧
      (m 0 - q) * V 1 0 + m 2 * V 1 1 = 0 ∧ m 2 * V 1 0 + (m 1 - q) * V 1 1 = 0 ∧
      (m 1 - q) * V 0 0 = m 2 * V 0 1 ∧ m 2 * V 0 0 = (m 0 - q) * V 0 1 by
    obtain ⟨u0, u1, o, a, b, c, d⟩ := hE
    refine ⟨he, ?_, fun i => ?_⟩
    · ext i j
      rw [Matrix.mul_apply, Fin.sum_univ_two]
      fin_cases i <;> fin_cases j <;> simp [square, Matrix.one_apply] <;> linarith
    · ext j
      have : ∀ k : Fin 2, ((voigt2 s).mulVec (square 2 V i)) k = voigt2 s k 0 * V i 0 + voigt2 s k 1 * V i 1 := fun k => by
        rw [Matrix.mulVec, dotProduct, Fin.sum_univ_two]; rfl
      rw [this, Pi.smul_apply, smul_eq_mul]
      fin_cases i <;> fin_cases j
      · show s 0 * V 0 0 + s 2 * V 0 1 = e 0 * V 0 0
        rw [s0, s2, e0]; linear_combination -t * c + t * V 0 0 * ht
      · show s 2 * V 0 0 + s 1 * V 0 1 = e 0 * V 0 1
        rw [s1, s2, e0]; linear_combination t * d + t * V 0 1 * ht
      · show s 0 * V 1 0 + s 2 * V 1 1 = e 1 * V 1 0
        rw [s0, s2, e1]; linear_combination t * a
      · show s 2 * V 1 0 + s 1 * V 1 1 = e 1 * V 1 1
        rw [s1, s2, e1]; linear_combination t * b
  rcases h.size with ⟨-, hm⟩ | ⟨-, k, hk, hmk⟩
  · have m0 : m 0 = 0 := hm 0 (by decide)
    have m1 : m 1 = 0 := hm 1 (by decide)
    have m2 : m 2 = 0 := hm 2 (by decide)
    have q0 : q = 0 := by rw [m0, m2] at hqq; simpa using hqq
    rw [if_pos (by rw [q0]; linarith)] at hV
    rw [hV, m0, m1, m2, q0]
    simp [Mat.put]
  · have hge : 1 ≤ q * q := by
      rw [hqq, hm1]
      have hk2 : m k * m k = 1 := by rw [← abs_mul_abs_self, hmk, mul_one]
      have hk' : k < 3 := hk
      obtain rfl | rfl | rfl : k = 0 ∨ k = 1 ∨ k = 2 := by omega
      · nlinarith [mul_self_nonneg (m 2)]
      · rw [hm1] at hk2; nlinarith [mul_self_nonneg (m 2)]
      · nlinarith [mul_self_nonneg (m 0)]
    have hq1 : 1 ≤ q := by nlinarith
    rw [if_neg (by linarith)] at hV
    have f0 : symAddIdentity 2 m (-q) 0 = m 0 - q := by simp [symAddIdentity, loop, Vec.put, sub_eq_add_neg]
    have f1 : symAddIdentity 2 m (-q) 1 = m 1 - q := by simp [symAddIdentity, loop, Vec.put, sub_eq_add_neg]
    have f2 : symAddIdentity 2 m (-q) 2 = m 2 := by simp [symAddIdentity, loop, Vec.put]
    have := kernel2_spec Q _ (by rw [f0, f1, f2]; linear_combination hqq - q * ht) (by rw [f0, f1]; linarith) V hV
    rw [f0, f1, f2] at this
    exact this

/-- The matrix and the eigenvalues that `symEigenvectors< 3 >` works with. -/
theorem eigenvectors3_scaled {epsilon : ℝ} (h0 : 0 ≤ epsilon) (h1 : epsilon < 1) (candidate fpCopy dst : Vec ℝ) (Q : Mat ℝ) (s : Vec ℝ)
    (e : Vec ℝ) (V : Mat ℝ) (hr : symEigenvectors3 epsilon candidate fpCopy dst Q s = (e, V)) :
    e = symEigenvalues3 fpCopy dst s ∧ ∃ (m x : Vec ℝ) (sh t : ℝ),
      s 0 = t * m 0 + sh ∧ s 1 = t * m 1 + sh ∧ s 2 = t * m 2 + sh ∧ s 3 = t * m 3 ∧ s 4 = t * m 4 ∧ s 5 = t * m 5 ∧
      (∀ i, i < 3 → e i = t * x i + sh) ∧
      ((t = 0 ∧ Eigen m x V) ∨
       (0 < t ∧ Roots m (x 0) (x 1) (x 2) ∧ x 0 ≤ x 1 ∧ x 1 ≤ x 2 ∧ x 0 < x 2 ∧ V = vectors3 epsilon candidate x Q m)) := by
  have hc : ∀ i, i < 6 → s i = copy 6 fpCopy s i := fun i hi =>
    ((C40_fill_copy 6 6 fpCopy s (fun _ _ => 0) (fun _ _ => 0) 0).2.2.1.1 i hi).symm
  have h := (shiftAndScale_spec 3 (by omega) (copy 6 fpCopy s)).congr (by omega) hc
  obtain ⟨r, hr'⟩ : ∃ r, r = shiftAndScale 3 (copy 6 fpCopy s) := ⟨_, rfl⟩
  have he : e = symEigenvalues3 fpCopy dst s := (congrArg Prod.fst hr).symm
  obtain ⟨x, hx⟩ : ∃ x, x = eigenvaluesOfShiftedMatrix3 dst r.1 := ⟨_, rfl⟩
  have e0 : e 0 = r.2.2 * x 0 + r.2.1 := by rw [he, hx, hr']; rfl
  have e1 : e 1 = r.2.2 * x 1 + r.2.1 := by rw [he, hx, hr']; rfl
  have e2 : e 2 = r.2.2 * x 2 + r.2.1 := by rw [he, hx, hr']; rfl
  have hV : V = if x 2 - x 0 ≤ epsilon then assignIdentity3 Q else vectors3 epsilon candidate x Q r.1 := by
    rw [hx, hr']; exact (congrArg Prod.snd hr).symm
  rw [← hr'] at h
  obtain ⟨m, sh, t⟩ := r
  have ht : m 0 + m 1 + m 2 = 0 := h.trace
  obtain ⟨h01, h12, hsum, hpair, hprod⟩ := shifted_eigenvalues3 dst m ht (x 0) (x 1) (x 2) (by rw [hx]) (by rw [hx]) (by rw [hx])
  have hR : Roots m (x 0) (x 1) (x 2) := ⟨by rw [hsum, ht], hpair, hprod⟩
  simp only at e0 e1 e2 hV
  refine ⟨he, m, x, sh, t, h.diag 0 (by omega), h.diag 1 (by omega), h.diag 2 (by omega), h.off 3 (by omega) (by decide),
    h.off 4 (by omega) (by decide), h.off 5 (by omega) (by decide), fun i hi => ?_, ?_⟩
  · obtain rfl | rfl | rfl : i = 0 ∨ i = 1 ∨ i = 2 := by omega
    · exact e0
    · exact e1
    · exact e2
  · rcases h.size with ⟨hz, hm⟩ | ⟨htop, hm⟩
    · have x0 := roots_zero hm hR
      rw [if_pos (by rw [x0 0 (by omega), x0 2 (by omega)]; linarith)] at hV
      refine Or.inl ⟨hz, ?_⟩
      rw [hV]
      exact eigen_zero hm x0 Q
    · have hsp := spread3 hR hsum h01 h12 hm
      rw [if_neg (by linarith)] at hV
      exact Or.inr ⟨htop, hR, h01, h12, by linarith, hV⟩

/-- `symEigenvectors< 3 >`: the eigenvalues are those of `symEigenvalues`, the rows are always orthonormal, and row `i` is an eigenvector
for eigenvalue `i` up to the tolerance: the length of `A v - e v` is at most `2 epsilon` times the difference of the largest and the
smallest eigenvalue. -/
theorem C50_three {epsilon : ℝ} (h0 : 0 ≤ epsilon) (h1 : epsilon < 1) (candidate fpCopy dst : Vec ℝ) (Q : Mat ℝ) (s : Vec ℝ)
    (e : Vec ℝ) (V : Mat ℝ) (hr : symEigenvectors3 epsilon candidate fpCopy dst Q s = (e, V)) :
    e = symEigenvalues3 fpCopy dst s ∧
    square 3 V * (square 3 V).transpose = 1 ∧
    ∀ i : Fin 3, ∑ j, ((voigt3 s).mulVec (square 3 V i) - e i • square 3 V i) j ^ 2 ≤ (2 * epsilon * (e 2 - e 0)) ^ 2 := by
  obtain ⟨he, m, x, sh, t, s0, s1, s2, s3, s4, s5, hei, hE⟩ := eigenvectors3_scaled h0 h1 candidate fpCopy dst Q s e V hr
  have hN : Near m x (2 * epsilon * (x 2 - x 0)) V := by
    rcases hE with ⟨-, hE⟩ | ⟨-, hR, h01, h12, h02, hV⟩
    · exact hE.toNear _
    · rw [hV]; exact vectors3_near h0 candidate x Q m hR h01 h12 h02
  refine ⟨he, hN.orthogonalMatrix, fun i => ?_⟩
  have hk : ∀ j : Fin 3, ((voigt3 s).mulVec (square 3 V i) - e i • square 3 V i) j = t * dot3 (shifted3 m (x i) j) (V i) := fun j => by
    have : ((voigt3 s).mulVec (square 3 V i)) j = voigt3 s j 0 * V i 0 + voigt3 s j 1 * V i 1 + voigt3 s j 2 * V i 2 := by
      rw [Matrix.mulVec, dotProduct, Fin.sum_univ_three]; rfl
    rw [Pi.sub_apply, this, Pi.smul_apply, smul_eq_mul, hei i i.2]
    fin_cases j
    · show s 0 * V i 0 + s 5 * V i 1 + s 4 * V i 2 - (t * x i + sh) * V i 0 = _
      rw [s0, s5, s4]; simp only [dot3, shifted3]; ring
    · show s 5 * V i 0 + s 1 * V i 1 + s 3 * V i 2 - (t * x i + sh) * V i 1 = _
      rw [s1, s5, s3]; simp only [dot3, shifted3]; ring
    · show s 4 * V i 0 + s 3 * V i 1 + s 2 * V i 2 - (t * x i + sh) * V i 2 = _
      rw [s2, s4, s3]; simp only [dot3, shifted3]; ring
  rw [Fin.sum_univ_three, hk, hk, hk, hei 0 (by omega), hei 2 (by omega)]
  calc _ = t ^ 2 * tensorOps.residual m (x i) (V i) := by
        rw [tensorOps.residual]
        show (t * dot3 (shifted3 m (x i) 0) (V i)) ^ 2 + (t * dot3 (shifted3 m (x i) 1) (V i)) ^ 2 +
          (t * dot3 (shifted3 m (x i) 2) (V i)) ^ 2 = _
        ring
    _ ≤ t ^ 2 * (2 * epsilon * (x 2 - x 0)) ^ 2 := mul_le_mul_of_nonneg_left (hN.near i i.2) (sq_nonneg t)
    _ = _ := by ring

/-- `symEigenvectors< 3 >`: unless two eigenvalues differ by a positive amount within the tolerance, the rows are exact eigenvectors. -/
theorem C50_three_separated {epsilon : ℝ} (h0 : 0 ≤ epsilon) (h1 : epsilon < 1) (candidate fpCopy dst : Vec ℝ) (Q : Mat ℝ) (s : Vec ℝ)
    (e : Vec ℝ) (V : Mat ℝ) (hr : symEigenvectors3 epsilon candidate fpCopy dst Q s = (e, V))
    (g0 : e 0 = e 1 ∨ 2 * epsilon * (e 2 - e 0) < e 1 - e 0) (g2 : e 1 = e 2 ∨ 2 * epsilon * (e 2 - e 0) < e 2 - e 1) (i : Fin 3) :
    (voigt3 s).mulVec (square 3 V i) = e i • square 3 V i := by
  obtain ⟨he, m, x, sh, t, s0, s1, s2, s3, s4, s5, hei, hE⟩ := eigenvectors3_scaled h0 h1 candidate fpCopy dst Q s e V hr
  have hE : Eigen m x V := by
    rcases hE with ⟨-, hE⟩ | ⟨htop, hR, h01, h12, h02, hV⟩
    · exact hE
    · rw [hV]
      have cancel : ∀ a b : ℝ, 2 * epsilon * (t * a) < t * b → 2 * epsilon * a < b := fun a b hab => by
        have : t * (2 * epsilon * a) < t * b := by linarith
        exact lt_of_mul_lt_mul_left this htop.le
      rw [hei 0 (by omega), hei 1 (by omega), hei 2 (by omega)] at g0 g2
      refine vectors3_spec h0 candidate x Q m hR h01 h12 h02 ?_ ?_
      · rcases g0 with g | g
        · left; exact mul_left_cancel₀ htop.ne' (by linarith)
        · right; exact cancel _ _ (by linarith)
      · rcases g2 with g | g
        · left; exact mul_left_cancel₀ htop.ne' (by linarith)
        · right; exact cancel _ _ (by linarith)
  obtain ⟨n0, n1, n2⟩ := Null.iff.1 (hE.null i i.2)
  refine Null.mulVec.1 (Null.iff.2 ?_)
  rw [hei i i.2, s0, s1, s2, s3, s4, s5]
  refine ⟨?_, ?_, ?_⟩
  · linear_combination t * n0
  · linear_combination t * n1
  · linear_combination t * n2

/-- With the tolerance zero the condition on the eigenvalues always holds, so that the vectors are exact. -/
example (candidate fpCopy dst : Vec ℝ) (Q : Mat ℝ) (s : Vec ℝ) (i : Fin 3) :
    (voigt3 s).mulVec (square 3 (symEigenvectors3 0 candidate fpCopy dst Q s).2 i) =
      (symEigenvectors3 0 candidate fpCopy dst Q s).1 i • square 3 (symEigenvectors3 0 candidate fpCopy dst Q s).2 i := by
  have he := (C50_three le_rfl one_pos candidate fpCopy dst Q s _ _ rfl).1
  have h := C43_three fpCopy dst s
  refine C50_three_separated le_rfl one_pos candidate fpCopy dst Q s _ _ rfl ?_ ?_ i
  · rw [he]
    rcases h.2.1.lt_or_eq with h | h
    · right; linarith
    · left; exact h
  · rw [he]
    rcases h.2.2.1.lt_or_eq with h | h
    · right; linarith
    · left; exact h

end LvArray.Props

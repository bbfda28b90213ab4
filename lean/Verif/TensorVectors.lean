import Verif.TensorEigenLemmas

/-!
# Eigenvectors of symmetric matrices of size three: the null vector of a singular matrix
-/

namespace LvArray.tensorOps

open Props Spec

/-- Inner product in three dimensions. -/
def dot3 (v w : Vec ℝ) : ℝ := v 0 * w 0 + v 1 * w 1 + v 2 * w 2

theorem norm3 (v : Vec ℝ) : l2NormSquared 3 v = dot3 v v := rfl

theorem scale3 (v : Vec ℝ) (x : ℝ) : ∀ i, i < 3 → scale 3 v x i = v i * x := (C40_vector 3 v v v x).1.1

theorem scaledCopy3 (d v : Vec ℝ) (x : ℝ) : ∀ i, i < 3 → scaledCopy 3 d v x i = x * v i := (C40_vector 3 d v v x).2.1.1

theorem invSqrt_sq {x : ℝ} (h : 0 < x) : invSqrt x * invSqrt x * x = 1 := by
  have := Real.mul_self_sqrt h.le
  have h2 : √x ≠ 0 := (Real.sqrt_pos.2 h).ne'
  rw [invSqrt]; field_simp; nlinarith

theorem dot3_scale (v w : Vec ℝ) (x : ℝ) : dot3 w (scale 3 v x) = dot3 w v * x := by
  simp only [dot3, scale3 v x 0 (by omega), scale3 v x 1 (by omega), scale3 v x 2 (by omega)]; ring

theorem dot3_scaledCopy (d v w : Vec ℝ) (x : ℝ) : dot3 w (scaledCopy 3 d v x) = dot3 w v * x := by
  simp only [dot3, scaledCopy3 d v x 0 (by omega), scaledCopy3 d v x 1 (by omega), scaledCopy3 d v x 2 (by omega)]; ring

theorem dot3_comm (v w : Vec ℝ) : dot3 v w = dot3 w v := by simp only [dot3]; ring

theorem dot3_pos {v : Vec ℝ} (h : ¬ (v 0 = 0 ∧ v 1 = 0 ∧ v 2 = 0)) : 0 < dot3 v v := by
  simp only [dot3]
  by_contra hn
  have h0 := mul_self_nonneg (v 0)
  have h1 := mul_self_nonneg (v 1)
  have h2 := mul_self_nonneg (v 2)
  exact h ⟨mul_self_eq_zero.1 (by linarith), mul_self_eq_zero.1 (by linarith), mul_self_eq_zero.1 (by linarith)⟩

/-- A multiple of a vector that is not zero by the inverse of its length. -/
theorem unit_scale {v : Vec ℝ} (h : 0 < l2NormSquared 3 v) :
    dot3 (scale 3 v (invSqrt (l2NormSquared 3 v))) (scale 3 v (invSqrt (l2NormSquared 3 v))) = 1 := by
  rw [dot3_scale, dot3_comm, dot3_scale, ← norm3]
  linarith [invSqrt_sq h]

theorem unit_scaledCopy (d : Vec ℝ) {v : Vec ℝ} (h : 0 < l2NormSquared 3 v) :
    dot3 (scaledCopy 3 d v (invSqrt (l2NormSquared 3 v))) (scaledCopy 3 d v (invSqrt (l2NormSquared 3 v))) = 1 := by
  rw [dot3_scaledCopy, dot3_comm, dot3_scaledCopy, ← norm3]
  linarith [invSqrt_sq h]

/-- When the diagonal entry `a` of a symmetric matrix is the largest and the sum of the principal minors is positive, not all the minors
that involve its row vanish. -/
theorem minors {a b c d e f : ℝ} (hM : 0 < a * b - f * f + (a * c - e * e) + (b * c - d * d)) (hb : |b| ≤ |a|) (hc : |c| ≤ |a|)
    (h1 : a * b - f * f = 0) (h2 : a * c - e * e = 0) (h3 : a * d - e * f = 0) : False := by
  by_cases ha : a = 0
  · subst ha
    have hb : b = 0 := by simpa using hb
    have hc : c = 0 := by simpa using hc
    subst hb hc
    nlinarith [mul_self_nonneg d, mul_self_nonneg e, mul_self_nonneg f]
  · have : a * a * (b * c - d * d) = 0 := by
      linear_combination (a * c) * h1 + (f * f) * h2 - (a * d + e * f) * h3
    have h5 : b * c - d * d = 0 := by
      rcases mul_eq_zero.1 this with h | h
      · exact absurd (mul_self_eq_zero.1 h) ha
      · exact h
    linarith

/-- The sum of the principal minors. -/
def minorSum (N : Mat ℝ) : ℝ :=
  N 0 0 * N 1 1 - N 0 1 * N 1 0 + (N 0 0 * N 2 2 - N 0 2 * N 2 0) + (N 1 1 * N 2 2 - N 1 2 * N 2 1)

/-- The row that `getNullVector` picks has the largest diagonal entry. -/
theorem row_max (c v : Vec ℝ) (N : Mat ℝ) : (getNullVector c v N).2 < 3 ∧
    ∀ i, i < 3 → |N i i| ≤ |N (getNullVector c v N).2 (getNullVector c v N).2| := by
  obtain ⟨r, hr⟩ : ∃ r, r = (getNullVector c v N).2 := ⟨_, rfl⟩
  have e : r = if |N 0 0| > |N 1 1| then (if |N 0 0| > |N 2 2| then 0 else 2) else (if |N 1 1| > |N 2 2| then 1 else 2) := hr
  rw [← hr]
  split at e <;> split at e <;> subst e <;> refine ⟨by omega, fun i hi => ?_⟩ <;>
    obtain rfl | rfl | rfl : i = 0 ∨ i = 1 ∨ i = 2 := by omega
  all_goals first | exact le_rfl | linarith

theorem cross0 (d v w : Vec ℝ) : crossProduct d v w 0 = v 1 * w 2 - v 2 * w 1 := rfl
theorem cross1 (d v w : Vec ℝ) : crossProduct d v w 1 = v 2 * w 0 - v 0 * w 2 := rfl
theorem cross2 (d v w : Vec ℝ) : crossProduct d v w 2 = v 0 * w 1 - v 1 * w 0 := rfl

/-- The null vector: of length one, and orthogonal to all rows. -/
theorem getNullVector_spec (c v : Vec ℝ) (N : Mat ℝ) (s1 : N 1 0 = N 0 1) (s2 : N 2 0 = N 0 2) (s3 : N 2 1 = N 1 2)
    (hdet : determinant3 N = 0) (hM : 0 < minorSum N) :
    dot3 (getNullVector c v N).1 (getNullVector c v N).1 = 1 ∧ ∀ i, i < 3 → dot3 (N i) (getNullVector c v N).1 = 0 := by
  obtain ⟨hr3, hmax⟩ := row_max c v N
  obtain ⟨r, hr⟩ : ∃ r, r = (getNullVector c v N).2 := ⟨_, rfl⟩
  rw [← hr] at hr3 hmax
  obtain ⟨p, hp⟩ : ∃ p, p = crossProduct v (N r) (N ((r + 1) % 3)) := ⟨_, rfl⟩
  obtain ⟨q, hq⟩ : ∃ q, q = crossProduct c (N r) (N ((r + 2) % 3)) := ⟨_, rfl⟩
  have e : (getNullVector c v N).1 = if l2NormSquared 3 p > l2NormSquared 3 q then scale 3 p (invSqrt (l2NormSquared 3 p))
      else scaledCopy 3 p q (invSqrt (l2NormSquared 3 q)) := by
    rw [hp, hq, hr]; rfl
  have hpo : ∀ i, i < 3 → dot3 (N i) p = 0 := by
    intro i hi
    rw [determinant3] at hdet
    rw [hp, dot3, cross0, cross1, cross2]
    obtain rfl | rfl | rfl : r = 0 ∨ r = 1 ∨ r = 2 := by omega
    all_goals obtain rfl | rfl | rfl : i = 0 ∨ i = 1 ∨ i = 2 := by omega
    all_goals first
      | (norm_num; ring; done)
      | (norm_num; linear_combination hdet)
      | (norm_num; linear_combination -hdet)
  have hqo : ∀ i, i < 3 → dot3 (N i) q = 0 := by
    intro i hi
    rw [determinant3] at hdet
    rw [hq, dot3, cross0, cross1, cross2]
    obtain rfl | rfl | rfl : r = 0 ∨ r = 1 ∨ r = 2 := by omega
    all_goals obtain rfl | rfl | rfl : i = 0 ∨ i = 1 ∨ i = 2 := by omega
    all_goals first
      | (norm_num; ring; done)
      | (norm_num; linear_combination hdet)
      | (norm_num; linear_combination -hdet)
  have hne : 0 < dot3 p p ∨ 0 < dot3 q q := by
    by_contra hcon
    rw [not_or] at hcon
    have hp0 : p 0 = 0 ∧ p 1 = 0 ∧ p 2 = 0 := by
      by_contra h; exact hcon.1 (dot3_pos h)
    have hq0 : q 0 = 0 ∧ q 1 = 0 ∧ q 2 = 0 := by
      by_contra h; exact hcon.2 (dot3_pos h)
    rw [hp, cross0, cross1, cross2] at hp0
    rw [hq, cross0, cross1, cross2] at hq0
    rw [minorSum, s1, s2, s3] at hM
    obtain rfl | rfl | rfl : r = 0 ∨ r = 1 ∨ r = 2 := by omega
    · norm_num at hp0 hq0
      simp only [s1, s2, s3] at hp0 hq0
      exact minors (a := N 0 0) (b := N 1 1) (c := N 2 2) (d := N 1 2) (e := N 0 2) (f := N 0 1) (by linarith) (hmax 1 (by omega))
        (hmax 2 (by omega)) (by linarith [hp0.2.2]) (by linarith [hq0.2.1]) (by linarith [hp0.2.1])
    · norm_num at hp0 hq0
      simp only [s1, s2, s3] at hp0 hq0
      exact minors (a := N 1 1) (b := N 2 2) (c := N 0 0) (d := N 0 2) (e := N 0 1) (f := N 1 2) (by linarith) (hmax 2 (by omega))
        (hmax 0 (by omega)) (by linarith [hp0.1]) (by linarith [hq0.2.2]) (by linarith [hp0.2.2])
    · norm_num at hp0 hq0
      simp only [s1, s2, s3] at hp0 hq0
      exact minors (a := N 2 2) (b := N 0 0) (c := N 1 1) (d := N 0 1) (e := N 1 2) (f := N 0 2) (by linarith) (hmax 0 (by omega))
        (hmax 1 (by omega)) (by linarith [hp0.2.1]) (by linarith [hq0.1]) (by linarith [hq0.2.1])
  rw [e]
  split
  · next h =>
    have hpos : 0 < l2NormSquared 3 p := by
      rw [norm3] at h ⊢; rw [norm3] at h
      rcases hne with h' | h'
      · exact h'
      · linarith
    exact ⟨unit_scale hpos, fun i hi => by rw [dot3_scale, hpo i hi, zero_mul]⟩
  · next h =>
    have hpos : 0 < l2NormSquared 3 q := by
      rw [norm3] at h ⊢; rw [norm3] at h
      rcases hne with h' | h'
      · linarith
      · exact h'
    exact ⟨unit_scaledCopy p hpos, fun i hi => by rw [dot3_scaledCopy, hqo i hi, zero_mul]⟩

section Third

open Matrix

/-- If two rows of an orthogonal matrix are eigenvectors of a symmetric matrix, the third is one for what is left of the trace. -/
theorem third_eigenvector {A q : Matrix (Fin 3) (Fin 3) ℝ} (hA : A.IsSymm) (hq : q * qᵀ = 1) {l0 l1 l2 : ℝ}
    (h0 : A *ᵥ q 0 = l0 • q 0) (h2 : A *ᵥ q 2 = l2 • q 2) (ht : A.trace = l0 + l1 + l2) : A *ᵥ q 1 = l1 • q 1 := by
  have hq' : qᵀ * q = 1 := mul_eq_one_comm.1 hq
  obtain ⟨D, hD⟩ : ∃ D, D = q * A * qᵀ := ⟨_, rfl⟩
  have hDe : ∀ i j, D i j = q i ⬝ᵥ A *ᵥ q j := fun i j => by
    rw [hD, Matrix.mul_assoc]; rfl
  have hdel : ∀ i j, q i ⬝ᵥ q j = if i = j then 1 else 0 := fun i j => by
    have := congrFun (congrFun hq i) j
    rw [Matrix.one_apply] at this
    exact this
  have hsym : ∀ i j, D i j = D j i := fun i j => by
    have : Dᵀ = D := by rw [hD, transpose_mul, transpose_mul, transpose_transpose, hA.eq, Matrix.mul_assoc]
    exact congrFun (congrFun this j) i
  have c0 : ∀ i, D i 0 = l0 * if i = 0 then 1 else 0 := fun i => by
    rw [hDe, h0, dotProduct_smul, hdel, smul_eq_mul]
  have c2 : ∀ i, D i 2 = l2 * if i = 2 then 1 else 0 := fun i => by
    rw [hDe, h2, dotProduct_smul, hdel, smul_eq_mul]
  have htr : D 0 0 + D 1 1 + D 2 2 = l0 + l1 + l2 := by
    rw [← ht, ← Matrix.trace_fin_three, hD, Matrix.trace_mul_comm, ← Matrix.mul_assoc, hq', Matrix.one_mul]
  have d00 := c0 0
  have d22 := c2 2
  simp only [if_true, mul_one] at d00 d22
  have d11 : D 1 1 = l1 := by linarith
  have d01 : D 0 1 = 0 := by rw [hsym, c0]; simp
  have d21 : D 2 1 = 0 := by rw [hsym, c2]; simp
  have key : A * qᵀ = qᵀ * D := by rw [hD, ← Matrix.mul_assoc, ← Matrix.mul_assoc, hq', Matrix.one_mul]
  funext i
  have := congrFun (congrFun key i) 1
  have e1 : (A * qᵀ) i 1 = (A *ᵥ q 1) i := rfl
  rw [← e1, this, Matrix.mul_apply, Fin.sum_univ_three, d01, d11, d21]
  simp [mul_comm]

end Third

/-- `v` is an eigenvector of the packed matrix `m` for `l`, by components. -/
def Null (m : Vec ℝ) (l : ℝ) (v : Vec ℝ) : Prop := ∀ k, k < 3 → dot3 (shifted3 m l k) v = 0

theorem Null.iff {m : Vec ℝ} {l : ℝ} {v : Vec ℝ} : Null m l v ↔
    (m 0 - l) * v 0 + m 5 * v 1 + m 4 * v 2 = 0 ∧ m 5 * v 0 + (m 1 - l) * v 1 + m 3 * v 2 = 0 ∧
    m 4 * v 0 + m 3 * v 1 + (m 2 - l) * v 2 = 0 := by
  constructor
  · exact fun h => ⟨h 0 (by omega), h 1 (by omega), h 2 (by omega)⟩
  · rintro ⟨h0, h1, h2⟩ k hk
    obtain rfl | rfl | rfl : k = 0 ∨ k = 1 ∨ k = 2 := by omega
    · exact h0
    · exact h1
    · exact h2

theorem Null.mulVec {m : Vec ℝ} {l : ℝ} {v : Vec ℝ} : Null m l v ↔ (voigt3 m).mulVec (vector 3 v) = l • vector 3 v := by
  rw [Null.iff]
  constructor
  · rintro ⟨h0, h1, h2⟩
    ext i
    fin_cases i <;> simp [voigt3, vector, dotProduct, Fin.sum_univ_three] <;> linarith
  · intro h
    have h0 := congrFun h 0
    have h1 := congrFun h 1
    have h2 := congrFun h 2
    simp [voigt3, vector, dotProduct, Fin.sum_univ_three] at h0 h1 h2
    refine ⟨?_, ?_, ?_⟩ <;> linarith

/-- Eigenvectors for different eigenvalues are orthogonal. -/
theorem Null.orthogonal {m : Vec ℝ} {l l' : ℝ} {v w : Vec ℝ} (h : Null m l v) (h' : Null m l' w) (hl : l ≠ l') : dot3 v w = 0 := by
  obtain ⟨h0, h1, h2⟩ := Null.iff.1 h
  obtain ⟨g0, g1, g2⟩ := Null.iff.1 h'
  have : (l - l') * dot3 v w = 0 := by
    simp only [dot3]
    linear_combination -w 0 * h0 - w 1 * h1 - w 2 * h2 + v 0 * g0 + v 1 * g1 + v 2 * g2
  rcases mul_eq_zero.1 this with e | e
  · exact absurd (sub_eq_zero.1 e) hl
  · exact e

/-- What is known about the eigenvalues of a packed matrix. -/
structure Roots (m : Vec ℝ) (x y z : ℝ) : Prop where
  sum : x + y + z = m 0 + m 1 + m 2
  pair : x * y + x * z + y * z = m 0 * m 1 + m 0 * m 2 + m 1 * m 2 - m 3 * m 3 - m 4 * m 4 - m 5 * m 5
  prod : x * y * z = symDeterminant3 m

theorem Roots.det {m : Vec ℝ} {x y z : ℝ} (h : Roots m x y z) (l : ℝ) :
    determinant3 (shifted3 m l) = (x - l) * (y - l) * (z - l) := by
  have h1 := h.sum
  have h2 := h.pair
  have h3 := h.prod
  simp only [symDeterminant3] at h3
  simp only [determinant3, shifted3]
  linear_combination -h3 + l * h2 - l ^ 2 * h1

theorem Roots.minor {m : Vec ℝ} {x y z : ℝ} (h : Roots m x y z) (l : ℝ) :
    minorSum (shifted3 m l) = (x - l) * (y - l) + (x - l) * (z - l) + (y - l) * (z - l) := by
  have h1 := h.sum
  have h2 := h.pair
  simp only [minorSum, shifted3]
  linear_combination -h2 + 2 * l * h1

theorem Roots.null {m : Vec ℝ} {x y z : ℝ} (h : Roots m x y z) (l : ℝ) (c v : Vec ℝ) (hd : (x - l) * (y - l) * (z - l) = 0)
    (hm : 0 < (x - l) * (y - l) + (x - l) * (z - l) + (y - l) * (z - l)) :
    dot3 (getNullVector c v (shifted3 m l)).1 (getNullVector c v (shifted3 m l)).1 = 1 ∧
    Null m l (getNullVector c v (shifted3 m l)).1 :=
  getNullVector_spec c v (shifted3 m l) rfl rfl rfl ((h.det l).trans hd) (by rw [h.minor l]; exact hm)

/-- With a double eigenvalue `l`, the matrix minus the other eigenvalue `k` is a multiple of the projection along its eigenvector. -/
theorem Roots.double {m : Vec ℝ} {k l : ℝ} (h1 : k + l + l = m 0 + m 1 + m 2)
    (h2 : k * l + k * l + l * l = m 0 * m 1 + m 0 * m 2 + m 1 * m 2 - m 3 * m 3 - m 4 * m 4 - m 5 * m 5)
    {v : Vec ℝ} (hv : dot3 v v = 1) (hn : Null m k v) :
    ∀ i j, i < 3 → j < 3 → shifted3 m k i j = (l - k) * ((if i = j then 1 else 0) - v i * v j) := by
  obtain ⟨n0, n1, n2⟩ := Null.iff.1 hn
  simp only [dot3] at hv
  obtain ⟨d, hd⟩ : ∃ d, d = l - k := ⟨_, rfl⟩
  obtain ⟨a, ha⟩ : ∃ a, a = m 0 - k := ⟨_, rfl⟩
  obtain ⟨b, hb⟩ : ∃ b, b = m 1 - k := ⟨_, rfl⟩
  obtain ⟨c, hc⟩ : ∃ c, c = m 2 - k := ⟨_, rfl⟩
  have t1 : a + b + c = 2 * d := by rw [ha, hb, hc, hd]; linarith
  have t2 : a * b + a * c + b * c - m 3 * m 3 - m 4 * m 4 - m 5 * m 5 = d * d := by
    rw [ha, hb, hc, hd]; linear_combination -h2 + 2 * k * h1
  rw [← ha] at n0
  rw [← hb] at n1
  rw [← hc] at n2
  have key : (a - d * (1 - v 0 * v 0)) ^ 2 + (b - d * (1 - v 1 * v 1)) ^ 2 + (c - d * (1 - v 2 * v 2)) ^ 2 +
      2 * (m 5 - d * (0 - v 0 * v 1)) ^ 2 + 2 * (m 4 - d * (0 - v 0 * v 2)) ^ 2 + 2 * (m 3 - d * (0 - v 1 * v 2)) ^ 2 = 0 := by
    linear_combination (a + b + c + 2 * d - 2 * d) * t1 - 2 * t2 + 2 * d * (v 0 * n0 + v 1 * n1 + v 2 * n2) +
      d ^ 2 * (v 0 * v 0 + v 1 * v 1 + v 2 * v 2 + 1 - 2) * hv
  have s1 := sq_nonneg (a - d * (1 - v 0 * v 0))
  have s2 := sq_nonneg (b - d * (1 - v 1 * v 1))
  have s3 := sq_nonneg (c - d * (1 - v 2 * v 2))
  have s4 := sq_nonneg (m 5 - d * (0 - v 0 * v 1))
  have s5 := sq_nonneg (m 4 - d * (0 - v 0 * v 2))
  have s6 := sq_nonneg (m 3 - d * (0 - v 1 * v 2))
  have z1 := pow_eq_zero_iff two_ne_zero |>.1 (show (a - d * (1 - v 0 * v 0)) ^ 2 = 0 by linarith)
  have z2 := pow_eq_zero_iff two_ne_zero |>.1 (show (b - d * (1 - v 1 * v 1)) ^ 2 = 0 by linarith)
  have z3 := pow_eq_zero_iff two_ne_zero |>.1 (show (c - d * (1 - v 2 * v 2)) ^ 2 = 0 by linarith)
  have z4 := pow_eq_zero_iff two_ne_zero |>.1 (show (m 5 - d * (0 - v 0 * v 1)) ^ 2 = 0 by linarith)
  have z5 := pow_eq_zero_iff two_ne_zero |>.1 (show (m 4 - d * (0 - v 0 * v 2)) ^ 2 = 0 by linarith)
  have z6 := pow_eq_zero_iff two_ne_zero |>.1 (show (m 3 - d * (0 - v 1 * v 2)) ^ 2 = 0 by linarith)
  rw [← hd]
  intro i j hi hj
  obtain rfl | rfl | rfl : i = 0 ∨ i = 1 ∨ i = 2 := by omega
  all_goals obtain rfl | rfl | rfl : j = 0 ∨ j = 1 ∨ j = 2 := by omega
  all_goals simp only [shifted3, ← ha, ← hb, ← hc]
  all_goals norm_num
  all_goals linarith

/-- With a double eigenvalue `l`, a row of the matrix minus the other eigenvalue, made a unit vector, is an eigenvector for `l`. -/
theorem Roots.rowVector {m : Vec ℝ} {k l : ℝ} (h1 : k + l + l = m 0 + m 1 + m 2)
    (h2 : k * l + k * l + l * l = m 0 * m 1 + m 0 * m 2 + m 1 * m 2 - m 3 * m 3 - m 4 * m 4 - m 5 * m 5)
    {v : Vec ℝ} (hv : dot3 v v = 1) (hn : Null m k v) (hkl : k ≠ l) {r : Nat} (hr : r < 3)
    (hmax : ∀ i, i < 3 → |shifted3 m k i i| ≤ |shifted3 m k r r|) (d : Vec ℝ) :
    dot3 (scaledCopy 3 d (shifted3 m k r) (invSqrt (l2NormSquared 3 (shifted3 m k r))))
      (scaledCopy 3 d (shifted3 m k r) (invSqrt (l2NormSquared 3 (shifted3 m k r)))) = 1 ∧
    Null m l (scaledCopy 3 d (shifted3 m k r) (invSqrt (l2NormSquared 3 (shifted3 m k r)))) := by
  have hD := Roots.double h1 h2 hv hn
  have hpos : 0 < l2NormSquared 3 (shifted3 m k r) := by
    rw [norm3]
    refine dot3_pos fun hz => ?_
    have hrr : shifted3 m k r r = 0 := by
      obtain rfl | rfl | rfl : r = 0 ∨ r = 1 ∨ r = 2 := by omega
      · exact hz.1
      · exact hz.2.1
      · exact hz.2.2
    rw [hrr, abs_zero] at hmax
    have a0 : m 0 - k = 0 := abs_nonpos_iff.1 (hmax 0 (by omega))
    have a1 : m 1 - k = 0 := abs_nonpos_iff.1 (hmax 1 (by omega))
    have a2 : m 2 - k = 0 := abs_nonpos_iff.1 (hmax 2 (by omega))
    exact hkl (by linarith)
  refine ⟨unit_scaledCopy d hpos, fun i hi => ?_⟩
  rw [dot3_scaledCopy]
  have : dot3 (shifted3 m l i) (shifted3 m k r) = 0 := by
    have e : ∀ j, j < 3 → shifted3 m l i j = (l - k) * (-(v i * v j)) := fun j hj => by
      have h := hD i j hi hj
      have h' : shifted3 m l i j = shifted3 m k i j - (l - k) * (if i = j then 1 else 0) := by
        obtain rfl | rfl | rfl : i = 0 ∨ i = 1 ∨ i = 2 := by omega
        all_goals obtain rfl | rfl | rfl : j = 0 ∨ j = 1 ∨ j = 2 := by omega
        all_goals simp [shifted3]
      rw [h', h]; ring
    rw [dot3, e 0 (by omega), e 1 (by omega), e 2 (by omega), hD r 0 hr (by omega), hD r 1 hr (by omega), hD r 2 hr (by omega)]
    simp only [dot3] at hv
    obtain rfl | rfl | rfl : r = 0 ∨ r = 1 ∨ r = 2 := by omega
    · norm_num; linear_combination ((l - k) ^ 2 * v i * v 0) * hv
    · norm_num; linear_combination ((l - k) ^ 2 * v i * v 1) * hv
    · norm_num; linear_combination ((l - k) ^ 2 * v i * v 2) * hv
  rw [this, zero_mul]

/-- The cross product of two orthogonal unit vectors. -/
theorem cross_unit (d : Vec ℝ) {u w : Vec ℝ} (hu : dot3 u u = 1) (hw : dot3 w w = 1) (huw : dot3 u w = 0) :
    dot3 (crossProduct d u w) (crossProduct d u w) = 1 ∧ dot3 u (crossProduct d u w) = 0 ∧ dot3 w (crossProduct d u w) = 0 := by
  simp only [dot3, cross0, cross1, cross2] at *
  refine ⟨?_, by ring, by ring⟩
  linear_combination (w 0 * w 0 + w 1 * w 1 + w 2 * w 2) * hu + hw - (u 0 * w 0 + u 1 * w 1 + u 2 * w 2) * huw

/-- `normalize` of a unit vector. -/
theorem normalize_unit {v : Vec ℝ} (h : dot3 v v = 1) : ∀ i, i < 3 → (normalize 3 v).1 i = v i := fun i hi => by
  show scale 3 v (invSqrt (l2NormSquared 3 v)) i = v i
  rw [scale3 v _ i hi, norm3, h, invSqrt, Real.sqrt_one]; ring

/-- What it means that the rows of `Q` are orthonormal eigenvectors. -/
structure Eigen (m : Vec ℝ) (e : Vec ℝ) (Q : Mat ℝ) : Prop where
  unit : ∀ i, i < 3 → dot3 (Q i) (Q i) = 1
  orthogonal : ∀ i j, i < 3 → j < 3 → i ≠ j → dot3 (Q i) (Q j) = 0
  null : ∀ i, i < 3 → Null m (e i) (Q i)

theorem Eigen.orthogonalMatrix {m e : Vec ℝ} {Q : Mat ℝ} (h : Eigen m e Q) : square 3 Q * (square 3 Q).transpose = 1 := by
  ext i j
  have e1 : (square 3 Q * (square 3 Q).transpose) i j = dot3 (Q i) (Q j) := by
    rw [Matrix.mul_apply, Fin.sum_univ_three]; rfl
  rw [e1, Matrix.one_apply]
  split
  · next hij => rw [hij]; exact h.unit j j.2
  · next hij => exact h.orthogonal i j i.2 j.2 fun h => hij (Fin.ext h)

/-- From the first and the last eigenvector to all three. -/
theorem Eigen.complete {m e : Vec ℝ} {Q : Mat ℝ} (ht : m 0 + m 1 + m 2 = e 0 + e 1 + e 2) (d : Vec ℝ)
    (u0 : dot3 (Q 0) (Q 0) = 1) (u2 : dot3 (Q 2) (Q 2) = 1) (o : dot3 (Q 2) (Q 0) = 0) (n0 : Null m (e 0) (Q 0)) (n2 : Null m (e 2) (Q 2))
    (h1 : ∀ i, i < 3 → Q 1 i = crossProduct d (Q 2) (Q 0) i) : Eigen m e Q := by
  obtain ⟨c1, c2, c3⟩ := cross_unit d u2 u0 o
  have r : ∀ w, dot3 w (crossProduct d (Q 2) (Q 0)) = dot3 w (Q 1) := fun w => by
    simp only [dot3]; rw [h1 0 (by omega), h1 1 (by omega), h1 2 (by omega)]
  rw [r, dot3_comm, r] at c1
  rw [r] at c2 c3
  have hu : ∀ i, i < 3 → dot3 (Q i) (Q i) = 1 := fun i hi => by
    obtain rfl | rfl | rfl : i = 0 ∨ i = 1 ∨ i = 2 := by omega
    · exact u0
    · exact c1
    · exact u2
  have ho : ∀ i j, i < 3 → j < 3 → i ≠ j → dot3 (Q i) (Q j) = 0 := fun i j hi hj hij => by
    obtain rfl | rfl | rfl : i = 0 ∨ i = 1 ∨ i = 2 := by omega
    all_goals obtain rfl | rfl | rfl : j = 0 ∨ j = 1 ∨ j = 2 := by omega
    all_goals first | exact absurd rfl hij | assumption | (rw [dot3_comm]; assumption)
  have hq : square 3 Q * (square 3 Q).transpose = 1 := by
    ext i j
    have e1 : (square 3 Q * (square 3 Q).transpose) i j = dot3 (Q i) (Q j) := by
      rw [Matrix.mul_apply, Fin.sum_univ_three]; rfl
    rw [e1, Matrix.one_apply]
    split
    · next hij => rw [hij]; exact hu j j.2
    · next hij => exact ho i j i.2 j.2 fun h => hij (Fin.ext h)
  have n1 : Null m (e 1) (Q 1) := by
    rw [Null.mulVec] at n0 n2 ⊢
    refine third_eigenvector (q := square 3 Q) ?_ hq n0 n2 ?_
    · ext i j; fin_cases i <;> fin_cases j <;> rfl
    · rw [Matrix.trace_fin_three]; simpa [voigt3] using ht
  refine ⟨hu, ho, fun i hi => ?_⟩
  obtain rfl | rfl | rfl : i = 0 ∨ i = 1 ∨ i = 2 := by omega
  · exact n0
  · exact n1
  · exact n2

theorem shifted3_put (m : Vec ℝ) (k l : ℝ) :
    (((shifted3 m k).put 0 0 (m 0 - l)).put 1 1 (m 1 - l)).put 2 2 (m 2 - l) = shifted3 m l := by
  funext i j
  rcases i with _ | _ | _ | i <;> rcases j with _ | _ | _ | j <;> simp [Mat.put, shifted3]

theorem putRow_same (a : Mat ℝ) (i : Nat) (v : Vec ℝ) : putRow a i v i = v := by
  funext l; simp [putRow]

theorem putRow_ne (a : Mat ℝ) {i k : Nat} (v : Vec ℝ) (h : k ≠ i) : putRow a i v k = a k := by
  funext l; simp [putRow, h]

/-- The branch that computes vectors gives orthonormal eigenvectors, unless two eigenvalues differ but are too close. -/
theorem vectors3_spec {eps : ℝ} (he : 0 ≤ eps) (c : Vec ℝ) (e : Vec ℝ) (Q : Mat ℝ) (m : Vec ℝ) (hR : Roots m (e 0) (e 1) (e 2))
    (h01 : e 0 ≤ e 1) (h12 : e 1 ≤ e 2) (h02 : e 0 < e 2)
    (h0 : e 0 = e 1 ∨ 2 * eps * (e 2 - e 0) < e 1 - e 0) (h2 : e 1 = e 2 ∨ 2 * eps * (e 2 - e 0) < e 2 - e 1) :
    Eigen m e (vectors3 eps c e Q m) := by
  have hpos : 0 ≤ 2 * eps * (e 2 - e 0) := by have : 0 ≤ e 2 - e 0 := by linarith
                                              positivity
  have ht := hR.sum.symm
  -- what the last two steps do
  have last : ∀ (P : Mat ℝ), dot3 (P 0) (P 0) = 1 → dot3 (P 2) (P 2) = 1 → dot3 (P 2) (P 0) = 0 → Null m (e 0) (P 0) → Null m (e 2) (P 2) →
      Eigen m e (putRow (putRow P 1 (crossProduct (P 1) (P 2) (P 0))) 1
        (normalize 3 (putRow P 1 (crossProduct (P 1) (P 2) (P 0)) 1)).1) := by
    intro P u0 u2 o n0 n2
    obtain ⟨c1, _, _⟩ := cross_unit (P 1) u2 u0 o
    have e0 : ∀ (V W : Vec ℝ), putRow (putRow P 1 V) 1 W 0 = P 0 := fun V W => by
      rw [putRow_ne _ _ (by omega), putRow_ne _ _ (by omega)]
    have e2 : ∀ (V W : Vec ℝ), putRow (putRow P 1 V) 1 W 2 = P 2 := fun V W => by
      rw [putRow_ne _ _ (by omega), putRow_ne _ _ (by omega)]
    refine Eigen.complete ht (P 1) ?_ ?_ ?_ ?_ ?_ ?_
    · rw [e0]; exact u0
    · rw [e2]; exact u2
    · rw [e0, e2]; exact o
    · rw [e0]; exact n0
    · rw [e2]; exact n2
    · intro i hi
      rw [e0, e2, putRow_same, putRow_same]
      exact normalize_unit c1 i hi
  unfold vectors3
  by_cases hmd : e 2 - e 1 > e 1 - e 0
  · -- the last eigenvalue is the most distinct
    simp only [if_pos hmd]
    obtain ⟨v, hv⟩ : ∃ v, v = getNullVector c (Q 2) (shifted3 m (e 2)) := ⟨_, rfl⟩
    obtain ⟨u1, n1⟩ := hR.null (e 2) c (Q 2) (by ring) (by nlinarith)
    obtain ⟨hr, hmax⟩ := row_max c (Q 2) (shifted3 m (e 2))
    rw [← hv] at u1 n1 hr hmax
    simp only [← hv, Nat.sub_self]
    rw [abs_of_nonpos (by linarith)]
    by_cases hs : -(e 0 - e 1) ≤ 2 * eps * (e 2 - e 0)
    · have h0' : e 0 = e 1 := by
        rcases h0 with h | h
        · exact h
        · linarith
      rw [if_pos hs]
      obtain ⟨u, n⟩ := Roots.rowVector (m := m) (k := e 2) (l := e 0) (by rw [ht]; linarith)
        (by have := hR.pair; rw [← this, ← h0']; ring) u1 n1 (by linarith) hr hmax (putRow Q 2 v.1 0)
      refine last _ ?_ ?_ ?_ ?_ ?_
      · rw [putRow_same]; exact u
      · rw [putRow_ne _ _ (by omega), putRow_same]; exact u1
      · rw [putRow_same, putRow_ne _ _ (by omega), putRow_same]; exact n1.orthogonal n (by linarith)
      · rw [putRow_same]; exact n
      · rw [putRow_ne _ _ (by omega), putRow_same]; exact n1
    · rw [if_neg hs, shifted3_put]
      have : e 0 < e 1 := by linarith
      obtain ⟨u, n⟩ := hR.null (e 0) c (putRow Q 2 v.1 0) (by ring) (by nlinarith)
      refine last _ ?_ ?_ ?_ ?_ ?_
      · rw [putRow_same]; exact u
      · rw [putRow_ne _ _ (by omega), putRow_same]; exact u1
      · rw [putRow_same, putRow_ne _ _ (by omega), putRow_same]; exact n1.orthogonal n (by linarith)
      · rw [putRow_same]; exact n
      · rw [putRow_ne _ _ (by omega), putRow_same]; exact n1
  · -- the first eigenvalue is the most distinct
    simp only [if_neg hmd]
    obtain ⟨v, hv⟩ : ∃ v, v = getNullVector c (Q 0) (shifted3 m (e 0)) := ⟨_, rfl⟩
    obtain ⟨u1, n1⟩ := hR.null (e 0) c (Q 0) (by ring) (by nlinarith)
    obtain ⟨hr, hmax⟩ := row_max c (Q 0) (shifted3 m (e 0))
    rw [← hv] at u1 n1 hr hmax
    have r0 : ∀ V, putRow (putRow Q 0 v.1) 2 V 0 = v.1 := fun V => by rw [putRow_ne _ _ (by omega), putRow_same]
    simp only [← hv, Nat.sub_zero]
    rw [abs_of_nonneg (by linarith)]
    by_cases hs : e 2 - e 1 ≤ 2 * eps * (e 2 - e 0)
    · have h2' : e 1 = e 2 := by
        rcases h2 with h | h
        · exact h
        · linarith
      rw [if_pos hs]
      obtain ⟨u, n⟩ := Roots.rowVector (m := m) (k := e 0) (l := e 2) (by rw [ht]; linarith)
        (by have := hR.pair; rw [← this, h2']) u1 n1 (by linarith) hr hmax (putRow Q 0 v.1 2)
      refine last _ ?_ ?_ ?_ ?_ ?_
      · rw [r0]; exact u1
      · rw [putRow_same]; exact u
      · rw [putRow_same, r0]; exact n.orthogonal n1 (by linarith)
      · rw [r0]; exact n1
      · rw [putRow_same]; exact n
    · rw [if_neg hs, shifted3_put]
      have : e 1 < e 2 := by linarith
      obtain ⟨u, n⟩ := hR.null (e 2) c (putRow Q 0 v.1 2) (by ring) (by nlinarith)
      refine last _ ?_ ?_ ?_ ?_ ?_
      · rw [r0]; exact u1
      · rw [putRow_same]; exact u
      · rw [putRow_same, r0]; exact n.orthogonal n1 (by linarith)
      · rw [r0]; exact n1
      · rw [putRow_same]; exact n

/-- The eigenvalues of a matrix without trace and with a largest entry one are spread by more than one. -/
theorem spread3 {m : Vec ℝ} {x y z : ℝ} (hR : Roots m x y z) (h0 : x + y + z = 0) (hxy : x ≤ y) (hyz : y ≤ z)
    (h : ∃ i, i < 6 ∧ |m i| = 1) : 1 < z - x := by
  have hsq : x ^ 2 + y ^ 2 + z ^ 2 = m 0 ^ 2 + m 1 ^ 2 + m 2 ^ 2 + 2 * (m 3 ^ 2 + m 4 ^ 2 + m 5 ^ 2) := by
    have h1 := hR.sum
    have h2 := hR.pair
    linear_combination (x + y + z + m 0 + m 1 + m 2) * h1 - 2 * h2
  have h1 : 1 ≤ x ^ 2 + y ^ 2 + z ^ 2 := by
    rw [hsq]
    obtain ⟨i, hi, hm⟩ := h
    have hm2 : m i ^ 2 = 1 := by rw [← sq_abs, hm, one_pow]
    have a0 := sq_nonneg (m 0)
    have a1 := sq_nonneg (m 1)
    have a2 := sq_nonneg (m 2)
    have a3 := sq_nonneg (m 3)
    have a4 := sq_nonneg (m 4)
    have a5 := sq_nonneg (m 5)
    obtain rfl | rfl | rfl | rfl | rfl | rfl : i = 0 ∨ i = 1 ∨ i = 2 ∨ i = 3 ∨ i = 4 ∨ i = 5 := by omega
    all_goals linarith
  have h2 : 3 * (x ^ 2 + y ^ 2 + z ^ 2) ≤ 2 * (z - x) ^ 2 := by
    have : (x + y + z) ^ 2 = 0 := by rw [h0]; ring
    nlinarith [mul_nonneg (sub_nonneg.2 hxy) (sub_nonneg.2 hyz)]
  by_contra hc
  have : z - x ≤ 1 := not_lt.1 hc
  have : 0 ≤ z - x := by linarith
  nlinarith

/-- The zero matrix and the identity. -/
theorem eigen_zero {m x : Vec ℝ} (hm : ∀ i, i < 6 → m i = 0) (hx : ∀ i, i < 3 → x i = 0) (Q : Mat ℝ) : Eigen m x (assignIdentity3 Q) := by
  refine ⟨fun i hi => ?_, fun i j hi hj hij => ?_, fun i hi => Null.iff.2 ?_⟩
  · obtain rfl | rfl | rfl : i = 0 ∨ i = 1 ∨ i = 2 := by omega
    all_goals simp [dot3, assignIdentity3, Mat.put]
  · obtain rfl | rfl | rfl : i = 0 ∨ i = 1 ∨ i = 2 := by omega
    all_goals obtain rfl | rfl | rfl : j = 0 ∨ j = 1 ∨ j = 2 := by omega
    all_goals first | exact absurd rfl hij | simp [dot3, assignIdentity3, Mat.put]
  · rw [hx i hi, hm 0 (by omega), hm 1 (by omega), hm 2 (by omega), hm 3 (by omega), hm 4 (by omega), hm 5 (by omega)]
    simp

/-- All the roots of the zero matrix are zero. -/
theorem roots_zero {m x : Vec ℝ} (hm : ∀ i, i < 6 → m i = 0) (hR : Roots m (x 0) (x 1) (x 2)) : ∀ i, i < 3 → x i = 0 := by
  have hsum := hR.sum
  have hpair := hR.pair
  rw [hm 0 (by omega), hm 1 (by omega), hm 2 (by omega)] at hsum
  rw [hm 0 (by omega), hm 1 (by omega), hm 2 (by omega), hm 3 (by omega), hm 4 (by omega), hm 5 (by omega)] at hpair
  have hx2 : x 0 ^ 2 + x 1 ^ 2 + x 2 ^ 2 = 0 := by
    linear_combination (x 0 + x 1 + x 2) * hsum - 2 * hpair
  have a0 := sq_nonneg (x 0)
  have a1 := sq_nonneg (x 1)
  have a2 := sq_nonneg (x 2)
  intro i hi
  refine pow_eq_zero_iff two_ne_zero |>.1 ?_
  obtain rfl | rfl | rfl : i = 0 ∨ i = 1 ∨ i = 2 := by omega
  all_goals linarith

/-- The kernel of a symmetric matrix of rank one, and the orthogonal direction. -/
theorem kernel2_spec (Q : Mat ℝ) (f : Vec ℝ) (hd : f 0 * f 1 = f 2 * f 2) (hn : f 0 + f 1 < 0) (V : Mat ℝ) (hV : V = kernel2 Q f) :
    V 0 0 * V 0 0 + V 0 1 * V 0 1 = 1 ∧ V 1 0 * V 1 0 + V 1 1 * V 1 1 = 1 ∧ V 0 0 * V 1 0 + V 0 1 * V 1 1 = 0 ∧
    f 0 * V 1 0 + f 2 * V 1 1 = 0 ∧ f 2 * V 1 0 + f 1 * V 1 1 = 0 ∧
    f 1 * V 0 0 = f 2 * V 0 1 ∧ f 2 * V 0 0 = f 0 * V 0 1 := by
  by_cases hc : f 0 * f 0 > f 1 * f 1
  · have hp : 0 < f 0 * f 0 + f 2 * f 2 := by nlinarith [mul_self_nonneg (f 1), mul_self_nonneg (f 2)]
    obtain ⟨w, hw⟩ : ∃ w, w = invSqrt (f 0 * f 0 + f 2 * f 2) := ⟨_, rfl⟩
    have hw2 : w * w * (f 0 * f 0 + f 2 * f 2) = 1 := by
      have := Real.mul_self_sqrt hp.le
      have h0 : √(f 0 * f 0 + f 2 * f 2) ≠ 0 := (Real.sqrt_pos.2 hp).ne'
      rw [hw, invSqrt]
      generalize √(f 0 * f 0 + f 2 * f 2) = r at *
      rw [← this]; field_simp
    have v01 : V 0 1 = -f 2 * w := by rw [hV, hw]; simp [kernel2, hc, Mat.put]
    have v11 : V 1 1 = f 0 * w := by rw [hV, hw]; simp [kernel2, hc, Mat.put]
    have v00 : V 0 0 = -(f 0 * w) := by rw [hV, hw]; simp [kernel2, hc, Mat.put]
    have v10 : V 1 0 = -f 2 * w := by rw [hV, hw]; simp [kernel2, hc, Mat.put]
    rw [v00, v01, v10, v11]
    refine ⟨?_, ?_, ?_, ?_, ?_, ?_, ?_⟩
    · linear_combination hw2
    · linear_combination hw2
    · ring
    · ring
    · linear_combination w * hd
    · linear_combination -w * hd
    · ring
  · have hp : 0 < f 1 * f 1 + f 2 * f 2 := by
      have : f 1 ≠ 0 := fun h => by
        rw [h] at hc hn
        nlinarith
      have := mul_self_pos.2 this
      nlinarith [mul_self_nonneg (f 2)]
    obtain ⟨w, hw⟩ : ∃ w, w = invSqrt (f 1 * f 1 + f 2 * f 2) := ⟨_, rfl⟩
    have hw2 : w * w * (f 1 * f 1 + f 2 * f 2) = 1 := by
      have := Real.mul_self_sqrt hp.le
      have h0 : √(f 1 * f 1 + f 2 * f 2) ≠ 0 := (Real.sqrt_pos.2 hp).ne'
      rw [hw, invSqrt]
      generalize √(f 1 * f 1 + f 2 * f 2) = r at *
      rw [← this]; field_simp
    have v01 : V 0 1 = -f 1 * w := by rw [hV, hw]; simp [kernel2, hc, Mat.put]
    have v11 : V 1 1 = f 2 * w := by rw [hV, hw]; simp [kernel2, hc, Mat.put]
    have v00 : V 0 0 = -(f 2 * w) := by rw [hV, hw]; simp [kernel2, hc, Mat.put]
    have v10 : V 1 0 = -f 1 * w := by rw [hV, hw]; simp [kernel2, hc, Mat.put]
    rw [v00, v01, v10, v11]
    refine ⟨?_, ?_, ?_, ?_, ?_, ?_, ?_⟩
    · linear_combination hw2
    · linear_combination hw2
    · ring
    · linear_combination -w * hd
    · ring
    · ring
    · linear_combination w * hd

/-! ## Eigenvalues that are too close -/

/-- The square of the length of `A w - l w`. -/
def residual (m : Vec ℝ) (l : ℝ) (w : Vec ℝ) : ℝ :=
  dot3 (shifted3 m l 0) w ^ 2 + dot3 (shifted3 m l 1) w ^ 2 + dot3 (shifted3 m l 2) w ^ 2

/-- Parseval's identity. -/
theorem parseval {Q : Mat ℝ} (h : square 3 Q * (square 3 Q).transpose = 1) (y z : Vec ℝ) :
    dot3 (Q 0) y * dot3 (Q 0) z + dot3 (Q 1) y * dot3 (Q 1) z + dot3 (Q 2) y * dot3 (Q 2) z = dot3 y z := by
  have h' := mul_eq_one_comm.1 h
  have e : ∀ i j : Fin 3, Q 0 i * Q 0 j + Q 1 i * Q 1 j + Q 2 i * Q 2 j = (1 : Matrix (Fin 3) (Fin 3) ℝ) i j := fun i j => by
    rw [← h', Matrix.mul_apply, Fin.sum_univ_three]; rfl
  have e00 : Q 0 0 * Q 0 0 + Q 1 0 * Q 1 0 + Q 2 0 * Q 2 0 = 1 := e 0 0
  have e11 : Q 0 1 * Q 0 1 + Q 1 1 * Q 1 1 + Q 2 1 * Q 2 1 = 1 := e 1 1
  have e22 : Q 0 2 * Q 0 2 + Q 1 2 * Q 1 2 + Q 2 2 * Q 2 2 = 1 := e 2 2
  have e01 : Q 0 0 * Q 0 1 + Q 1 0 * Q 1 1 + Q 2 0 * Q 2 1 = 0 := e 0 1
  have e02 : Q 0 0 * Q 0 2 + Q 1 0 * Q 1 2 + Q 2 0 * Q 2 2 = 0 := e 0 2
  have e12 : Q 0 1 * Q 0 2 + Q 1 1 * Q 1 2 + Q 2 1 * Q 2 2 = 0 := e 1 2
  simp only [dot3]
  linear_combination y 0 * z 0 * e00 + y 1 * z 1 * e11 + y 2 * z 2 * e22 + (y 0 * z 1 + y 1 * z 0) * e01 +
    (y 0 * z 2 + y 2 * z 0) * e02 + (y 1 * z 2 + y 2 * z 1) * e12

/-- The residual in terms of the coefficients for orthonormal eigenvectors. -/
theorem Eigen.residual {m e : Vec ℝ} {Q : Mat ℝ} (h : Eigen m e Q) (l : ℝ) (w : Vec ℝ) :
    tensorOps.residual m l w = (e 0 - l) ^ 2 * dot3 (Q 0) w ^ 2 + (e 1 - l) ^ 2 * dot3 (Q 1) w ^ 2 + (e 2 - l) ^ 2 * dot3 (Q 2) w ^ 2 := by
  have hp := parseval h.orthogonalMatrix (fun k => dot3 (shifted3 m l k) w) (fun k => dot3 (shifted3 m l k) w)
  have c : ∀ i, i < 3 → dot3 (Q i) (fun k => dot3 (shifted3 m l k) w) = (e i - l) * dot3 (Q i) w := fun i hi => by
    obtain ⟨n0, n1, n2⟩ := Null.iff.1 (h.null i hi)
    simp only [dot3, shifted3]
    linear_combination w 0 * n0 + w 1 * n1 + w 2 * n2
  rw [c 0 (by omega), c 1 (by omega), c 2 (by omega)] at hp
  simp only [tensorOps.residual]
  have : dot3 (fun k => dot3 (shifted3 m l k) w) (fun k => dot3 (shifted3 m l k) w) =
    dot3 (shifted3 m l 0) w ^ 2 + dot3 (shifted3 m l 1) w ^ 2 + dot3 (shifted3 m l 2) w ^ 2 := by
    rw [dot3]; ring
  rw [← this, ← hp]; ring

/-- A unit vector that is orthogonal to an eigenvector is nearly an eigenvector, if the other two eigenvalues are nearly the same. -/
theorem Eigen.near {m e : Vec ℝ} {Q : Mat ℝ} (h : Eigen m e Q) {k : Nat} (hk : k < 3) {l d : ℝ} {v w : Vec ℝ}
    (hv : dot3 v v = 1) (hn : Null m (e k) v) (hw : dot3 w w = 1) (hvw : dot3 v w = 0)
    (hne : ∀ i, i < 3 → i ≠ k → e i ≠ e k) (hd : ∀ i, i < 3 → i ≠ k → (e i - l) ^ 2 ≤ d) : tensorOps.residual m l w ≤ d := by
  have hz : ∀ i, i < 3 → i ≠ k → dot3 (Q i) v = 0 := fun i hi hik => (h.null i hi).orthogonal hn (hne i hi hik)
  have hq := h.orthogonalMatrix
  have p1 := parseval hq v v
  have p2 := parseval hq v w
  have p3 := parseval hq w w
  rw [h.residual]
  rw [hv] at p1
  rw [hvw] at p2
  rw [hw] at p3
  obtain rfl | rfl | rfl : k = 0 ∨ k = 1 ∨ k = 2 := by omega
  · rw [hz 1 (by omega) (by omega), hz 2 (by omega) (by omega)] at p1 p2
    have c : dot3 (Q 0) w = 0 := by
      have : dot3 (Q 0) v ≠ 0 := fun e => by rw [e] at p1; linarith
      exact (mul_eq_zero.1 (by linarith : dot3 (Q 0) v * dot3 (Q 0) w = 0)).resolve_left this
    rw [c] at p3 ⊢
    have hs : d * (dot3 (Q 1) w ^ 2 + dot3 (Q 2) w ^ 2) = d := by
      rw [show dot3 (Q 1) w ^ 2 + dot3 (Q 2) w ^ 2 = 1 by linarith, mul_one]
    linarith [mul_le_mul_of_nonneg_right (hd 1 (by omega) (by omega)) (sq_nonneg (dot3 (Q 1) w)),
      mul_le_mul_of_nonneg_right (hd 2 (by omega) (by omega)) (sq_nonneg (dot3 (Q 2) w))]
  · rw [hz 0 (by omega) (by omega), hz 2 (by omega) (by omega)] at p1 p2
    have c : dot3 (Q 1) w = 0 := by
      have : dot3 (Q 1) v ≠ 0 := fun e => by rw [e] at p1; linarith
      exact (mul_eq_zero.1 (by linarith : dot3 (Q 1) v * dot3 (Q 1) w = 0)).resolve_left this
    rw [c] at p3 ⊢
    have hs : d * (dot3 (Q 0) w ^ 2 + dot3 (Q 2) w ^ 2) = d := by
      rw [show dot3 (Q 0) w ^ 2 + dot3 (Q 2) w ^ 2 = 1 by linarith, mul_one]
    linarith [mul_le_mul_of_nonneg_right (hd 0 (by omega) (by omega)) (sq_nonneg (dot3 (Q 0) w)),
      mul_le_mul_of_nonneg_right (hd 2 (by omega) (by omega)) (sq_nonneg (dot3 (Q 2) w))]
  · rw [hz 0 (by omega) (by omega), hz 1 (by omega) (by omega)] at p1 p2
    have c : dot3 (Q 2) w = 0 := by
      have : dot3 (Q 2) v ≠ 0 := fun e => by rw [e] at p1; linarith
      exact (mul_eq_zero.1 (by linarith : dot3 (Q 2) v * dot3 (Q 2) w = 0)).resolve_left this
    rw [c] at p3 ⊢
    have hs : d * (dot3 (Q 0) w ^ 2 + dot3 (Q 1) w ^ 2) = d := by
      rw [show dot3 (Q 0) w ^ 2 + dot3 (Q 1) w ^ 2 = 1 by linarith, mul_one]
    linarith [mul_le_mul_of_nonneg_right (hd 0 (by omega) (by omega)) (sq_nonneg (dot3 (Q 0) w)),
      mul_le_mul_of_nonneg_right (hd 1 (by omega) (by omega)) (sq_nonneg (dot3 (Q 1) w))]

theorem Null.residual {m : Vec ℝ} {l : ℝ} {v : Vec ℝ} (h : Null m l v) : tensorOps.residual m l v = 0 := by
  rw [tensorOps.residual, h 0 (by omega), h 1 (by omega), h 2 (by omega)]; ring

/-- What it means that the rows of `Q` are orthonormal and nearly eigenvectors. -/
structure Near (m : Vec ℝ) (e : Vec ℝ) (d : ℝ) (Q : Mat ℝ) : Prop where
  unit : ∀ i, i < 3 → dot3 (Q i) (Q i) = 1
  orthogonal : ∀ i j, i < 3 → j < 3 → i ≠ j → dot3 (Q i) (Q j) = 0
  near : ∀ i, i < 3 → residual m (e i) (Q i) ≤ d ^ 2

theorem Eigen.toNear {m e : Vec ℝ} {Q : Mat ℝ} (h : Eigen m e Q) (d : ℝ) : Near m e d Q :=
  ⟨h.unit, h.orthogonal, fun i hi => by rw [(h.null i hi).residual]; positivity⟩

theorem Near.orthogonalMatrix {m e : Vec ℝ} {d : ℝ} {Q : Mat ℝ} (h : Near m e d Q) : square 3 Q * (square 3 Q).transpose = 1 := by
  ext i j
  have e1 : (square 3 Q * (square 3 Q).transpose) i j = dot3 (Q i) (Q j) := by
    rw [Matrix.mul_apply, Fin.sum_univ_three]; rfl
  rw [e1, Matrix.one_apply]
  split
  · next hij => rw [hij]; exact h.unit j j.2
  · next hij => exact h.orthogonal i j i.2 j.2 fun h => hij (Fin.ext h)

/-- A row of the matrix minus its most distinct eigenvalue, made a unit vector, is orthogonal to the eigenvector. -/
theorem rowVector_orthogonal {m : Vec ℝ} {k : ℝ} {v : Vec ℝ} (hn : Null m k v) (ht : m 0 + m 1 + m 2 ≠ 3 * k) {r : Nat} (hr : r < 3)
    (hmax : ∀ i, i < 3 → |shifted3 m k i i| ≤ |shifted3 m k r r|) (d : Vec ℝ) :
    dot3 (scaledCopy 3 d (shifted3 m k r) (invSqrt (l2NormSquared 3 (shifted3 m k r))))
      (scaledCopy 3 d (shifted3 m k r) (invSqrt (l2NormSquared 3 (shifted3 m k r)))) = 1 ∧
    dot3 v (scaledCopy 3 d (shifted3 m k r) (invSqrt (l2NormSquared 3 (shifted3 m k r)))) = 0 := by
  have hpos : 0 < l2NormSquared 3 (shifted3 m k r) := by
    rw [norm3]
    refine dot3_pos fun hz => ?_
    have hrr : shifted3 m k r r = 0 := by
      obtain rfl | rfl | rfl : r = 0 ∨ r = 1 ∨ r = 2 := by omega
      · exact hz.1
      · exact hz.2.1
      · exact hz.2.2
    rw [hrr, abs_zero] at hmax
    have a0 : m 0 - k = 0 := abs_nonpos_iff.1 (hmax 0 (by omega))
    have a1 : m 1 - k = 0 := abs_nonpos_iff.1 (hmax 1 (by omega))
    have a2 : m 2 - k = 0 := abs_nonpos_iff.1 (hmax 2 (by omega))
    exact ht (by linarith)
  refine ⟨unit_scaledCopy d hpos, ?_⟩
  rw [dot3_scaledCopy, dot3_comm, hn r hr, zero_mul]

/-- The branch that computes vectors always gives orthonormal vectors; each is an eigenvector up to the tolerance. -/
theorem vectors3_near {eps : ℝ} (he : 0 ≤ eps) (c : Vec ℝ) (e : Vec ℝ) (Q : Mat ℝ) (m : Vec ℝ) (hR : Roots m (e 0) (e 1) (e 2))
    (h01 : e 0 ≤ e 1) (h12 : e 1 ≤ e 2) (h02 : e 0 < e 2) :
    Near m e (2 * eps * (e 2 - e 0)) (vectors3 eps c e Q m) := by
  have hD : 0 ≤ e 2 - e 0 := by linarith
  have hpos : 0 ≤ 2 * eps * (e 2 - e 0) := by positivity
  have hE : Eigen m e (vectors3 0 c e Q m) := by
    refine vectors3_spec le_rfl c e Q m hR h01 h12 h02 ?_ ?_
    · rcases h01.lt_or_eq with h | h
      · right; linarith
      · left; exact h
    · rcases h12.lt_or_eq with h | h
      · right; linarith
      · left; exact h
  have ht := hR.sum.symm
  have last : ∀ (P : Mat ℝ) (d : ℝ), dot3 (P 0) (P 0) = 1 → dot3 (P 2) (P 2) = 1 → dot3 (P 2) (P 0) = 0 →
      residual m (e 0) (P 0) ≤ d ^ 2 → residual m (e 2) (P 2) ≤ d ^ 2 →
      (∀ w, dot3 w w = 1 → dot3 (P 0) w = 0 → dot3 (P 2) w = 0 → residual m (e 1) w ≤ d ^ 2) →
      Near m e d (putRow (putRow P 1 (crossProduct (P 1) (P 2) (P 0))) 1
        (normalize 3 (putRow P 1 (crossProduct (P 1) (P 2) (P 0)) 1)).1) := by
    intro P d u0 u2 o n0 n2 n1
    obtain ⟨c1, c2, c3⟩ := cross_unit (P 1) u2 u0 o
    have e0 : ∀ (V W : Vec ℝ), putRow (putRow P 1 V) 1 W 0 = P 0 := fun V W => by
      rw [putRow_ne _ _ (by omega), putRow_ne _ _ (by omega)]
    have e2 : ∀ (V W : Vec ℝ), putRow (putRow P 1 V) 1 W 2 = P 2 := fun V W => by
      rw [putRow_ne _ _ (by omega), putRow_ne _ _ (by omega)]
    have e1 : ∀ (V W : Vec ℝ), putRow (putRow P 1 V) 1 W 1 = W := fun V W => putRow_same _ _ _
    rw [putRow_same P 1]
    obtain ⟨W, hW⟩ : ∃ W, W = (normalize 3 (crossProduct (P 1) (P 2) (P 0))).1 := ⟨_, rfl⟩
    have hWi := normalize_unit c1
    rw [← hW] at hWi ⊢
    have r : ∀ w, dot3 w (crossProduct (P 1) (P 2) (P 0)) = dot3 w W := fun w => by
      simp only [dot3]; rw [hWi 0 (by omega), hWi 1 (by omega), hWi 2 (by omega)]
    rw [r, dot3_comm, r] at c1
    rw [r] at c2 c3
    refine ⟨fun i hi => ?_, fun i j hi hj hij => ?_, fun i hi => ?_⟩
    · obtain rfl | rfl | rfl : i = 0 ∨ i = 1 ∨ i = 2 := by omega
      · rw [e0]; exact u0
      · rw [e1]; exact c1
      · rw [e2]; exact u2
    · obtain rfl | rfl | rfl : i = 0 ∨ i = 1 ∨ i = 2 := by omega
      all_goals obtain rfl | rfl | rfl : j = 0 ∨ j = 1 ∨ j = 2 := by omega
      all_goals first | exact absurd rfl hij | simp only [e0, e1, e2]
      all_goals first | assumption | (rw [dot3_comm]; assumption)
    · obtain rfl | rfl | rfl : i = 0 ∨ i = 1 ∨ i = 2 := by omega
      · rw [e0]; exact n0
      · rw [e1]; exact n1 W c1 c3 c2
      · rw [e2]; exact n2
  by_cases hmd : e 2 - e 1 > e 1 - e 0
  · by_cases hs : |e 0 - e 1| ≤ 2 * eps * (e 2 - e 0)
    · unfold vectors3
      simp only [if_pos hmd]
      obtain ⟨v, hv⟩ : ∃ v, v = getNullVector c (Q 2) (shifted3 m (e 2)) := ⟨_, rfl⟩
      obtain ⟨u1, n1⟩ := hR.null (e 2) c (Q 2) (by ring) (by nlinarith)
      obtain ⟨hr, hmax⟩ := row_max c (Q 2) (shifted3 m (e 2))
      rw [← hv] at u1 n1 hr hmax
      simp only [← hv, Nat.sub_self]
      rw [if_pos hs]
      obtain ⟨u, n⟩ := rowVector_orthogonal n1 (by rw [ht]; intro h; linarith) hr hmax (putRow Q 2 v.1 0)
      have hne : ∀ i, i < 3 → i ≠ 2 → e i ≠ e 2 := fun i hi hik => by
        obtain rfl | rfl : i = 0 ∨ i = 1 := by omega
        · linarith
        · intro h; linarith
      have hd : ∀ i, i < 3 → i ≠ 2 → (e i - e 0) ^ 2 ≤ (2 * eps * (e 2 - e 0)) ^ 2 := fun i hi hik => by
        obtain rfl | rfl : i = 0 ∨ i = 1 := by omega
        · rw [sub_self, zero_pow two_ne_zero]; exact sq_nonneg _
        · exact sq_le_sq' (by linarith [neg_abs_le (e 0 - e 1), le_abs_self (e 0 - e 1)]) (by linarith [neg_abs_le (e 0 - e 1)])
      have hd' : ∀ i, i < 3 → i ≠ 2 → (e i - e 1) ^ 2 ≤ (2 * eps * (e 2 - e 0)) ^ 2 := fun i hi hik => by
        obtain rfl | rfl : i = 0 ∨ i = 1 := by omega
        · exact sq_le_sq' (by linarith [neg_abs_le (e 0 - e 1), le_abs_self (e 0 - e 1)]) (by linarith [le_abs_self (e 0 - e 1)])
        · rw [sub_self, zero_pow two_ne_zero]; exact sq_nonneg _
      refine last _ _ ?_ ?_ ?_ ?_ ?_ ?_
      · rw [putRow_same]; exact u
      · rw [putRow_ne _ _ (by omega), putRow_same]; exact u1
      · rw [putRow_same, putRow_ne _ _ (by omega), putRow_same]; exact n
      · rw [putRow_same]; exact hE.near (by omega) u1 n1 u n hne hd
      · rw [putRow_ne _ _ (by omega), putRow_same, n1.residual]; positivity
      · intro w hw _ hvw
        rw [putRow_ne _ _ (show 2 ≠ 0 by omega), putRow_same] at hvw
        exact hE.near (by omega) u1 n1 hw hvw hne hd'
    · have : vectors3 eps c e Q m = vectors3 0 c e Q m := by
        unfold vectors3
        simp only [if_pos hmd, Nat.sub_self]
        rw [if_neg hs, if_neg (by intro h; exact hs (by linarith))]
      rw [this]; exact hE.toNear _
  · by_cases hs : |e 2 - e 1| ≤ 2 * eps * (e 2 - e 0)
    · unfold vectors3
      simp only [if_neg hmd]
      obtain ⟨v, hv⟩ : ∃ v, v = getNullVector c (Q 0) (shifted3 m (e 0)) := ⟨_, rfl⟩
      obtain ⟨u1, n1⟩ := hR.null (e 0) c (Q 0) (by ring) (by nlinarith)
      obtain ⟨hr, hmax⟩ := row_max c (Q 0) (shifted3 m (e 0))
      rw [← hv] at u1 n1 hr hmax
      have r0 : ∀ V, putRow (putRow Q 0 v.1) 2 V 0 = v.1 := fun V => by rw [putRow_ne _ _ (by omega), putRow_same]
      simp only [← hv, Nat.sub_zero]
      rw [if_pos hs]
      obtain ⟨u, n⟩ := rowVector_orthogonal n1 (by rw [ht]; intro h; linarith) hr hmax (putRow Q 0 v.1 2)
      have hne : ∀ i, i < 3 → i ≠ 0 → e i ≠ e 0 := fun i hi hik => by
        obtain rfl | rfl : i = 1 ∨ i = 2 := by omega
        · intro h; linarith
        · linarith
      have hd : ∀ i, i < 3 → i ≠ 0 → (e i - e 2) ^ 2 ≤ (2 * eps * (e 2 - e 0)) ^ 2 := fun i hi hik => by
        obtain rfl | rfl : i = 1 ∨ i = 2 := by omega
        · exact sq_le_sq' (by linarith [le_abs_self (e 2 - e 1)]) (by linarith [neg_abs_le (e 2 - e 1)])
        · rw [sub_self, zero_pow two_ne_zero]; exact sq_nonneg _
      have hd' : ∀ i, i < 3 → i ≠ 0 → (e i - e 1) ^ 2 ≤ (2 * eps * (e 2 - e 0)) ^ 2 := fun i hi hik => by
        obtain rfl | rfl : i = 1 ∨ i = 2 := by omega
        · rw [sub_self, zero_pow two_ne_zero]; exact sq_nonneg _
        · exact sq_le_sq' (by linarith [neg_abs_le (e 2 - e 1)]) (by linarith [le_abs_self (e 2 - e 1)])
      refine last _ _ ?_ ?_ ?_ ?_ ?_ ?_
      · rw [r0]; exact u1
      · rw [putRow_same]; exact u
      · rw [putRow_same, r0, dot3_comm]; exact n
      · rw [r0, n1.residual]; positivity
      · rw [putRow_same]; exact hE.near (by omega) u1 n1 u n hne hd
      · rw [r0]
        intro w hw hvw _
        exact hE.near (by omega) u1 n1 hw hvw hne hd'
    · have : vectors3 eps c e Q m = vectors3 0 c e Q m := by
        unfold vectors3
        simp only [if_neg hmd, Nat.sub_zero]
        rw [if_neg hs, if_neg (by intro h; exact hs (by linarith))]
      rw [this]; exact hE.toNear _

end LvArray.tensorOps

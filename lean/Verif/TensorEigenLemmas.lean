import Verif.TensorEigen
import Verif.TensorLemmas
import Verif.Props.TensorFixed
import Mathlib.Analysis.Matrix.Spectrum
import Mathlib.Tactic.NormNum
import Mathlib.Tactic.Linarith

/-!
# Eigenvalues of symmetric matrices of size two and three
-/

namespace LvArray.tensorOps

open Props Spec Polynomial

/-- What `shiftAndScale` computes: `s = scale * m + shift * 1`, where `m` has no trace and is zero or has a largest entry one. -/
structure Shifted (M : Nat) (s m : Vec ℝ) (shift top : ℝ) : Prop where
  nonneg : 0 ≤ top
  diag : ∀ i, i < M → s i = top * m i + shift
  off : ∀ i, M ≤ i → i < symSize M → s i = top * m i
  trace : symTrace M m = 0
  size : (top = 0 ∧ ∀ i, i < symSize M → m i = 0) ∨ (0 < top ∧ ∃ i, i < symSize M ∧ |m i| = 1)

theorem symTrace_scale (M : Nat) (hM : 0 < M) (v : Vec ℝ) (x : ℝ) : symTrace M (scale (symSize M) v x) = symTrace M v * x := by
  have hs : M ≤ symSize M := by
    unfold symSize
    rw [Nat.le_div_iff_mul_le (by omega)]
    exact Nat.mul_le_mul_left M (by omega)
  rw [(C40_diagonal hM (fun _ _ => 0) (scale (symSize M) v x) 0).2.2.2, (C40_diagonal hM (fun _ _ => 0) v 0).2.2.2, Finset.sum_mul]
  exact Finset.sum_congr rfl fun i hi => (C40_vector (symSize M) v v v x).1.1 i (by have := Finset.mem_range.1 hi; omega)

theorem symTrace_add (M : Nat) (hM : 0 < M) (v : Vec ℝ) (x : ℝ) : symTrace M (symAddIdentity M v x) = symTrace M v + M * x := by
  have hs : M ≤ symSize M := by
    unfold symSize
    rw [Nat.le_div_iff_mul_le (by omega)]
    exact Nat.mul_le_mul_left M (by omega)
  have := (C40_diagonal hM (fun _ _ => 0) v x).2.1.1
  rw [(C40_diagonal hM (fun _ _ => 0) (symAddIdentity M v x) 0).2.2.2, (C40_diagonal hM (fun _ _ => 0) v 0).2.2.2]
  have h2 : ∀ i ∈ Finset.range M, symAddIdentity M v x i = v i + x := fun i hi => by
    rw [this i (by have := Finset.mem_range.1 hi; omega)]
    show v i + (if i < M then x else 0) = _
    rw [if_pos (Finset.mem_range.1 hi)]
  rw [Finset.sum_congr rfl h2, Finset.sum_add_distrib, Finset.sum_const, Finset.card_range, nsmul_eq_mul]

theorem shiftAndScale_spec (M : Nat) (hM : 0 < M) (s : Vec ℝ) :
    Shifted M s (shiftAndScale M s).1 (shiftAndScale M s).2.1 (shiftAndScale M s).2.2 := by
  have hs : M ≤ symSize M := by
    unfold symSize
    rw [Nat.le_div_iff_mul_le (by omega)]
    exact Nat.mul_le_mul_left M (by omega)
  have hM' : (M : ℝ) ≠ 0 := by exact_mod_cast hM.ne'
  have hn : 0 < symSize M := by omega
  obtain ⟨sh, hsh⟩ : ∃ sh, sh = symTrace M s / M := ⟨_, rfl⟩
  obtain ⟨a, ha⟩ : ∃ a, a = symAddIdentity M s (-sh) := ⟨_, rfl⟩
  obtain ⟨t, ht⟩ : ∃ t, t = maxAbsoluteEntry (symSize M) a := ⟨_, rfl⟩
  obtain ⟨b, hb⟩ : ∃ b, b = if t > 0 then scale (symSize M) a (1 / t) else a := ⟨_, rfl⟩
  have e : shiftAndScale M s = (symAddIdentity M b (-(symTrace M b / M)), sh, t) := by
    subst hb ht ha hsh; rfl
  have hta : symTrace M a = 0 := by
    rw [ha, symTrace_add M hM, hsh]; field_simp; ring
  have htb : symTrace M b = 0 := by
    rw [hb]; split
    · rw [symTrace_scale M hM, hta, zero_mul]
    · exact hta
  have hb' : ∀ i, i < symSize M → symAddIdentity M b (-(symTrace M b / M)) i = b i := fun i hi => by
    rw [(C40_diagonal hM (fun _ _ => 0) b (-(symTrace M b / M))).2.1.1 i hi, htb]; simp
  have ha' : ∀ i, i < symSize M → a i = s i + if i < M then -sh else 0 := fun i hi => by
    rw [ha]; exact (C40_diagonal hM (fun _ _ => 0) s (-sh)).2.1.1 i hi
  obtain ⟨⟨k, hk, hk'⟩, hmax⟩ := C40_maxAbsoluteEntry hn a
  rw [← ht] at hk' hmax
  have ht0 : 0 ≤ t := by rw [hk']; exact abs_nonneg _
  have hab : ∀ i, i < symSize M → a i = t * b i := fun i hi => by
    by_cases h : t > 0
    · rw [hb, if_pos h, (C40_vector (symSize M) a a a (1 / t)).1.1 i hi]; field_simp
    · have h0 : t = 0 := le_antisymm (not_lt.1 h) ht0
      have := hmax i hi
      rw [h0] at this
      rw [h0, zero_mul]; exact abs_nonpos_iff.1 this
  rw [e]
  refine ⟨ht0, fun i hi => ?_, fun i hi hi' => ?_, ?_, ?_⟩
  · show s i = t * symAddIdentity M b (-(symTrace M b / M)) i + sh
    rw [hb' i (by omega), ← hab i (by omega), ha' i (by omega), if_pos hi]; ring
  · show s i = t * symAddIdentity M b (-(symTrace M b / M)) i
    rw [hb' i (by omega), ← hab i (by omega), ha' i (by omega), if_neg (by omega)]; ring
  · show symTrace M (symAddIdentity M b (-(symTrace M b / M))) = 0
    rw [symTrace_add M hM, htb]; simp
  · show (t = 0 ∧ ∀ i, i < symSize M → symAddIdentity M b (-(symTrace M b / M)) i = 0) ∨
      (0 < t ∧ ∃ i, i < symSize M ∧ |symAddIdentity M b (-(symTrace M b / M)) i| = 1)
    by_cases h : t > 0
    · right
      refine ⟨h, k, hk, ?_⟩
      have := hab k hk
      have h2 : |a k| = t * |b k| := by rw [this, abs_mul, abs_of_nonneg ht0]
      rw [hb' k hk]
      rw [← hk'] at h2
      have : t * (|b k| - 1) = 0 := by linarith
      rcases mul_eq_zero.1 this with h' | h'
      · exact absurd h' h.ne'
      · linarith
    · left
      have h0 : t = 0 := le_antisymm (not_lt.1 h) ht0
      refine ⟨h0, fun i hi => ?_⟩
      rw [hb' i hi, hb, if_neg h]
      have := hmax i hi
      rw [h0] at this
      exact abs_nonpos_iff.1 this

/-- A change of what lies beyond the packed matrix does not matter. -/
theorem Shifted.congr {M : Nat} {s s' m : Vec ℝ} {shift top : ℝ} (h : Shifted M s m shift top) (hM : 0 < M)
    (e : ∀ i, i < symSize M → s' i = s i) : Shifted M s' m shift top := by
  have hs : M ≤ symSize M := by
    unfold symSize
    rw [Nat.le_div_iff_mul_le (by omega)]
    exact Nat.mul_le_mul_left M (by omega)
  exact ⟨h.nonneg, fun i hi => (e i (by omega)).trans (h.diag i hi), fun i hi hi' => (e i hi').trans (h.off i hi hi'), h.trace, h.size⟩

/-! ## Characteristic polynomials -/

theorem charpoly2 (s : Vec ℝ) : (voigt2 s).charpoly = X ^ 2 - C (s 0 + s 1) * X + C (s 0 * s 1 - s 2 * s 2) := by
  rw [Matrix.charpoly, Matrix.det_fin_two]
  simp [voigt2]
  ring

theorem charpoly3 (s : Vec ℝ) : (voigt3 s).charpoly =
    X ^ 3 - C (s 0 + s 1 + s 2) * X ^ 2 +
      C (s 0 * s 1 + s 0 * s 2 + s 1 * s 2 - s 3 * s 3 - s 4 * s 4 - s 5 * s 5) * X - C (symDeterminant3 s) := by
  rw [Matrix.charpoly, Matrix.det_fin_three]
  have h2 : (C 2 : ℝ[X]) = 2 := rfl
  simp [voigt3, symDeterminant3, h2]
  ring

theorem product2 (x y : ℝ) : (X - C x) * (X - C y) = X ^ 2 - C (x + y) * X + C (x * y) := by
  simp; ring

theorem product3 (x y z : ℝ) : (X - C x) * (X - C y) * (X - C z) =
    X ^ 3 - C (x + y + z) * X ^ 2 + C (x * y + x * z + y * z) * X - C (x * y * z) := by
  simp; ring

/-- A symmetric matrix of size three has three real roots. -/
theorem roots3 (s : Vec ℝ) : ∃ x y z : ℝ, x + y + z = s 0 + s 1 + s 2 ∧
    x * y + x * z + y * z = s 0 * s 1 + s 0 * s 2 + s 1 * s 2 - s 3 * s 3 - s 4 * s 4 - s 5 * s 5 ∧
    x * y * z = symDeterminant3 s := by
  have hA : (voigt3 s).IsHermitian := by
    ext i j; fin_cases i <;> fin_cases j <;> simp [voigt3, Matrix.conjTranspose_apply]
  have h := hA.charpoly_eq
  rw [charpoly3, Fin.prod_univ_three] at h
  simp only [RCLike.ofReal_real_eq_id, id_eq] at h
  rw [product3] at h
  have h0 := congrArg (eval 0) h
  have h1 := congrArg (eval 1) h
  have h2 := congrArg (eval (-1)) h
  simp only [eval_add, eval_sub, eval_mul, eval_pow, eval_X, eval_C] at h0 h1 h2
  refine ⟨hA.eigenvalues 0, hA.eigenvalues 1, hA.eigenvalues 2, ?_, ?_, ?_⟩ <;> linarith

/-- The discriminant: for a symmetric matrix without trace, `det ^ 2 ≤ 4 * ( tr( A ^ 2 ) / 6 ) ^ 3`. -/
theorem discriminant3 (m : Vec ℝ) (h : m 0 + m 1 + m 2 = 0) (q : ℝ)
    (hq : q = (m 2 * m 2 - m 0 * m 1 + m 3 * m 3 + m 4 * m 4 + m 5 * m 5) / 3) :
    0 ≤ q ∧ symDeterminant3 m ^ 2 ≤ 4 * q ^ 3 := by
  obtain ⟨x, y, z, h1, h2, h3⟩ := roots3 m
  rw [h] at h1
  have hz : z = -x - y := by linarith
  have hm : m 2 = -m 0 - m 1 := by linarith
  have hq' : 3 * q = -(x * y + x * z + y * z) := by rw [h2, hq, hm]; ring
  have hq3 : 3 * q = x ^ 2 + x * y + y ^ 2 := by rw [hq', hz]; ring
  have hd : symDeterminant3 m = -(x * y * (x + y)) := by rw [← h3, hz]; ring
  have hq4 : q = (x ^ 2 + x * y + y ^ 2) / 3 := by linarith
  constructor
  · nlinarith [sq_nonneg (x + y), sq_nonneg x, sq_nonneg y]
  · rw [hd, hq4]
    have : 4 * ((x ^ 2 + x * y + y ^ 2) / 3) ^ 3 - (-(x * y * (x + y))) ^ 2 = ((x - y) * (2 * x + y) * (x + 2 * y)) ^ 2 / 27 := by ring
    have h0 := sq_nonneg ((x - y) * (2 * x + y) * (x + 2 * y))
    linarith

/-- The eigenvalues of a matrix of size three without trace. -/
theorem shifted_eigenvalues3 (e m : Vec ℝ) (h : m 0 + m 1 + m 2 = 0) (x y z : ℝ)
    (hx : x = eigenvaluesOfShiftedMatrix3 e m 0) (hy : y = eigenvaluesOfShiftedMatrix3 e m 1)
    (hz : z = eigenvaluesOfShiftedMatrix3 e m 2) :
    x ≤ y ∧ y ≤ z ∧ x + y + z = 0 ∧
    x * y + x * z + y * z = m 0 * m 1 + m 0 * m 2 + m 1 * m 2 - m 3 * m 3 - m 4 * m 4 - m 5 * m 5 ∧
    x * y * z = symDeterminant3 m := by
  obtain ⟨q, hq⟩ : ∃ q, q = (m 2 * m 2 - m 0 * m 1 + m 3 * m 3 + m 4 * m 4 + m 5 * m 5) / 3 := ⟨_, rfl⟩
  obtain ⟨hq0, hd⟩ := discriminant3 m h q hq
  obtain ⟨p, hp⟩ : ∃ p, p = √q := ⟨_, rfl⟩
  have hp0 : 0 ≤ p := hp ▸ Real.sqrt_nonneg q
  have hpp : p * p = q := by rw [hp]; exact Real.mul_self_sqrt hq0
  obtain ⟨D, hD⟩ : ∃ D, D = if p > 0 then symDeterminant3 m / (p * p * p) else 0 := ⟨_, rfl⟩
  have hDp : D * (p * p * p) = symDeterminant3 m := by
    rw [hD]; split
    · next h => field_simp
    · next h =>
      have h0 : p = 0 := le_antisymm (not_lt.1 h) hp0
      have : q = 0 := by rw [← hpp, h0, zero_mul]
      rw [this] at hd
      have : symDeterminant3 m ^ 2 ≤ 0 := by simpa using hd
      have := pow_eq_zero_iff (two_ne_zero) |>.1 (le_antisymm this (sq_nonneg _))
      rw [this, zero_mul]
  have hD2 : -2 ≤ D ∧ D ≤ 2 := by
    by_cases h : p > 0
    · have h6 : 0 < p * p * p := by positivity
      have : D ^ 2 ≤ 2 ^ 2 := by
        have h7 : (D * (p * p * p)) ^ 2 ≤ 2 ^ 2 * (p * p * p) ^ 2 := by
          rw [hDp]; refine hd.trans (le_of_eq ?_); rw [← hpp]; ring
        rw [mul_pow] at h7
        exact le_of_mul_le_mul_right h7 (by positivity)
      exact abs_le.1 (abs_le_of_sq_le_sq this (by norm_num))
    · rw [hD, if_neg h]; norm_num
  obtain ⟨θ, hθ⟩ : ∃ θ, θ = Real.arccos (D / 2) / 3 := ⟨_, rfl⟩
  have hcos3 : Real.cos (3 * θ) = D / 2 := by
    rw [hθ, mul_div_cancel₀ _ (by norm_num : (3 : ℝ) ≠ 0)]
    exact Real.cos_arccos (by linarith [hD2.1]) (by linarith [hD2.2])
  have hθ0 : 0 ≤ θ := by rw [hθ]; have := Real.arccos_nonneg (D / 2); positivity
  have hθ1 : θ ≤ Real.pi / 3 := by rw [hθ]; have := Real.arccos_le_pi (D / 2); linarith
  have hhalf : (if D > 2 then (1 : ℝ) else if D < -2 then -1 else D / 2) = D / 2 := by
    rw [if_neg (not_lt.2 hD2.2), if_neg (not_lt.2 hD2.1)]
  have ex : x = -p * (Real.cos θ + √3 * Real.sin θ) := by
    rw [hx, hθ, ← hhalf, hD, hp, hq]; rfl
  have ey : y = -p * (Real.cos θ - √3 * Real.sin θ) := by
    rw [hy, hθ, ← hhalf, hD, hp, hq]; rfl
  have ez : z = 2 * p * Real.cos θ := by
    rw [hz, hθ, ← hhalf, hD, hp, hq]; rfl
  have h3 : √3 * √3 = (3 : ℝ) := Real.mul_self_sqrt (by norm_num)
  have h30 : 0 ≤ √(3 : ℝ) := Real.sqrt_nonneg _
  have hsc := Real.sin_sq_add_cos_sq θ
  have hpi := Real.pi_pos
  have hs0 : 0 ≤ Real.sin θ := Real.sin_nonneg_of_nonneg_of_le_pi hθ0 (by linarith)
  have hc : 0 ≤ Real.cos (θ + Real.pi / 6) := Real.cos_nonneg_of_mem_Icc ⟨by linarith, by linarith⟩
  rw [Real.cos_add, Real.cos_pi_div_six, Real.sin_pi_div_six] at hc
  rw [Real.cos_three_mul] at hcos3
  have hm : m 2 = -m 0 - m 1 := by linarith
  refine ⟨?_, ?_, ?_, ?_, ?_⟩
  · rw [ex, ey]; nlinarith [mul_nonneg hp0 (mul_nonneg h30 hs0)]
  · have : 0 ≤ √3 * Real.cos θ - Real.sin θ := by linarith
    have h5 : 0 ≤ p * (√3 * (√3 * Real.cos θ - Real.sin θ)) := mul_nonneg hp0 (mul_nonneg h30 this)
    have h6 : p * (√3 * (√3 * Real.cos θ - Real.sin θ)) = p * (3 * Real.cos θ - √3 * Real.sin θ) := by
      linear_combination (p * Real.cos θ) * h3
    rw [ey, ez]; linarith
  · rw [ex, ey, ez]; ring
  · have : m 0 * m 1 + m 0 * m 2 + m 1 * m 2 - m 3 * m 3 - m 4 * m 4 - m 5 * m 5 = -(3 * q) := by rw [hq, hm]; ring
    rw [this, ← hpp, ex, ey, ez]
    linear_combination (-3 * p * p) * hsc + (-p * p * Real.sin θ ^ 2) * h3
  · rw [← hDp, ex, ey, ez]
    linear_combination (2 * p * p * p) * hcos3 + (-2 * p ^ 3 * Real.cos θ * Real.sin θ ^ 2) * h3 +
      (-6 * p ^ 3 * Real.cos θ) * hsc

end LvArray.tensorOps

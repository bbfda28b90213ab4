import Verif.MathApprox
import Verif.MathPoly
import Mathlib.Analysis.SpecialFunctions.Trigonometric.InverseDeriv
import Mathlib.Analysis.SpecialFunctions.Trigonometric.ArctanDeriv
import Mathlib.Analysis.Calculus.MeanValue
import Mathlib.Analysis.Real.Pi.Bounds

/-!
# How good the polynomials of asinImpl, acosImpl and atan2Impl are
-/

namespace LvArray.math

/-- A function that vanishes at 0 and whose derivative is small is small. -/
theorem small_of_deriv {f f' : ℝ → ℝ} {d b : ℝ} (h : ∀ r, 0 ≤ r → r ≤ b → HasDerivAt f (f' r) r)
    (hd : ∀ r, 0 ≤ r → r ≤ b → |f' r| ≤ d) (h0 : f 0 = 0) {r : ℝ} (hr0 : 0 ≤ r) (hr1 : r ≤ b) : |f r| ≤ d * r := by
  have := Convex.norm_image_sub_le_of_norm_hasDerivWithin_le (s := Set.Icc 0 b) (f := f) (f' := f') (C := d) (x := 0) (y := r)
    (fun x hx => (h x hx.1 hx.2).hasDerivWithinAt) (fun x hx => hd x hx.1 hx.2) (convex_Icc 0 b) ⟨le_refl _, by linarith⟩ ⟨hr0, hr1⟩
  simpa [h0, abs_of_nonneg hr0] using this

/-- An approximation of 1 / ( 1 + t ). -/
noncomputable def Qa (t : ℝ) : ℝ :=
  (249999989 / 250000000) * t ^ 0 + (-499995557 / 500000000) * t ^ 1 + (999699331 / 1000000000) * t ^ 2 +
  (-497982253 / 500000000) * t ^ 3 + (971688147 / 1000000000) * t ^ 4 + (-881056407 / 1000000000) * t ^ 5 +
  (675075179 / 1000000000) * t ^ 6 + (-385343343 / 1000000000) * t ^ 7 + (69535641 / 500000000) * t ^ 8 +
  (-23178547 / 1000000000) * t ^ 9

/-- The integral of `Qa( r² )`. -/
noncomputable def Ia (r : ℝ) : ℝ :=
  (249999989 / 250000000) * r ^ 1 + (-499995557 / 1500000000) * r ^ 3 + (999699331 / 5000000000) * r ^ 5 +
  (-497982253 / 3500000000) * r ^ 7 + (323896049 / 3000000000) * r ^ 9 + (-80096037 / 1000000000) * r ^ 11 +
  (675075179 / 13000000000) * r ^ 13 + (-128447781 / 5000000000) * r ^ 15 + (69535641 / 8500000000) * r ^ 17 +
  (-23178547 / 19000000000) * r ^ 19

theorem Ia_deriv (r : ℝ) : HasDerivAt Ia (Qa (r ^ 2)) r := by
  have h := (((((((((((hasDerivAt_pow 1 r).const_mul ((249999989 / 250000000) : ℝ)).fun_add
      ((hasDerivAt_pow 3 r).const_mul ((-499995557 / 1500000000) : ℝ))).fun_add
      ((hasDerivAt_pow 5 r).const_mul ((999699331 / 5000000000) : ℝ))).fun_add
      ((hasDerivAt_pow 7 r).const_mul ((-497982253 / 3500000000) : ℝ))).fun_add
      ((hasDerivAt_pow 9 r).const_mul ((323896049 / 3000000000) : ℝ))).fun_add
      ((hasDerivAt_pow 11 r).const_mul ((-80096037 / 1000000000) : ℝ))).fun_add
      ((hasDerivAt_pow 13 r).const_mul ((675075179 / 13000000000) : ℝ))).fun_add
      ((hasDerivAt_pow 15 r).const_mul ((-128447781 / 5000000000) : ℝ))).fun_add
      ((hasDerivAt_pow 17 r).const_mul ((69535641 / 8500000000) : ℝ))).fun_add
      ((hasDerivAt_pow 19 r).const_mul ((-23178547 / 19000000000) : ℝ)))
  refine HasDerivAt.congr_deriv (f := Ia) h ?_
  unfold Qa
  norm_num
  ring

theorem Ia_close {r : ℝ} (h0 : 0 ≤ r) (h1 : r ≤ 1) : |Ia r - Real.arctan r| ≤ 0.0000005 * r := by
  refine small_of_deriv (f := fun r => Ia r - Real.arctan r) (f' := fun r => Qa (r ^ 2) - 1 / (1 + r ^ 2)) (b := 1)
    (fun r _ _ => (Ia_deriv r).fun_sub (Real.hasDerivAt_arctan r)) (fun r h0 h1 => ?_) (by simp [Ia]) h0 h1
  have ht0 : 0 ≤ r ^ 2 := by positivity
  have ht1 : r ^ 2 ≤ 1 := by nlinarith
  generalize r ^ 2 = t at ht0 ht1
  have e1 := Poly.atan_der_low ht0 ht1
  have e2 := Poly.atan_der_high ht0 ht1
  have hpos : 0 < 1 + t := by linarith
  have hq : Qa t - 1 / (1 + t) = (Qa t * (1 + t) - 1) / (1 + t) := by field_simp
  have hb : |Qa t * (1 + t) - 1| ≤ 0.0000005 := by
    rw [abs_le]
    unfold Qa
    constructor <;> linarith
  rw [hq, abs_div, abs_of_pos hpos, div_le_iff₀ hpos]
  nlinarith

/-- The polynomial of `atan2Impl`. -/
noncomputable def Pa (r : ℝ) : ℝ :=
  (((((-0.013480470 * r ^ 2 + 0.057477314) * r ^ 2 - 0.121239071) * r ^ 2 + 0.195635925) * r ^ 2 - 0.332994597) * r ^ 2 + 0.999995630) * r

theorem Pa_close {r : ℝ} (h0 : 0 ≤ r) (h1 : r ≤ 1) : |Pa r - Real.arctan r| ≤ 0.000005 * r := by
  have e := Ia_close h0 h1
  have ht0 : 0 ≤ r ^ 2 := by positivity
  have ht1 : r ^ 2 ≤ 1 := by nlinarith
  have e1 := mul_nonneg (Poly.atan_low ht0 ht1) h0
  have e2 := mul_nonneg (Poly.atan_high ht0 ht1) h0
  have e3 : |Pa r - Ia r| ≤ 0.0000045 * r := by
    rw [abs_le]
    unfold Pa Ia
    constructor <;> linarith
  rw [abs_le] at *
  constructor <;> linarith

/-- An approximation of 2 / √( 2 - t ). -/
noncomputable def Qc (t : ℝ) : ℝ :=
  (70710681 / 50000000) * t ^ 0 + (353544053 / 1000000000) * t ^ 1 + (16603473 / 125000000) * t ^ 2 +
  (52796533 / 1000000000) * t ^ 3 + (36179369 / 1000000000) * t ^ 4 + (-21445029 / 1000000000) * t ^ 5 +
  (1690477 / 31250000) * t ^ 6 + (-19011161 / 500000000) * t ^ 7 + (1976327 / 125000000) * t ^ 8

/-- The integral of `Qc( r² )`. -/
noncomputable def Ic (r : ℝ) : ℝ :=
  (70710681 / 50000000) * r ^ 1 + (353544053 / 3000000000) * r ^ 3 + (16603473 / 625000000) * r ^ 5 +
  (52796533 / 7000000000) * r ^ 7 + (36179369 / 9000000000) * r ^ 9 + (-21445029 / 11000000000) * r ^ 11 +
  (1690477 / 406250000) * r ^ 13 + (-19011161 / 7500000000) * r ^ 15 + (1976327 / 2125000000) * r ^ 17

theorem Ic_deriv (r : ℝ) : HasDerivAt Ic (Qc (r ^ 2)) r := by
  have h := ((((((((((hasDerivAt_pow 1 r).const_mul ((70710681 / 50000000) : ℝ)).fun_add
      ((hasDerivAt_pow 3 r).const_mul ((353544053 / 3000000000) : ℝ))).fun_add
      ((hasDerivAt_pow 5 r).const_mul ((16603473 / 625000000) : ℝ))).fun_add
      ((hasDerivAt_pow 7 r).const_mul ((52796533 / 7000000000) : ℝ))).fun_add
      ((hasDerivAt_pow 9 r).const_mul ((36179369 / 9000000000) : ℝ))).fun_add
      ((hasDerivAt_pow 11 r).const_mul ((-21445029 / 11000000000) : ℝ))).fun_add
      ((hasDerivAt_pow 13 r).const_mul ((1690477 / 406250000) : ℝ))).fun_add
      ((hasDerivAt_pow 15 r).const_mul ((-19011161 / 7500000000) : ℝ))).fun_add
      ((hasDerivAt_pow 17 r).const_mul ((1976327 / 2125000000) : ℝ)))
  refine HasDerivAt.congr_deriv (f := Ic) h ?_
  unfold Qc
  norm_num
  ring

theorem arcsin_deriv {r : ℝ} (h0 : 0 ≤ r) (h1 : r ≤ 1) :
    HasDerivAt (fun r => 2 * Real.arcsin (r / √2)) (2 / √(2 - r ^ 2)) r := by
  have h2 : (0 : ℝ) < √2 := by positivity
  have hsq : √(2 : ℝ) ^ 2 = 2 := Real.sq_sqrt (by norm_num)
  have hlt : r / √2 < 1 := by
    rw [div_lt_one h2]
    nlinarith
  have hge : 0 ≤ r / √2 := by positivity
  have h := ((Real.hasDerivAt_arcsin (x := r / √2) (by linarith) (by linarith)).comp r ((hasDerivAt_id r).div_const √2)).const_mul 2
  refine HasDerivAt.congr_deriv (f := fun r => 2 * Real.arcsin (r / √2)) h ?_
  have e : √(2 - r ^ 2) = √(1 - (r / √2) ^ 2) * √2 := by
    rw [← Real.sqrt_mul (by rw [div_pow, hsq]; nlinarith), div_pow, hsq]
    congr 1
    ring
  have hp : 0 < √(1 - (r / √2) ^ 2) := Real.sqrt_pos.2 (by nlinarith)
  rw [e]
  field_simp

theorem Ic_close {r : ℝ} (h0 : 0 ≤ r) (h1 : r ≤ 1) : |Ic r - 2 * Real.arcsin (r / √2)| ≤ 0.0000015 * r := by
  refine small_of_deriv (f := fun r => Ic r - 2 * Real.arcsin (r / √2)) (f' := fun r => Qc (r ^ 2) - 2 / √(2 - r ^ 2)) (b := 1)
    (fun r h0 h1 => (Ic_deriv r).fun_sub (arcsin_deriv h0 h1)) (fun r h0 h1 => ?_) (by simp [Ic]) h0 h1
  have ht0 : 0 ≤ r ^ 2 := by positivity
  have ht1 : r ^ 2 ≤ 1 := by nlinarith
  generalize r ^ 2 = t at ht0 ht1
  have e1 := Poly.acos_der_low ht0 ht1
  have e2 := Poly.acos_der_high ht0 ht1
  have hs1 : 1 ≤ √(2 - t) := Real.one_le_sqrt.2 (by linarith)
  have hs2 : √(2 - t) ^ 2 = 2 - t := Real.sq_sqrt (by linarith)
  have hq0 : 0 ≤ Qc t := by
    unfold Qc
    nlinarith [pow_nonneg ht0 2, pow_nonneg ht0 3, pow_nonneg ht0 4, pow_nonneg ht0 6, pow_nonneg ht0 8,
      pow_le_one₀ ht0 ht1 (n := 5), pow_le_one₀ ht0 ht1 (n := 7)]
  have hb : |Qc t ^ 2 * (2 - t) - 4| ≤ 0.000003 := by
    rw [abs_le]
    unfold Qc
    constructor <;> linarith
  generalize √(2 - t) = s at hs1 hs2
  rw [← hs2] at hb
  have hpos : 0 < s := by linarith
  have hsum : 0 < Qc t * s + 2 := by positivity
  have hq : Qc t - 2 / s = (Qc t ^ 2 * s ^ 2 - 4) / (s * (Qc t * s + 2)) := by
    field_simp
    ring
  rw [hq, abs_div, abs_of_pos (mul_pos hpos hsum), div_le_iff₀ (mul_pos hpos hsum)]
  have : 2 ≤ s * (Qc t * s + 2) := by nlinarith [mul_nonneg hq0 hpos.le]
  linarith

/-- `arccos( 1 - u² )`. -/
theorem arccos_one_sub {u : ℝ} (h0 : 0 ≤ u) (h1 : u ≤ 1) : Real.arccos (1 - u ^ 2) = 2 * Real.arcsin (u / √2) := by
  have h2 : (0 : ℝ) < √2 := by positivity
  have hsq : √(2 : ℝ) ^ 2 = 2 := Real.sq_sqrt (by norm_num)
  have hge : 0 ≤ u / √2 := by positivity
  have hle : u / √2 ≤ 1 := by
    rw [div_le_one h2]
    nlinarith
  have e : 1 - u ^ 2 = Real.cos (2 * Real.arcsin (u / √2)) := by
    rw [Real.cos_two_mul, Real.cos_sq', Real.sin_arcsin (by linarith) hle, div_pow, hsq]
    ring
  rw [e, Real.arccos_cos (by have := Real.arcsin_nonneg.2 hge; linarith) (by have := Real.arcsin_le_pi_div_two (u / √2); linarith)]

/-- The polynomial of `asinImpl` and `acosImpl`. -/
noncomputable def Pc (a : ℝ) : ℝ := ((-0.0187293 * a + 0.0742610) * a - 0.2121144) * a + 1.5707288

theorem Pc_close {a : ℝ} (h0 : 0 ≤ a) (h1 : a ≤ 1) : |Pc a * √(1 - a) - Real.arccos a| ≤ 0.00007 * √(1 - a) := by
  have hs0 : 0 ≤ √(1 - a) := Real.sqrt_nonneg _
  have hs2 : √(1 - a) ^ 2 = 1 - a := Real.sq_sqrt (by linarith)
  generalize √(1 - a) = s at hs0 hs2
  have hs1 : s ≤ 1 := by nlinarith
  obtain rfl : a = 1 - s ^ 2 := by linarith
  rw [arccos_one_sub hs0 hs1]
  have e := Ic_close hs0 hs1
  have ht0 : 0 ≤ s ^ 2 := by positivity
  have ht1 : s ^ 2 ≤ 1 := by nlinarith
  have e1 := mul_nonneg (Poly.acos_low ht0 ht1) hs0
  have e2 := mul_nonneg (Poly.acos_high ht0 ht1) hs0
  have e3 : |Pc (1 - s ^ 2) * s - Ic s| ≤ 0.0000685 * s := by
    rw [abs_le]
    unfold Pc Ic
    constructor <;> linarith
  rw [abs_le] at *
  constructor <;> linarith

/-- Small angles: x is close to arcsin x. -/
theorem arcsin_small {x : ℝ} (h0 : 0 ≤ x) (h1 : x < 0.1701) : |x - Real.arcsin x| ≤ 0.00085 := by
  have d : ∀ r : ℝ, 0 ≤ r → r ≤ 0.1701 → HasDerivAt Real.arcsin (1 / √(1 - r ^ 2)) r := fun r h0 h1 =>
    Real.hasDerivAt_arcsin (by linarith) (by linarith)
  have low : x ≤ Real.arcsin x := by
    rw [Real.le_arcsin_iff_sin_le ⟨by linarith [Real.pi_pos], by linarith [Real.pi_gt_d2]⟩ ⟨by linarith, by linarith⟩]
    exact Real.sin_le h0
  have key : ∀ r : ℝ, 0 ≤ r → r ≤ 0.1701 → 1 / √(1 - r ^ 2) ≤ 1 + 3 * 0.172 * r ^ 2 := by
    intro r h0 h1
    have ht1 : r ^ 2 ≤ 0.028935 := by nlinarith
    have ht0 : 0 ≤ r ^ 2 := by positivity
    generalize r ^ 2 = t at ht0 ht1
    have hp : 0 < √(1 - t) := Real.sqrt_pos.2 (by linarith)
    rw [div_le_iff₀ hp]
    have hs : √(1 - t) ^ 2 = 1 - t := Real.sq_sqrt (by linarith)
    have : 1 ≤ ((1 + 3 * 0.172 * t) * √(1 - t)) ^ 2 := by
      rw [mul_pow, hs]
      nlinarith [mul_nonneg ht0 ht0, mul_nonneg ht0 (sub_nonneg.2 ht1), mul_nonneg (mul_nonneg ht0 ht0) (sub_nonneg.2 ht1)]
    have hnn : 0 ≤ (1 + 3 * 0.172 * t) * √(1 - t) := by positivity
    nlinarith
  have hd : ∀ r : ℝ, 0 ≤ r → r ≤ 0.1701 →
      HasDerivAt (fun r => r + 0.172 * r ^ 3 - Real.arcsin r) (1 + 3 * 0.172 * r ^ 2 - 1 / √(1 - r ^ 2)) r := fun r h0 h1 => by
    have h := ((hasDerivAt_id r).fun_add ((hasDerivAt_pow 3 r).const_mul (0.172 : ℝ))).fun_sub (d r h0 h1)
    refine HasDerivAt.congr_deriv (f := fun r => r + 0.172 * r ^ 3 - Real.arcsin r) h ?_
    norm_num
    ring
  have mono : MonotoneOn (fun r => r + 0.172 * r ^ 3 - Real.arcsin r) (Set.Icc 0 0.1701) := by
    refine monotoneOn_of_hasDerivWithinAt_nonneg (f' := fun r => 1 + 3 * 0.172 * r ^ 2 - 1 / √(1 - r ^ 2)) (convex_Icc _ _)
      (fun r hr => (hd r hr.1 hr.2).continuousAt.continuousWithinAt) (fun r hr => ?_) (fun r hr => ?_)
    · have hr := interior_subset hr
      exact (hd r hr.1 hr.2).hasDerivWithinAt
    · have hr := interior_subset hr
      have := key r hr.1 hr.2
      linarith
  have h := mono (a := 0) (b := x) ⟨le_refl _, by norm_num⟩ ⟨h0, by linarith⟩ h0
  simp only [Real.arcsin_zero] at h
  have h3 : x ^ 3 ≤ 0.1701 ^ 3 := by gcongr
  rw [abs_le]
  constructor <;> linarith

end LvArray.math

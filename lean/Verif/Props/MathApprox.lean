import Verif.MathLemmas
import Verif.Spec.Angle

/-!
# C77: asin, acos and atan2 for half precision
-/

namespace LvArray.Props

open LvArray.math LvArray.math.Value LvArray.Spec

section
open Classical

theorem halfAbs_some (i : Bool) (x : ℝ) : halfAbs i (some x) = some |x| := by
  unfold halfAbs holds neg
  cases i
  · simp only [Bool.false_eq_true, if_false]
    by_cases h : x > 0
    · rw [if_pos h, abs_of_pos h]
    · rw [if_neg h, abs_of_nonpos (not_lt.1 h)]; rfl
  · rfl

theorem halfAbs_none (i : Bool) : halfAbs i none = none := by
  unfold halfAbs holds neg
  cases i <;> simp

theorem halfMax_some (i : Bool) (a b : ℝ) : halfMax i (some a) (some b) = some (max a b) := by
  unfold halfMax pick holds
  cases i <;> simp only [Bool.false_eq_true, if_false, if_true] <;> by_cases h : a > b
  · rw [if_pos h, max_eq_left h.le]
  · rw [if_neg h, max_eq_right (not_lt.1 h)]
  · rw [if_pos h, max_eq_left h.le]
  · rw [if_neg h, max_eq_right (not_lt.1 h)]

theorem halfMin_some (i : Bool) (a b : ℝ) : halfMin i (some a) (some b) = some (min a b) := by
  unfold halfMin pick holds
  cases i <;> simp only [Bool.false_eq_true, if_false, if_true] <;> by_cases h : a < b
  · rw [if_pos h, min_eq_left h.le]
  · rw [if_neg h, min_eq_right (not_lt.1 h)]
  · rw [if_pos h, min_eq_left h.le]
  · rw [if_neg h, min_eq_right (not_lt.1 h)]

theorem sqrt_some {x : ℝ} (h : 0 ≤ x) : Value.sqrt (some x) = some (√x) := by
  show (if x < 0 then none else some √x) = _
  rw [if_neg (not_lt.2 h)]

theorem sqrt_negative {x : ℝ} (h : x < 0) : Value.sqrt (some x) = none := by
  show (if x < 0 then none else some √x) = _
  rw [if_pos h]

/-- `acosImpl` of a number between -1 and 1. -/
theorem acos_eq (i : Bool) {x : ℝ} (h : |x| ≤ 1) : acosImpl (half i) (some x) =
    some (if x < 0 then 3.14159265358979 - Pc |x| * √(1 - |x|) else Pc |x| * √(1 - |x|)) := by
  unfold acosImpl half test holds
  simp only [halfAbs_some, lift, sqrt_some (sub_nonneg.2 h)]
  unfold Pc
  congr 1
  by_cases hx : x < 0
  · simp only [if_pos hx]; ring
  · simp only [if_neg hx]; ring

/-- `asinImpl` of a number between -1 and 1. -/
theorem asin_eq (i : Bool) {x : ℝ} (h : |x| ≤ 1) : asinImpl (half i) (some x) =
    some (if |x| < 0.17 then x else
      if x < 0 then -(3.14159265358979 * 0.5 - Pc |x| * √(1 - |x|)) else 3.14159265358979 * 0.5 - Pc |x| * √(1 - |x|)) := by
  unfold asinImpl half test holds
  simp only [halfAbs_some, lift, sqrt_some (sub_nonneg.2 h)]
  unfold Pc
  congr 1
  by_cases hs : |x| < 0.17
  · have hs' : |x| < (1.7e-1 : ℝ) := by norm_num at hs ⊢; exact hs
    simp only [if_pos hs, if_pos hs']; ring
  · have hs' : ¬ |x| < (1.7e-1 : ℝ) := by norm_num at hs ⊢; exact hs
    simp only [if_neg hs, if_neg hs']
    by_cases hx : x < 0
    · simp only [if_pos hx]; ring
    · simp only [if_neg hx]; ring

/-- **C77 (`acos`).** In exact arithmetic, `acos` for half precision is within 7.1e-5 of the arc cosine, for every argument between
-1 and 1 and whichever of the intrinsics are available. -/
theorem C77_acos (intrinsics : Bool) {x : ℝ} (h : |x| ≤ 1) :
    ∃ r, acosImpl (half intrinsics) (some x) = some r ∧ |r - Real.arccos x| ≤ 0.000071 := by
  refine ⟨_, acos_eq intrinsics h, ?_⟩
  have e := Pc_close (abs_nonneg x) h
  have hs : √(1 - |x|) ≤ 1 := Real.sqrt_le_one.2 (by linarith [abs_nonneg x])
  have p1 := Real.pi_gt_d20
  have p2 := Real.pi_lt_d20
  by_cases hx : x < 0
  · rw [if_pos hx]
    have ha : |x| = -x := abs_of_neg hx
    rw [ha, Real.arccos_neg] at e
    rw [ha] at hs ⊢
    rw [abs_le] at *
    constructor <;> linarith
  · rw [if_neg hx]
    have ha : |x| = x := abs_of_nonneg (not_lt.1 hx)
    rw [ha] at e hs ⊢
    rw [abs_le] at *
    constructor <;> linarith

/-- **C77 (`asin`).** In exact arithmetic, `asin` for half precision is within 8.5e-4 of the arc sine, for every argument between -1
and 1, and within 7.1e-5 if the argument is not between -0.17 and 0.17. -/
theorem C77_asin (intrinsics : Bool) {x : ℝ} (h : |x| ≤ 1) :
    ∃ r, asinImpl (half intrinsics) (some x) = some r ∧ |r - Real.arcsin x| ≤ 0.00085 ∧
      (0.17 ≤ |x| → |r - Real.arcsin x| ≤ 0.000071) := by
  refine ⟨_, asin_eq intrinsics h, ?_⟩
  by_cases hs : |x| < 0.17
  · rw [if_pos hs]
    refine ⟨?_, fun hh => absurd hs (not_lt.2 hh)⟩
    rcases le_total 0 x with hx | hx
    · rw [abs_of_nonneg hx] at hs
      exact arcsin_small hx (by linarith)
    · rw [abs_of_nonpos hx] at hs
      have := arcsin_small (neg_nonneg.2 hx) (by linarith)
      rw [Real.arcsin_neg, ← abs_neg] at this
      rwa [show -(-x - -Real.arcsin x) = x - Real.arcsin x by ring] at this
  · rw [if_neg hs]
    have key : |(if x < 0 then -(3.14159265358979 * 0.5 - Pc |x| * √(1 - |x|)) else 3.14159265358979 * 0.5 - Pc |x| * √(1 - |x|)) -
        Real.arcsin x| ≤ 0.000071 := by
      have e := Pc_close (abs_nonneg x) h
      have hq : √(1 - |x|) ≤ 1 := Real.sqrt_le_one.2 (by linarith [abs_nonneg x])
      have p1 := Real.pi_gt_d20
      have p2 := Real.pi_lt_d20
      by_cases hx : x < 0
      · rw [if_pos hx]
        have ha : |x| = -x := abs_of_neg hx
        rw [ha, Real.arccos, Real.arcsin_neg] at e
        rw [ha] at hq ⊢
        rw [abs_le] at *
        constructor <;> linarith
      · rw [if_neg hx]
        have ha : |x| = x := abs_of_nonneg (not_lt.1 hx)
        rw [ha, Real.arccos] at e
        rw [ha] at hq ⊢
        rw [abs_le] at *
        constructor <;> linarith
    exact ⟨le_trans key (by norm_num), fun _ => key⟩

/-- **C77 (arguments outside).** `asin` and `acos` of a number that is not between -1 and 1, or of a NaN, are NaNs. -/
theorem C77_outside (intrinsics : Bool) {x : ℝ} (h : 1 < |x|) :
    asinImpl (half intrinsics) (some x) = none ∧ acosImpl (half intrinsics) (some x) = none ∧
    asinImpl (half intrinsics) none = none ∧ acosImpl (half intrinsics) none = none := by
  refine ⟨?_, ?_, ?_, ?_⟩
  · unfold asinImpl half test holds
    simp only [halfAbs_some, lift, sqrt_negative (sub_neg.2 h)]
  · unfold acosImpl half test holds
    simp only [halfAbs_some, lift, sqrt_negative (sub_neg.2 h)]
  · unfold asinImpl half test holds
    simp only [halfAbs_none, lift]
  · unfold acosImpl half test holds
    simp only [halfAbs_none, lift, Value.sqrt]

/-- **C77 (symmetry).** `asin` is odd, and `acos( -x )` is the constant 3.14159265358979 less `acos( x )` for x ≠ 0. -/
theorem C77_symmetric (intrinsics : Bool) {x : ℝ} (h : |x| ≤ 1) {r : ℝ} :
    (asinImpl (half intrinsics) (some x) = some r → asinImpl (half intrinsics) (some (-x)) = some (-r)) ∧
    (x ≠ 0 → acosImpl (half intrinsics) (some x) = some r → acosImpl (half intrinsics) (some (-x)) = some (3.14159265358979 - r)) := by
  have h' : |-x| ≤ 1 := by rwa [abs_neg]
  constructor
  · intro e
    rw [asin_eq _ h] at e
    rw [asin_eq _ h', abs_neg]
    injection e with e
    subst e
    congr 1
    by_cases hs : |x| < 0.17
    · rw [if_pos hs, if_pos hs]
    · have hx0 : x ≠ 0 := by rintro rfl; norm_num at hs
      rw [if_neg hs, if_neg hs]
      rcases lt_or_gt_of_ne hx0 with hx | hx
      · rw [if_pos hx, if_neg (by linarith), neg_neg]
      · rw [if_neg (by linarith : ¬ x < 0), if_pos (by linarith)]
  · intro hx0 e
    rw [acos_eq _ h] at e
    rw [acos_eq _ h', abs_neg]
    injection e with e
    subst e
    congr 1
    rcases lt_or_gt_of_ne hx0 with hx | hx
    · rw [if_pos hx, if_neg (by linarith)]; ring
    · rw [if_neg (by linarith : ¬ x < 0), if_pos (by linarith)]

/-! ### `atan2` -/

/-- `atan2Impl` of a point, with the ratio computed. -/
theorem atan2_eq (i : Bool) {y x : ℝ} (h : x ≠ 0 ∨ y ≠ 0) :
    ∀ r0, r0 = Pa (min |x| |y| / max |x| |y|) → ∀ r1, r1 = (if |x| < |y| then 1.570796327 - r0 else r0) →
    ∀ r2, r2 = (if x < 0 then 3.141592654 - r1 else r1) →
    atan2Impl (half i) (some y) (some x) = some (if y < 0 then -r2 else r2) := by
  intro r0 h0 r1 h1 r2 h2
  have hm : max |x| |y| ≠ 0 := by
    rcases h with h | h
    · exact ne_of_gt (lt_of_lt_of_le (abs_pos.2 h) (le_max_left _ _))
    · exact ne_of_gt (lt_of_lt_of_le (abs_pos.2 h) (le_max_right _ _))
  unfold atan2Impl half test holds
  simp only [halfAbs_some, halfMin_some, halfMax_some, lift, Value.div, if_neg hm]
  congr 1
  subst h2 h1 h0
  unfold Pa
  generalize min |x| |y| / max |x| |y| = q
  by_cases a1 : |x| < |y| <;> by_cases a2 : x < 0 <;> by_cases a3 : y < 0 <;> simp only [a1, a2, a3, if_true, if_false] <;> ring

/-- The angle of a point with p > 0. -/
theorem polar {p q : ℝ} (hp : 0 < p) : p = √(p ^ 2 + q ^ 2) * Real.cos (Real.arctan (q / p)) ∧
    q = √(p ^ 2 + q ^ 2) * Real.sin (Real.arctan (q / p)) := by
  have e : √(p ^ 2 + q ^ 2) = p * √(1 + (q / p) ^ 2) := by
    rw [show p ^ 2 + q ^ 2 = p ^ 2 * (1 + (q / p) ^ 2) by field_simp, Real.sqrt_mul (by positivity), Real.sqrt_sq hp.le]
  have hpos : 0 < √(1 + (q / p) ^ 2) := by positivity
  rw [e, Real.cos_arctan, Real.sin_arctan]
  constructor <;> field_simp

/-- The angle of a point of the first quadrant as the code computes it. -/
theorem quadrant {a b : ℝ} (ha : 0 ≤ a) (hb : 0 ≤ b) (h : 0 < max a b) :
    ∀ t, t = Real.arctan (min a b / max a b) → ∀ u, u = (if a < b then Real.pi / 2 - t else t) →
    0 ≤ u ∧ u ≤ Real.pi / 2 ∧ a = √(a ^ 2 + b ^ 2) * Real.cos u ∧ b = √(a ^ 2 + b ^ 2) * Real.sin u := by
  rintro t rfl u rfl
  have h0 : 0 ≤ Real.arctan (min a b / max a b) := Real.arctan_nonneg.2 (div_nonneg (le_min ha hb) h.le)
  have h1 := (Real.arctan_lt_pi_div_two (min a b / max a b)).le
  by_cases hab : a < b
  · simp only [if_pos hab]
    rw [min_eq_left hab.le, max_eq_right hab.le] at *
    obtain ⟨e1, e2⟩ := polar (p := b) (q := a) h
    rw [add_comm (b ^ 2)] at e1 e2
    rw [Real.cos_pi_div_two_sub, Real.sin_pi_div_two_sub]
    exact ⟨by linarith, by linarith, e2, e1⟩
  · simp only [if_neg hab]
    have hba := not_lt.1 hab
    rw [min_eq_right hba, max_eq_left hba] at *
    obtain ⟨e1, e2⟩ := polar (p := a) (q := b) h
    exact ⟨h0, h1, e1, e2⟩

/-- **C77 (`atan2`).** In exact arithmetic, `atan2( y, x )` for half precision is within 5.1e-6 of the angle of the point (x, y), for
every point but the origin, in all four quadrants and on the axes. -/
theorem C77_atan2 (intrinsics : Bool) {y x : ℝ} (h : x ≠ 0 ∨ y ≠ 0) :
    ∃ r θ, atan2Impl (half intrinsics) (some y) (some x) = some r ∧ IsAngle θ y x ∧ |r - θ| ≤ 0.0000051 := by
  have hm : 0 < max |x| |y| := by
    rcases h with h | h
    · exact lt_of_lt_of_le (abs_pos.2 h) (le_max_left _ _)
    · exact lt_of_lt_of_le (abs_pos.2 h) (le_max_right _ _)
  have hq0 : 0 ≤ min |x| |y| / max |x| |y| := div_nonneg (le_min (abs_nonneg _) (abs_nonneg _)) hm.le
  have hq1 : min |x| |y| / max |x| |y| ≤ 1 := (div_le_one hm).2 min_le_max
  have e0 : |Pa (min |x| |y| / max |x| |y|) - Real.arctan (min |x| |y| / max |x| |y|)| ≤ 0.000005 := by
    have := Pa_close hq0 hq1
    linarith
  have hr := atan2_eq intrinsics h _ rfl _ rfl _ rfl
  obtain ⟨u0, u1, ux, uy⟩ := quadrant (abs_nonneg x) (abs_nonneg y) hm _ rfl _ rfl
  rw [sq_abs, sq_abs] at ux uy
  generalize Pa (min |x| |y| / max |x| |y|) = r0 at e0 hr
  generalize Real.arctan (min |x| |y| / max |x| |y|) = t at e0 u0 u1 ux uy
  have p1 := Real.pi_gt_d20
  have p2 := Real.pi_lt_d20
  have e1 : |(if |x| < |y| then 1.570796327 - r0 else r0) - (if |x| < |y| then Real.pi / 2 - t else t)| ≤ 0.00000501 := by
    rw [abs_le] at *
    split <;> constructor <;> linarith
  generalize (if |x| < |y| then 1.570796327 - r0 else r0) = r1 at e1 hr
  generalize (if |x| < |y| then Real.pi / 2 - t else t) = u at e1 u0 u1 ux uy
  -- the left half plane
  have hv : ∃ v, 0 ≤ v ∧ v ≤ Real.pi ∧ x = √(x ^ 2 + y ^ 2) * Real.cos v ∧ |y| = √(x ^ 2 + y ^ 2) * Real.sin v ∧
      |(if x < 0 then 3.141592654 - r1 else r1) - v| ≤ 0.00000502 := by
    by_cases hx : x < 0
    · refine ⟨Real.pi - u, by linarith, by linarith, ?_, ?_, ?_⟩
      · rw [Real.cos_pi_sub, mul_neg, ← ux, abs_of_neg hx, neg_neg]
      · rw [Real.sin_pi_sub, ← uy]
      · rw [if_pos hx]
        rw [abs_le] at *
        constructor <;> linarith
    · refine ⟨u, u0, by linarith, ?_, uy, ?_⟩
      · rw [← ux, abs_of_nonneg (not_lt.1 hx)]
      · rw [if_neg hx]
        linarith
  obtain ⟨v, v0, v1, vx, vy, ve⟩ := hv
  generalize (if x < 0 then 3.141592654 - r1 else r1) = r2 at ve hr
  by_cases hy : y < 0
  · rw [if_pos hy] at hr
    refine ⟨-r2, -v, hr, ⟨?_, by linarith, ?_, ?_⟩, ?_⟩
    · have : v ≠ Real.pi := by
        rintro rfl
        rw [Real.sin_pi, mul_zero] at vy
        exact absurd (abs_eq_zero.1 vy) (ne_of_lt hy)
      have := lt_of_le_of_ne v1 this
      linarith
    · rw [Real.cos_neg]; exact vx
    · rw [Real.sin_neg, mul_neg, ← vy, abs_of_neg hy, neg_neg]
    · rw [abs_le] at *
      constructor <;> linarith
  · rw [if_neg hy] at hr
    refine ⟨r2, v, hr, ⟨by linarith, v1, vx, ?_⟩, by linarith⟩
    rw [← vy, abs_of_nonneg (not_lt.1 hy)]

/-- The points (1, 1), (-2, 0) and (0, -3) and their angles. -/
example : IsAngle (Real.pi / 4) 1 1 ∧ IsAngle Real.pi 0 (-2) ∧ IsAngle (-(Real.pi / 2)) (-3) 0 := by
  have hp := Real.pi_pos
  have h2 : √(2 : ℝ) * √2 = 2 := Real.mul_self_sqrt (by norm_num)
  have h4 : √(4 : ℝ) = 2 := by rw [show (4 : ℝ) = 2 ^ 2 by norm_num]; exact Real.sqrt_sq (by norm_num)
  have h9 : √(9 : ℝ) = 3 := by rw [show (9 : ℝ) = 3 ^ 2 by norm_num]; exact Real.sqrt_sq (by norm_num)
  refine ⟨⟨by linarith, by linarith, ?_, ?_⟩, ⟨by linarith, le_refl _, ?_, ?_⟩, ⟨by linarith, by linarith, ?_, ?_⟩⟩
  · rw [Real.cos_pi_div_four]; norm_num; linarith
  · rw [Real.sin_pi_div_four]; norm_num; linarith
  · rw [Real.cos_pi]; norm_num [h4]
  · rw [Real.sin_pi]; norm_num
  · rw [Real.cos_neg, Real.cos_pi_div_two]; norm_num
  · rw [Real.sin_neg, Real.sin_pi_div_two]; norm_num [h9]

/-- **C77 (origin).** `atan2( 0, 0 )` for half precision is a NaN (0 in the C++ library). -/
theorem C77_atan2_origin (intrinsics : Bool) : atan2Impl (half intrinsics) (some 0) (some 0) = none := by
  unfold atan2Impl half test holds
  simp [halfAbs_some, halfMin_some, halfMax_some, lift, Value.div]

/-- **C77 (NaN).** `atan2` for half precision hides NaNs: `atan2( y, NaN )` with y ≠ 0 is close to π/4 or -π/4, and with the
intrinsics of CUDA 11 so is `atan2( NaN, x )` with x > 0. -/
theorem C77_atan2_hides_nan {v : ℝ} :
    (∀ intrinsics, v ≠ 0 → ∃ r, atan2Impl (half intrinsics) (some v) none = some r ∧
      |r - (if v < 0 then -(Real.pi / 4) else Real.pi / 4)| ≤ 0.000005) ∧
    (0 < v → ∃ r, atan2Impl (half true) none (some v) = some r ∧ |r - Real.pi / 4| ≤ 0.000005) ∧
    atan2Impl (half false) none (some v) = none := by
  have e := Pa_close (r := 1) (by norm_num) (le_refl _)
  rw [Real.arctan_one] at e
  refine ⟨fun i hv => ⟨if v < 0 then -Pa 1 else Pa 1, ?_, ?_⟩, fun hv => ⟨Pa 1, ?_, by linarith⟩, ?_⟩
  · have hmin : halfMin i none (some |v|) = some |v| := by
      cases i <;> simp [halfMin, pick, holds]
    have hmax : halfMax i none (some |v|) = some |v| := by
      cases i <;> simp [halfMax, pick, holds]
    unfold atan2Impl half test holds
    simp only [halfAbs_some, halfAbs_none, hmin, hmax, lift, Value.div, if_neg (abs_pos.2 hv).ne', if_false, div_self (abs_pos.2 hv).ne']
    congr 1
    unfold Pa
    by_cases a3 : v < 0 <;> simp only [a3, if_true, if_false] <;> ring
  · rw [abs_le] at *
    split <;> constructor <;> linarith
  · have hmin : halfMin true (some |v|) none = some |v| := by simp [halfMin, pick]
    have hmax : halfMax true (some |v|) none = some |v| := by simp [halfMax, pick]
    unfold atan2Impl half test holds
    simp only [halfAbs_some, halfAbs_none, hmin, hmax, lift, Value.div, if_neg (abs_pos.2 hv.ne').ne', if_false,
      div_self (abs_pos.2 hv.ne').ne', if_neg (not_lt.2 hv.le)]
    congr 1
    unfold Pa
    ring
  · unfold atan2Impl half test holds
    simp [halfAbs_some, halfAbs_none, halfMin, halfMax, holds, lift, Value.div]

/-! ### Two values -/

/-- **C77 (`max`, `min`, `abs`).** For numbers, the functions for one and for two values return the larger, the smaller and the
absolute value, with and without the intrinsics. -/
theorem C77_max_min_abs (intrinsics : Bool) (a b a' b' : ℝ) :
    halfMax intrinsics (some a) (some b) = some (max a b) ∧ halfMin intrinsics (some a) (some b) = some (min a b) ∧
    halfAbs intrinsics (some a) = some |a| ∧
    half2Max intrinsics (some a, some a') (some b, some b') = (some (max a b), some (max a' b')) ∧
    half2Min intrinsics (some a, some a') (some b, some b') = (some (min a b), some (min a' b')) ∧
    half2Abs intrinsics (some a, some a') = (some |a|, some |a'|) := by
  have hmax : ∀ (a b : ℝ) [Decidable (b ≤ a)], a * (if b ≤ a then 1 else 0) + (1 - if b ≤ a then 1 else 0) * b = max a b := fun a b _ => by
    by_cases h : b ≤ a
    · simp only [if_pos h, max_eq_left h]; ring
    · simp only [if_neg h, max_eq_right (not_le.1 h).le]; ring
  have hmin : ∀ (a b : ℝ) [Decidable (a ≤ b)], a * (if a ≤ b then 1 else 0) + (1 - if a ≤ b then 1 else 0) * b = min a b := fun a b _ => by
    by_cases h : a ≤ b
    · simp only [if_pos h, min_eq_left h]; ring
    · simp only [if_neg h, min_eq_right (not_le.1 h).le]; ring
  have habs : ∀ (a : ℝ) [Decidable (a ≤ 0)], a - (if a ≤ 0 then 1 else 0) * (a + a) = |a| := fun a _ => by
    by_cases h : a ≤ 0
    · simp only [if_pos h, abs_of_nonpos h]; ring
    · simp only [if_neg h, abs_of_pos (not_le.1 h)]; ring
  refine ⟨halfMax_some _ a b, halfMin_some _ a b, halfAbs_some _ a, ?_, ?_, ?_⟩
  · cases intrinsics
    · simp only [half2Max, both, test, holds, lift, ge_iff_le, hmax, Bool.false_eq_true, if_false]
    · have h1 := halfMax_some true a b
      have h2 := halfMax_some true a' b'
      simp only [halfMax, if_true] at h1 h2
      simp only [half2Max, both, if_true, h1, h2]
  · cases intrinsics
    · exact congrArg₂ Prod.mk (congrArg some (hmin a b)) (congrArg some (hmin a' b'))
    · have h1 := halfMin_some true a b
      have h2 := halfMin_some true a' b'
      simp only [halfMin, if_true] at h1 h2
      simp only [half2Min, both, if_true, h1, h2]
  · cases intrinsics
    · exact congrArg₂ Prod.mk (congrArg some (habs a)) (congrArg some (habs a'))
    · rfl

/-- `abs` of two values. -/
theorem half2Abs_eq (i : Bool) (x : Value × Value) : half2Abs i x = (halfAbs i x.1, halfAbs i x.2) := by
  obtain ⟨x1, x2⟩ := x
  cases x1 with
  | some a =>
    cases x2 with
    | some b => rw [halfAbs_some, halfAbs_some]; exact (C77_max_min_abs i a 0 b 0).2.2.2.2.2
    | none =>
      have : (half2Abs i (some a, some 0)).1 = some |a| := congrArg Prod.fst (C77_max_min_abs i a 0 0 0).2.2.2.2.2
      rw [halfAbs_some, halfAbs_none, ← this]
      cases i <;> rfl
  | none =>
    cases x2 with
    | some b =>
      have : (half2Abs i (some 0, some b)).2 = some |b| := congrArg Prod.snd (C77_max_min_abs i 0 0 b 0).2.2.2.2.2
      rw [halfAbs_some, halfAbs_none, ← this]
      cases i <;> rfl
    | none => rw [halfAbs_none]; cases i <;> rfl

/-- **C77 (two values).** `asin` and `acos` of a `__half2` compute each half as if it was alone, also if the other half is outside of
the domain or a NaN, and so does `atan2` for numbers, and with the intrinsics for NaNs as well. -/
theorem C77_half2 (intrinsics : Bool) :
    (∀ x : Value × Value, asinImpl (half2 intrinsics) x = (asinImpl (half intrinsics) x.1, asinImpl (half intrinsics) x.2)) ∧
    (∀ x : Value × Value, acosImpl (half2 intrinsics) x = (acosImpl (half intrinsics) x.1, acosImpl (half intrinsics) x.2)) ∧
    (∀ y x : Value × Value, (intrinsics = true ∨ (∃ a b c d, y = (some a, some b) ∧ x = (some c, some d))) →
      atan2Impl (half2 intrinsics) y x =
        (atan2Impl (half intrinsics) y.1 x.1, atan2Impl (half intrinsics) y.2 x.2)) := by
  refine ⟨fun x => ?_, fun x => ?_, fun y x h => ?_⟩
  · unfold asinImpl half2 half
    simp only [half2Abs_eq, both]
  · unfold acosImpl half2 half
    simp only [half2Abs_eq, both]
  · have hmax : half2Max intrinsics (half2Abs intrinsics x) (half2Abs intrinsics y) =
        (halfMax intrinsics (halfAbs intrinsics x.1) (halfAbs intrinsics y.1),
          halfMax intrinsics (halfAbs intrinsics x.2) (halfAbs intrinsics y.2)) := by
      rcases h with rfl | ⟨a, b, c, d, rfl, rfl⟩
      · rfl
      · obtain ⟨-, -, -, h1, h2, h3⟩ := C77_max_min_abs intrinsics |c| |a| |d| |b|
        simp only [half2Abs_eq, halfAbs_some, halfMax_some, h1]
    have hmin : half2Min intrinsics (half2Abs intrinsics x) (half2Abs intrinsics y) =
        (halfMin intrinsics (halfAbs intrinsics x.1) (halfAbs intrinsics y.1),
          halfMin intrinsics (halfAbs intrinsics x.2) (halfAbs intrinsics y.2)) := by
      rcases h with rfl | ⟨a, b, c, d, rfl, rfl⟩
      · rfl
      · obtain ⟨-, -, -, h1, h2, h3⟩ := C77_max_min_abs intrinsics |c| |a| |d| |b|
        simp only [half2Abs_eq, halfAbs_some, halfMin_some, h2]
    unfold atan2Impl half2 half
    simp only [hmax, hmin]
    simp only [half2Abs_eq, both]

end

end LvArray.Props

import Verif.Props.MathApprox
import Verif.MathHalfAtan

/-!
# C77: asin, acos and atan2 in the arithmetic of half precision
-/

namespace LvArray.Props

open LvArray.math LvArray.math.Value LvArray.Spec LvArray.math.Rounded

section
open Classical

theorem N_keep {x : ℝ} (h : |N x| ≤ 60000) : N (N x) = N x := N_exact (N_representable h)

/-- `acosImpl` of a number between -1 and 1, with rounding. -/
theorem roundedAcos_eq (i : Bool) {x : ℝ} (hx : Format.half.Representable x) (h : |x| ≤ 1) (ha : Format.half.Representable |x|) :
    acosImpl (roundedHalf i) (some x) = some (if x < 0 then N (N 3.14159265358979 - arc |x|) else arc |x|) := by
  have hw := (root_near ha (abs_nonneg x) h).1
  have h2 := (arc_near ha (abs_nonneg x) h).2
  have hr : Format.half.Representable (arc |x|) := N_representable (le_of_lt (lt_trans h2 (by norm_num)))
  have hpi : |N 3.14159265358979| < 4 := by
    have c : Near (N 3.14159265358979) 3.14159265358979 (gap 2) := Near.const (by norm_num) (by rw [abs_lt]; norm_num)
    refine c.size ?_
    unfold gap
    rw [abs_of_pos (by norm_num)]
    norm_num
  unfold acosImpl roundedHalf test holds
  simp only [halfAbs_some, lift, N_one, sqrt_some hw, Option.map_some, N_zero]
  congr 1
  have e : Format.half.nearest (N (N (N (N (N (N (N (-0.0187293) * |x|) + N 0.0742610) * |x|) - N 0.2121144) * |x|) + N 1.5707288) *
      N √(N (1 - |x|))) = arc |x| := rfl
  rw [e]
  by_cases hx : x < 0
  · simp only [if_pos hx, one_mul]
    rw [show arc |x| + arc |x| = 2 * arc |x| by ring, N_exact (representable_double hr (by linarith)),
      N_exact (representable_double hr (by linarith)), show arc |x| - 2 * arc |x| = -arc |x| by ring, N_exact (representable_neg hr),
      N_keep (by linarith), sub_eq_add_neg]
  · simp only [if_neg hx, zero_mul, N_zero, sub_zero, zero_add]
    rw [N_exact hr, N_exact hr]

theorem representable_abs {x : ℝ} (h : Format.half.Representable x) : Format.half.Representable |x| := by
  rcases abs_choice x with e | e <;> rw [e]
  · exact h
  · exact representable_neg h

/-- **C77 (`acos`, with rounding).** In the arithmetic of half precision, where every constant and every result of an operation is
rounded, `acos` is within 0.0055 of the arc cosine, for every number of the format between -1 and 1. -/
theorem C77_half_acos (intrinsics : Bool) {x : ℝ} (hx : Format.half.Representable x) (h : |x| ≤ 1) :
    ∃ r, acosImpl (roundedHalf intrinsics) (some x) = some r ∧ |r - Real.arccos x| ≤ 0.0055 := by
  have ha := representable_abs hx
  refine ⟨_, roundedAcos_eq intrinsics hx h ha, ?_⟩
  obtain ⟨e, h2⟩ := arc_near ha (abs_nonneg x) h
  have p1 := Real.pi_gt_d20
  have p2 := Real.pi_lt_d20
  by_cases hn : x < 0
  · rw [if_pos hn]
    have c : Near (N 3.14159265358979) 3.14159265358979 (gap 2) := Near.const (by norm_num) (by rw [abs_lt]; norm_num)
    have g2 : gap 2 = 1 / 1024 := by unfold gap; norm_num
    rw [g2] at c
    have hb := Real.arccos_nonneg |x|
    have hb2 : Real.arccos |x| ≤ Real.pi / 2 := Real.arccos_le_pi_div_two.2 (abs_nonneg x)
    have := (c.sub e).round (k := 2) (by norm_num) (by
      have : |3.14159265358979 - Real.arccos (|x|)| ≤ 3.2 := by rw [abs_le]; constructor <;> norm_num <;> linarith
      norm_num at *; linarith)
    rw [g2, abs_of_neg hn, Real.arccos_neg] at this
    unfold Near at this
    rw [abs_of_neg hn]
    rw [abs_le] at *
    constructor <;> norm_num at * <;> linarith
  · rw [if_neg hn]
    rw [abs_of_nonneg (not_lt.1 hn)] at *
    exact le_trans e (by norm_num)

/-- The number 1/2 is a number of the format. -/
example : Format.half.Representable (1 / 2) ∧ |(1 / 2 : ℝ)| ≤ 1 := by
  refine ⟨⟨⟨1, -1, by norm_num, by show |(1 : Int)| < 2 ^ 11; norm_num, by
    show (-14 : Int) - ((11 : Nat) - 1 : Int) ≤ -1; norm_num⟩, ?_⟩, ?_⟩
  · rw [huge_eq, abs_of_pos (by norm_num)]; norm_num
  · rw [abs_of_pos (by norm_num)]; norm_num

/-- `asinImpl` of a number between -1 and 1, with rounding. -/
theorem roundedAsin_eq (i : Bool) {x : ℝ} (hx : Format.half.Representable x) (h : |x| ≤ 1) (ha : Format.half.Representable |x|) :
    asinImpl (roundedHalf i) (some x) = some (if |x| < N 0.17 then x else
      if x < 0 then -N (N (3.14159265358979 * 0.5) - arc |x|) else N (N (3.14159265358979 * 0.5) - arc |x|)) := by
  have hw := (root_near ha (abs_nonneg x) h).1
  have h2 := (arc_near ha (abs_nonneg x) h).2
  have hr : Format.half.Representable (arc |x|) := N_representable (le_of_lt (lt_trans h2 (by norm_num)))
  have hpi : |N (3.14159265358979 * 0.5)| < 2 := by
    have c : Near (N (3.14159265358979 * 0.5)) (3.14159265358979 * 0.5) (gap 1) := Near.const (by norm_num) (by rw [abs_lt]; norm_num)
    refine c.size ?_
    unfold gap
    rw [abs_of_pos (by norm_num)]
    norm_num
  have hd : |N (N (3.14159265358979 * 0.5) - arc |x|)| < 5 := by
    have := N_close (k := 2) (by norm_num) (z := N (3.14159265358979 * 0.5) - arc |x|) (by
      rw [abs_lt] at *
      norm_num at *
      constructor <;> linarith)
    have g2 : gap 2 = 1 / 1024 := by unfold gap; norm_num
    rw [g2] at this
    rw [abs_le] at this
    rw [abs_lt] at *
    constructor <;> linarith
  unfold asinImpl roundedHalf test holds
  simp only [halfAbs_some, lift, N_one, sqrt_some hw, Option.map_some, N_zero]
  congr 1
  have e : N (N (N (N (N (N (N (N (-0.0187293) * |x|) + N 0.0742610) * |x|) - N 0.2121144) * |x|) + N 1.5707288) *
      N √(N (1 - |x|))) = arc |x| := rfl
  have hdr := N_representable (le_of_lt (lt_trans hd (by norm_num)))
  rw [e]
  generalize N (N (3.14159265358979 * 0.5) - arc |x|) = d at hd hdr ⊢
  have e17 : (1.7e-1 : ℝ) = 0.17 := by norm_num
  rw [e17]
  by_cases hs : |x| < N 0.17
  · simp only [if_pos hs, one_mul, sub_self, N_zero, zero_mul, add_zero]
    rw [N_exact hx, N_exact hx]
  · simp only [if_neg hs, zero_mul, N_zero, sub_zero, zero_add, N_one, one_mul]
    by_cases hx : x < 0
    · simp only [if_pos hx, one_mul]
      rw [show d + d = 2 * d by ring, N_exact (representable_double hdr (by linarith)),
        N_exact (representable_double hdr (by linarith)), show d - 2 * d = -d by ring, N_exact (representable_neg hdr),
        N_exact (representable_neg hdr), N_exact (representable_neg hdr)]
    · simp only [if_neg hx, zero_mul, N_zero, sub_zero]
      rw [N_exact hdr, N_exact hdr, N_exact hdr]

/-- **C77 (`asin`, with rounding).** In the arithmetic of half precision `asin` is within 0.0045 of the arc sine, for every number of
the format between -1 and 1. -/
theorem C77_half_asin (intrinsics : Bool) {x : ℝ} (hx : Format.half.Representable x) (h : |x| ≤ 1) :
    ∃ r, asinImpl (roundedHalf intrinsics) (some x) = some r ∧ |r - Real.arcsin x| ≤ 0.0045 := by
  have ha := representable_abs hx
  refine ⟨_, roundedAsin_eq intrinsics hx h ha, ?_⟩
  by_cases hs : |x| < N 0.17
  · rw [if_pos hs]
    have hs2 : |x| < 0.1701 := by
      have := N_close (k := -2) (by norm_num) (z := 0.17) (by rw [abs_of_pos (by norm_num)]; norm_num)
      unfold gap at this
      rw [abs_le] at this
      norm_num at this ⊢
      linarith
    refine le_trans (b := 0.00085) ?_ (by norm_num)
    rcases le_total 0 x with h0 | h0
    · rw [abs_of_nonneg h0] at hs2
      exact arcsin_small h0 hs2
    · rw [abs_of_nonpos h0] at hs2
      have := arcsin_small (neg_nonneg.2 h0) hs2
      rw [Real.arcsin_neg, ← abs_neg] at this
      rwa [show -(-x - -Real.arcsin x) = x - Real.arcsin x by ring] at this
  · rw [if_neg hs]
    obtain ⟨e, h2⟩ := arc_near ha (abs_nonneg x) h
    have p1 := Real.pi_gt_d20
    have p2 := Real.pi_lt_d20
    have c : Near (N (3.14159265358979 * 0.5)) (3.14159265358979 * 0.5) (gap 1) := Near.const (by norm_num) (by rw [abs_lt]; norm_num)
    have g1 : gap 1 = 1 / 2048 := by unfold gap; norm_num
    rw [g1] at c
    have hb := Real.arccos_nonneg |x|
    have hb2 : Real.arccos |x| ≤ Real.pi / 2 := Real.arccos_le_pi_div_two.2 (abs_nonneg x)
    have key := (c.sub e).round (k := 1) (by norm_num) (by
      have : |3.14159265358979 * 0.5 - Real.arccos (|x|)| ≤ 1.58 := by rw [abs_le]; constructor <;> norm_num <;> linarith
      norm_num at *; linarith)
    rw [g1] at key
    unfold Near at key
    by_cases hn : x < 0
    · rw [if_pos hn]
      rw [abs_of_neg hn, Real.arccos, Real.arcsin_neg] at key
      rw [abs_of_neg hn]
      rw [abs_le] at *
      constructor <;> norm_num at * <;> linarith
    · rw [if_neg hn]
      rw [abs_of_nonneg (not_lt.1 hn), Real.arccos] at key
      rw [abs_of_nonneg (not_lt.1 hn)]
      rw [abs_le] at *
      constructor <;> norm_num at * <;> linarith

/-- **C77 (symmetry, with rounding).** In the arithmetic of half precision `asin` is odd, without an error. -/
theorem C77_half_odd (intrinsics : Bool) {x : ℝ} (hx : Format.half.Representable x) (h : |x| ≤ 1) {r : ℝ}
    (e : asinImpl (roundedHalf intrinsics) (some x) = some r) : asinImpl (roundedHalf intrinsics) (some (-x)) = some (-r) := by
  have ha := representable_abs hx
  rw [roundedAsin_eq _ hx h ha] at e
  rw [roundedAsin_eq _ (representable_neg hx) (by rwa [abs_neg]) (by rwa [abs_neg]), abs_neg]
  injection e with e
  subst e
  congr 1
  by_cases hs : |x| < N 0.17
  · rw [if_pos hs, if_pos hs]
  · have hx0 : x ≠ 0 := by
      rintro rfl
      have := N_close (k := -2) (by norm_num) (z := 0.17) (by rw [abs_of_pos (by norm_num)]; norm_num)
      unfold gap at this
      rw [abs_le] at this
      rw [abs_zero] at hs
      norm_num at this hs
      linarith
    rw [if_neg hs, if_neg hs]
    rcases lt_or_gt_of_ne hx0 with hx | hx
    · rw [if_pos hx, if_neg (by linarith), neg_neg]
    · rw [if_neg (by linarith : ¬ x < 0), if_pos (by linarith)]

/-- **C77 (arguments outside, with rounding).** Also in the arithmetic of half precision `asin` and `acos` of a number that is not
between -1 and 1 are NaNs, however close to 1 it is. -/
theorem C77_half_outside (intrinsics : Bool) {x : ℝ} (hx : Format.half.Representable x) (h : 1 < |x|) :
    asinImpl (roundedHalf intrinsics) (some x) = none ∧ acosImpl (roundedHalf intrinsics) (some x) = none := by
  have hn : N (1 - |x|) < 0 := by
    have := N_one_sub (representable_abs hx)
    rw [abs_of_neg (by linarith : 1 - |x| < 0), abs_le] at this
    norm_num at this
    linarith
  constructor
  · unfold asinImpl roundedHalf test holds
    simp only [halfAbs_some, lift, N_one, sqrt_negative hn, Option.map_none]
  · unfold acosImpl roundedHalf test holds
    simp only [halfAbs_some, lift, N_one, sqrt_negative hn, Option.map_none]

/-! ### `atan2` -/

/-- A difference that is computed as `lessThan * ( constant - ret - ret ) + ret`. -/
theorem folded {k : Int} (hk : 1 ≤ k) (hk2 : k ≤ 2) {c r θ e : ℝ} (h : Near r θ e) (he : e ≤ 0.01) (hc0 : 1.5 ≤ c) (hc : c < 2 ^ k - 0.1)
    (h0 : 0 ≤ θ) (h1 : 2 * θ ≤ c + 0.01) :
    Near (N (N (1 * N (N (N c - r) - r)) + r)) (c - θ) (e + 4 * gap k) ∧ |N (N (1 * N (N (N c - r) - r)) + r)| < 5 := by
  have hg : gap k ≤ 1 / 1024 := by
    have : k = 1 ∨ k = 2 := by omega
    rcases this with rfl | rfl <;> unfold gap <;> norm_num
  have hg0 : 0 ≤ gap k := by unfold gap; positivity
  have h4 : (2 : ℝ) ^ k ≤ 4 := by
    have : k = 1 ∨ k = 2 := by omega
    rcases this with rfl | rfl <;> norm_num
  unfold Near at h
  rw [abs_le] at h
  norm_num at he hc0 hc h1
  have e1 := N_close (k := k) (by omega) (z := c) (by rw [abs_lt]; constructor <;> linarith)
  rw [abs_le] at e1
  have e2 := N_close (k := k) (by omega) (z := N c - r) (by rw [abs_lt]; constructor <;> linarith)
  rw [abs_le] at e2
  have e3 := N_close (k := k) (by omega) (z := N (N c - r) - r) (by rw [abs_lt]; constructor <;> linarith)
  rw [abs_le] at e3
  have hrep : N (1 * N (N (N c - r) - r)) = N (N (N c - r) - r) := by
    rw [one_mul]
    exact N_keep (by rw [abs_le]; constructor <;> linarith)
  rw [hrep]
  have e4 := N_close (k := k) (by omega) (z := N (N (N c - r) - r) + r) (by rw [abs_lt]; constructor <;> linarith)
  rw [abs_le] at e4
  unfold Near
  rw [abs_le, abs_lt]
  refine ⟨⟨by linarith, by linarith⟩, by linarith, by linarith⟩

/-- **C77 (`atan2`, with rounding).** In the arithmetic of half precision `atan2( y, x )` is within 0.0085 of the angle of the point
(x, y), for every point but the origin. -/
theorem C77_half_atan2 (intrinsics : Bool) {y x : ℝ} (h : x ≠ 0 ∨ y ≠ 0) :
    ∃ r θ, atan2Impl (roundedHalf intrinsics) (some y) (some x) = some r ∧ IsAngle θ y x ∧ |r - θ| ≤ 0.0085 := by
  have hm : 0 < max |x| |y| := by
    rcases h with h | h
    · exact lt_of_lt_of_le (abs_pos.2 h) (le_max_left _ _)
    · exact lt_of_lt_of_le (abs_pos.2 h) (le_max_right _ _)
  have hq0 : 0 ≤ min |x| |y| / max |x| |y| := div_nonneg (le_min (abs_nonneg _) (abs_nonneg _)) hm.le
  have hq1 : min |x| |y| / max |x| |y| ≤ 1 := (div_le_one hm).2 min_le_max
  obtain ⟨u0, u1, ux, uy⟩ := quadrant (abs_nonneg x) (abs_nonneg y) hm _ rfl _ rfl
  obtain ⟨e0, b0⟩ := arct_near hq0 hq1
  have t0 : 0 ≤ Real.arctan (min |x| |y| / max |x| |y|) := Real.arctan_nonneg.2 hq0
  have t1 : Real.arctan (min |x| |y| / max |x| |y|) ≤ Real.pi / 4 := by
    rw [← Real.arctan_one]; exact Real.arctan_strictMono.monotone hq1
  have hr : atan2Impl (roundedHalf intrinsics) (some y) (some x) = some (
      let r0 := arct (min |x| |y| / max |x| |y|)
      let r1 := N (N ((if |x| < |y| then 1 else 0) * N (N (N 1.570796327 - r0) - r0)) + r0)
      let r2 := N (N ((if x < 0 then 1 else 0) * N (N (N 3.141592654 - r1) - r1)) + r1)
      N (r2 - N ((if y < 0 then 1 else 0) * N (r2 + r2)))) := by
    unfold atan2Impl roundedHalf test holds
    simp only [halfAbs_some, halfMin_some, halfMax_some, lift, Value.div, if_neg hm.ne', Option.map_some, N_zero]
    rfl
  rw [hr]
  clear hr
  rw [sq_abs, sq_abs] at ux uy
  have hrep0 : Format.half.Representable (arct (min |x| |y| / max |x| |y|)) := N_representable (le_of_lt (lt_trans b0 (by norm_num)))
  generalize arct (min |x| |y| / max |x| |y|) = r0 at e0 b0 hrep0 ⊢
  generalize Real.arctan (min |x| |y| / max |x| |y|) = t at e0 u0 u1 ux uy t0 t1
  simp only []
  have p1 := Real.pi_gt_d20
  have p2 := Real.pi_lt_d20
  have g1 : gap 1 = 1 / 2048 := by unfold gap; norm_num
  have g2 : gap 2 = 1 / 1024 := by unfold gap; norm_num
  have s1 : Near (N (N ((if |x| < |y| then 1 else 0) * N (N (N 1.570796327 - r0) - r0)) + r0))
      (if |x| < |y| then Real.pi / 2 - t else t) 0.0043 ∧
      |N (N ((if |x| < |y| then 1 else 0) * N (N (N 1.570796327 - r0) - r0)) + r0)| < 5 := by
    by_cases hxy : |x| < |y|
    · simp only [if_pos hxy]
      have := folded (k := 1) (by norm_num) (by norm_num) e0 (c := 1.570796327) (by norm_num) (by norm_num) (by norm_num) t0
        (by norm_num at *; linarith)
      rw [g1] at this
      refine ⟨?_, this.2⟩
      have := this.1
      unfold Near at *
      rw [abs_le] at *
      constructor <;> norm_num at * <;> linarith
    · simp only [if_neg hxy, zero_mul, N_zero, zero_add]
      rw [N_exact hrep0]
      exact ⟨e0.mono (by norm_num), by linarith⟩
  have hrep1 := N_representable (le_of_lt (lt_trans s1.2 (by norm_num : (5 : ℝ) < 60000)))
  generalize N (N ((if |x| < |y| then 1 else 0) * N (N (N 1.570796327 - r0) - r0)) + r0) = r1 at s1 hrep1 ⊢
  generalize (if |x| < |y| then Real.pi / 2 - t else t) = u at s1 u0 u1 ux uy
  -- the left half plane
  have hv : ∃ v, 0 ≤ v ∧ v ≤ Real.pi ∧ x = √(x ^ 2 + y ^ 2) * Real.cos v ∧ |y| = √(x ^ 2 + y ^ 2) * Real.sin v ∧
      Near (N (N ((if x < 0 then 1 else 0) * N (N (N 3.141592654 - r1) - r1)) + r1)) v 0.0085 ∧
      |N (N ((if x < 0 then 1 else 0) * N (N (N 3.141592654 - r1) - r1)) + r1)| < 5 := by
    by_cases hx : x < 0
    · refine ⟨Real.pi - u, by linarith, by linarith, ?_, ?_, ?_⟩
      · rw [Real.cos_pi_sub, mul_neg, ← ux, abs_of_neg hx, neg_neg]
      · rw [Real.sin_pi_sub, ← uy]
      · simp only [if_pos hx]
        have := folded (k := 2) (by norm_num) (by norm_num) s1.1 (c := 3.141592654) (by norm_num) (by norm_num) (by norm_num) u0
          (by norm_num at *; linarith)
        rw [g2] at this
        refine ⟨?_, this.2⟩
        have := this.1
        unfold Near at *
        rw [abs_le] at *
        constructor <;> norm_num at * <;> linarith
    · refine ⟨u, u0, by linarith, ?_, uy, ?_⟩
      · rw [← ux, abs_of_nonneg (not_lt.1 hx)]
      · simp only [if_neg hx, zero_mul, N_zero, zero_add]
        rw [N_exact hrep1]
        exact ⟨s1.1.mono (by norm_num), s1.2⟩
  obtain ⟨v, v0, v1, vx, vy, ve, vb⟩ := hv
  have hrep2 := N_representable (le_of_lt (lt_trans vb (by norm_num : (5 : ℝ) < 60000)))
  generalize N (N ((if x < 0 then 1 else 0) * N (N (N 3.141592654 - r1) - r1)) + r1) = r2 at ve vb hrep2 ⊢
  unfold Near at ve
  by_cases hy : y < 0
  · simp only [if_pos hy, one_mul]
    rw [show r2 + r2 = 2 * r2 by ring, N_exact (representable_double hrep2 (by linarith)),
        N_exact (representable_double hrep2 (by linarith)), show r2 - 2 * r2 = -r2 by ring, N_exact (representable_neg hrep2)]
    refine ⟨-r2, -v, rfl, ⟨?_, by linarith, ?_, ?_⟩, ?_⟩
    · have : v ≠ Real.pi := by
        rintro rfl
        rw [Real.sin_pi, mul_zero] at vy
        exact absurd (abs_eq_zero.1 vy) (ne_of_lt hy)
      have := lt_of_le_of_ne v1 this
      linarith
    · rw [Real.cos_neg]; exact vx
    · rw [Real.sin_neg, mul_neg, ← vy, abs_of_neg hy, neg_neg]
    · rw [abs_le] at *
      constructor <;> linarith
  · simp only [if_neg hy, zero_mul, N_zero, sub_zero]
    rw [N_exact hrep2]
    refine ⟨r2, v, rfl, ⟨by linarith, v1, vx, ?_⟩, ve⟩
    rw [← vy, abs_of_nonneg (not_lt.1 hy)]

end

end LvArray.Props

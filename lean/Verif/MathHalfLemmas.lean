import Verif.MathHalf
import Verif.MathLemmas

/-!
# Rounding errors of asinImpl, acosImpl and atan2Impl
-/

namespace LvArray.math.Rounded

open LvArray Binary

/-! `N x` is x rounded to half precision. -/

scoped notation:max "N" => Format.nearest Format.half

/-- The largest error of rounding a number below 2^k. -/
noncomputable def gap (k : Int) : ℝ := 2 ^ (k - 12)

theorem ulp_le {k : Int} (hk : -13 ≤ k) {z : ℝ} (hz : z ≠ 0) (h : |z| < 2 ^ k) : Format.half.ulp z ≤ 2 ^ (k - 11) := by
  unfold Format.ulp
  refine zpow_le_zpow_right₀ (by norm_num) ?_
  have : Int.log 2 |z| < k := (Int.lt_zpow_iff_log_lt (by norm_num) (abs_pos.2 hz)).1 (by exact_mod_cast h)
  show max (Int.log 2 |z|) (-14) - ((11 : Nat) - 1 : Int) ≤ k - 11
  have h2 : max (Int.log 2 |z|) (-14) ≤ k - 1 := max_le (by omega) (by omega)
  push_cast
  omega

theorem N_zero : N 0 = 0 := Format.half.nearest_zero

theorem N_close {k : Int} (hk : -13 ≤ k) {z : ℝ} (h : |z| < 2 ^ k) : |N z - z| ≤ gap k := by
  by_cases hz : z = 0
  · subst hz
    rw [N_zero, sub_self, abs_zero]
    unfold gap
    positivity
  · have h1 := Format.half.nearest_close z
    have h2 := ulp_le hk hz h
    have h3 : gap k = 1 / 2 * 2 ^ (k - 11) := by
      unfold gap
      rw [show k - 12 = k - 11 + -1 by ring, zpow_add₀ (by norm_num)]
      norm_num
      ring
    rw [h3]
    refine le_trans h1 ?_
    show (1 / 2 : ℝ) * _ ≤ _
    linarith

/-- Numbers of the format are not rounded. -/
theorem N_exact {z : ℝ} (h : Format.half.Representable z) : N z = z := by
  by_cases hz : z = 0
  · subst hz; exact N_zero
  obtain ⟨⟨m, k, e, hm, hk⟩, -⟩ := h
  have hpos : 0 < |z| := abs_pos.2 hz
  have hk : -24 ≤ k := by
    have : (-14 : Int) - ((11 : Nat) - 1 : Int) ≤ k := hk
    push_cast at this
    omega
  have hm' : (|m| : ℝ) < 2 ^ (11 : Int) := by
    have h1 : ((|m| : Int) : ℝ) < ((2 ^ 11 : Int) : ℝ) := Int.cast_lt.2 hm
    rw [Int.cast_abs] at h1
    norm_num at h1 ⊢
    exact h1
  have hlog : Int.log 2 |z| < k + 11 := by
    refine (Int.lt_zpow_iff_log_lt (by norm_num) hpos).1 ?_
    rw [e, abs_mul, abs_of_pos (show (0 : ℝ) < 2 ^ k by positivity)]
    push_cast
    rw [zpow_add₀ (by norm_num), mul_comm]
    exact mul_lt_mul_of_pos_left hm' (by positivity)
  obtain ⟨j, hj⟩ : ∃ j : Nat, k = max (Int.log 2 |z|) (-14) - 10 + j :=
    ⟨(k - (max (Int.log 2 |z|) (-14) - 10)).toNat, by
      have : max (Int.log 2 |z|) (-14) - 10 ≤ k := by
        have := max_le (a := Int.log 2 |z|) (b := -14) (c := k + 10) (by omega) (by omega)
        omega
      omega⟩
  have hu : Format.half.ulp z = 2 ^ (max (Int.log 2 |z|) (-14) - 10) := by
    unfold Format.ulp
    show (2 : ℝ) ^ (max (Int.log 2 |z|) (-14) - ((11 : Nat) - 1 : Int)) = _
    norm_num
  have hne : (2 : ℝ) ^ (max (Int.log 2 |z|) (-14) - 10) ≠ 0 := by positivity
  have hq : z / Format.half.ulp z = ((m * 2 ^ j : Int) : ℝ) := by
    rw [hu, div_eq_iff hne]
    conv_lhs => rw [e, hj]
    rw [zpow_add₀ (by norm_num), zpow_natCast]
    push_cast
    ring
  show (Format.half.rnd (z / Format.half.ulp z) : ℝ) * Format.half.ulp z = z
  rw [hq, Format.half.rnd_exact, ← hq, div_mul_cancel₀]
  rw [hu]; exact hne

theorem huge_eq : Format.half.huge = 65504 := by
  unfold Format.huge
  show ((2 : ℝ) ^ 11 - 1) * 2 ^ ((15 : Int) - ((11 : Nat) - 1 : Int)) = 65504
  norm_num

theorem N_representable {z : ℝ} (h : |N z| ≤ 60000) : Format.half.Representable (N z) :=
  Format.half.nearest_representable z (by rw [huge_eq]; linarith)

theorem representable_neg {z : ℝ} (h : Format.half.Representable z) : Format.half.Representable (-z) := by
  obtain ⟨⟨m, k, e, hm, hk⟩, hz⟩ := h
  exact ⟨⟨-m, k, by rw [e]; push_cast; ring, by rwa [abs_neg], hk⟩, by rwa [abs_neg]⟩

theorem representable_double {z : ℝ} (h : Format.half.Representable z) (hz : |z| ≤ 30000) :
    Format.half.Representable (2 * z) := by
  obtain ⟨⟨m, k, e, hm, hk⟩, -⟩ := h
  refine ⟨⟨m, k + 1, by rw [e, zpow_add₀ (by norm_num)]; ring, hm, by omega⟩, ?_⟩
  rw [abs_mul, huge_eq]
  norm_num
  linarith

theorem representable_one : Format.half.Representable 1 := by
  have := Binary.ofInt_representable (f := Format.half) 1 (by show |(1 : Int)| < 2 ^ 11; norm_num)
    (by show (-14 : Int) - ((11 : Nat) - 1 : Int) ≤ 0; norm_num) (by show ((11 : Nat) - 1 : Int) ≤ 15; norm_num)
  simpa using this

theorem N_one : N 1 = 1 := N_exact representable_one

/-- Rounding does not go beyond 0 and 1. -/
theorem N_unit {z : ℝ} (h0 : 0 ≤ z) (h1 : z ≤ 1) : 0 ≤ N z ∧ N z ≤ 1 := by
  rcases eq_or_lt_of_le h0 with rfl | h0
  · rw [N_zero]; exact ⟨le_refl _, by norm_num⟩
  rcases eq_or_lt_of_le h1 with rfl | h1
  · rw [N_one]; exact ⟨by norm_num, le_refl _⟩
  have hu := Format.half.ulp_pos z
  have hc := Format.half.rnd_close (z / Format.half.ulp z)
  have hc : |z / Format.half.ulp z - Format.half.rnd (z / Format.half.ulp z)| ≤ 1 / 2 := hc
  rw [abs_le] at hc
  have hz : 0 ≤ z / Format.half.ulp z := by positivity
  obtain ⟨j, hj⟩ : ∃ j : Nat, Format.half.ulp z * 2 ^ j = 1 := by
    have hlog : Int.log 2 |z| < 0 := by
      refine (Int.lt_zpow_iff_log_lt (by norm_num) (abs_pos.2 h0.ne')).1 ?_
      rw [abs_of_pos h0]; simpa using h1
    refine ⟨(10 - max (Int.log 2 |z|) (-14)).toNat, ?_⟩
    unfold Format.ulp
    show (2 : ℝ) ^ (max (Int.log 2 |z|) (-14) - ((11 : Nat) - 1 : Int)) * _ = 1
    rw [← zpow_natCast, ← zpow_add₀ (by norm_num)]
    have : max (Int.log 2 |z|) (-14) < 0 := max_lt hlog (by norm_num)
    rw [show max (Int.log 2 |z|) (-14) - ((11 : Nat) - 1 : Int) + ((10 - max (Int.log 2 |z|) (-14)).toNat : Int) = 0 by
      push_cast; omega]
    norm_num
  have hz1 : z / Format.half.ulp z ≤ ((2 ^ j : Int) : ℝ) := by
    rw [div_le_iff₀ hu]
    push_cast
    linarith [mul_comm (Format.half.ulp z) (2 ^ j)]
  have r0 : 0 ≤ Format.half.rnd (z / Format.half.ulp z) := by
    have : (-1 : ℝ) < Format.half.rnd (z / Format.half.ulp z) := by linarith
    have : (-1 : Int) < Format.half.rnd (z / Format.half.ulp z) := by exact_mod_cast this
    omega
  have r1 : Format.half.rnd (z / Format.half.ulp z) ≤ 2 ^ j := by
    have : (Format.half.rnd (z / Format.half.ulp z) : ℝ) < ((2 ^ j + 1 : Int) : ℝ) := by
      push_cast at hz1 ⊢
      linarith
    have : Format.half.rnd (z / Format.half.ulp z) < 2 ^ j + 1 := by exact_mod_cast this
    omega
  show 0 ≤ (Format.half.rnd (z / Format.half.ulp z) : ℝ) * Format.half.ulp z ∧ (Format.half.rnd (z / Format.half.ulp z) : ℝ) * Format.half.ulp z ≤ 1
  have r0' : (0 : ℝ) ≤ Format.half.rnd (z / Format.half.ulp z) := by exact_mod_cast r0
  have r1' : (Format.half.rnd (z / Format.half.ulp z) : ℝ) ≤ 2 ^ j := by exact_mod_cast r1
  refine ⟨by positivity, ?_⟩
  calc _ ≤ 2 ^ j * Format.half.ulp z := mul_le_mul_of_nonneg_right r1' hu.le
    _ = 1 := by rw [mul_comm]; exact hj

/-- Differences of numbers of the format are rounded with a relative error. -/
theorem N_one_sub {a : ℝ} (h : Format.half.Representable a) : |N (1 - a) - (1 - a)| ≤ 2⁻¹ ^ 11 * |1 - a| := by
  obtain ⟨m, hm⟩ := Binary.multiple (f := Format.half) (a := .number a h) nofun
  obtain ⟨n, hn⟩ := Binary.multiple (f := Format.half) (a := .number 1 representable_one) nofun
  have hm : a = m * 2 ^ (Format.half.emin - (Format.half.p - 1 : Int)) := hm
  have hn : (1 : ℝ) = n * 2 ^ (Format.half.emin - (Format.half.p - 1 : Int)) := hn
  have := Binary.nearest_error_multiple (f := Format.half) (1 - a) (n - m) (by rw [hn, hm]; push_cast; ring)
  refine le_trans this (le_of_eq ?_)
  show (1 / 2 : ℝ) * 2 ^ (1 - (11 : Nat) : Int) * |1 - a| = _
  norm_num

/-! ### Steps -/

/-- `x` approximates `v` with an error of at most `e`. -/
def Near (x v e : ℝ) : Prop := |x - v| ≤ e

theorem Near.const {k : Int} (hk : -13 ≤ k) {c : ℝ} (h : |c| < 2 ^ k) : Near (N c) c (gap k) := N_close hk h

theorem Near.size {x v e : ℝ} (h : Near x v e) {b : ℝ} (hb : |v| + e < b) : |x| < b := by
  have : |x| ≤ |x - v| + |v| := by simpa using abs_add_le (x - v) v
  unfold Near at h
  linarith

theorem Near.round {k : Int} (hk : -13 ≤ k) {x v e : ℝ} (h : Near x v e) (hb : |v| + e < 2 ^ k) : Near (N x) v (e + gap k) := by
  have h1 := N_close hk (h.size hb)
  have h2 : |N x - v| ≤ |N x - x| + |x - v| := abs_sub_le _ _ _
  unfold Near at *
  linarith

theorem Near.add {x v e y w f : ℝ} (hx : Near x v e) (hy : Near y w f) : Near (x + y) (v + w) (e + f) := by
  unfold Near at *
  have : |x + y - (v + w)| ≤ |x - v| + |y - w| := by
    rw [show x + y - (v + w) = (x - v) + (y - w) by ring]; exact abs_add_le _ _
  linarith

theorem Near.sub {x v e y w f : ℝ} (hx : Near x v e) (hy : Near y w f) : Near (x - y) (v - w) (e + f) := by
  unfold Near at *
  have : |x - y - (v - w)| ≤ |x - v| + |y - w| := by
    rw [show x - y - (v - w) = (x - v) - (y - w) by ring]; exact abs_sub _ _
  linarith

/-- A product with a number between 0 and 1. -/
theorem Near.scale {x v e a : ℝ} (hx : Near x v e) (h0 : 0 ≤ a) (h1 : a ≤ 1) : Near (x * a) (v * a) e := by
  unfold Near at *
  rw [← sub_mul, abs_mul, abs_of_nonneg h0]
  have := abs_nonneg (x - v)
  nlinarith

theorem Near.mono {x v e e' : ℝ} (h : Near x v e) (he : e ≤ e') : Near x v e' := le_trans h he

/-! ### The polynomial of asinImpl and acosImpl -/

/-- The polynomial as it is computed. -/
noncomputable def pc (a : ℝ) : ℝ :=
  N (N (N (N (N (N (N (-0.0187293) * a) + N 0.0742610) * a) - N 0.2121144) * a) + N 1.5707288)

theorem pc_near {a : ℝ} (h0 : 0 ≤ a) (h1 : a ≤ 1) : Near (pc a) (Pc a) 0.00127 := by
  have c3 : Near (N (-0.0187293)) (-0.0187293) (gap (-5)) := Near.const (by norm_num) (by rw [abs_lt]; norm_num)
  have c2 : Near (N 0.0742610) 0.0742610 (gap (-3)) := Near.const (by norm_num) (by rw [abs_lt]; norm_num)
  have c1 : Near (N 0.2121144) 0.2121144 (gap (-2)) := Near.const (by norm_num) (by rw [abs_lt]; norm_num)
  have c0 : Near (N 1.5707288) 1.5707288 (gap 1) := Near.const (by norm_num) (by rw [abs_lt]; norm_num)
  have g5 : gap (-5) = 1 / 131072 := by unfold gap; norm_num
  have g3 : gap (-3) = 1 / 32768 := by unfold gap; norm_num
  have g2 : gap (-2) = 1 / 16384 := by unfold gap; norm_num
  have g1 : gap 1 = 1 / 2048 := by unfold gap; norm_num
  rw [g5] at c3; rw [g3] at c2; rw [g2] at c1; rw [g1] at c0
  have b : ∀ {v e r : ℝ}, -(r - e) < v → v < r - e → |v| + e < r := fun h h' => by
    have := abs_lt.2 ⟨h, h'⟩
    linarith
  have s1 := ((c3.scale h0 h1).round (k := -5) (by norm_num) (b (by norm_num; linarith) (by norm_num; linarith))).add c2
  rw [g5] at s1
  have s1 := s1.round (k := -3) (by norm_num) (b (by norm_num; linarith) (by norm_num; linarith))
  rw [g3] at s1
  have v1 : 0 ≤ -0.0187293 * a + 0.0742610 ∧ -0.0187293 * a + 0.0742610 ≤ 0.0742610 := ⟨by linarith, by linarith⟩
  have w1 : 0 ≤ (-0.0187293 * a + 0.0742610) * a ∧ (-0.0187293 * a + 0.0742610) * a ≤ 0.0742610 :=
    ⟨mul_nonneg v1.1 h0, by nlinarith⟩
  have s2 := ((s1.scale h0 h1).round (k := -3) (by norm_num) (b (by norm_num; linarith) (by norm_num; linarith))).sub c1
  rw [g3] at s2
  have s2 := s2.round (k := -2) (by norm_num) (b (by norm_num; linarith) (by norm_num; linarith))
  rw [g2] at s2
  have v2 : -0.2121144 ≤ (-0.0187293 * a + 0.0742610) * a - 0.2121144 ∧ (-0.0187293 * a + 0.0742610) * a - 0.2121144 ≤ 0 :=
    ⟨by linarith, by linarith⟩
  have w2 : -0.2121144 ≤ ((-0.0187293 * a + 0.0742610) * a - 0.2121144) * a ∧ ((-0.0187293 * a + 0.0742610) * a - 0.2121144) * a ≤ 0 :=
    ⟨by nlinarith, by nlinarith⟩
  have s3 := ((s2.scale h0 h1).round (k := -2) (by norm_num) (b (by norm_num; linarith) (by norm_num; linarith))).add c0
  rw [g2] at s3
  have s3 := s3.round (k := 1) (by norm_num) (b (by norm_num; linarith) (by norm_num; linarith))
  rw [g1] at s3
  exact s3.mono (by norm_num)

theorem Pc_bounds {a : ℝ} (h0 : 0 ≤ a) (h1 : a ≤ 1) : 0 ≤ Pc a ∧ Pc a ≤ 1.5707288 := by
  unfold Pc
  have v1 : 0 ≤ -0.0187293 * a + 0.0742610 ∧ -0.0187293 * a + 0.0742610 ≤ 0.0742610 := ⟨by linarith, by linarith⟩
  have w1 : 0 ≤ (-0.0187293 * a + 0.0742610) * a ∧ (-0.0187293 * a + 0.0742610) * a ≤ 0.0742610 :=
    ⟨mul_nonneg v1.1 h0, by nlinarith⟩
  exact ⟨by nlinarith, by nlinarith⟩

/-- The square root as it is computed. -/
noncomputable def root (a : ℝ) : ℝ := N (√(N (1 - a)))

theorem root_near {a : ℝ} (ha : Format.half.Representable a) (h0 : 0 ≤ a) (h1 : a ≤ 1) :
    0 ≤ N (1 - a) ∧ 0 ≤ root a ∧ root a ≤ 1 ∧ Near (root a) √(1 - a) (1 / 1024) := by
  obtain ⟨w0, w1⟩ := N_unit (z := 1 - a) (by linarith) (by linarith)
  have e := N_one_sub ha
  have hs0 : 0 ≤ √(N (1 - a)) := Real.sqrt_nonneg _
  have hs1 : √(N (1 - a)) ≤ 1 := Real.sqrt_le_one.2 w1
  obtain ⟨r0, r1⟩ := N_unit hs0 hs1
  refine ⟨w0, r0, r1, ?_⟩
  have hc : |N (√(N (1 - a))) - √(N (1 - a))| ≤ 1 / 2048 := by
    have := N_close (k := 1) (by norm_num) (z := √(N (1 - a))) (by rw [abs_of_nonneg hs0]; norm_num; linarith)
    unfold gap at this
    norm_num at this ⊢
    exact this
  have hd : |√(N (1 - a)) - √(1 - a)| ≤ 1 / 2048 := by
    have d0 : 0 ≤ 1 - a := by linarith
    have q0 : 0 ≤ √(1 - a) := Real.sqrt_nonneg _
    have q1 : √(1 - a) ≤ 1 := Real.sqrt_le_one.2 (by linarith)
    have q2 : √(1 - a) ^ 2 = 1 - a := Real.sq_sqrt d0
    have p2 : √(N (1 - a)) ^ 2 = N (1 - a) := Real.sq_sqrt w0
    replace e : |√(N (1 - a)) ^ 2 - √(1 - a) ^ 2| ≤ 2⁻¹ ^ 11 * √(1 - a) ^ 2 := by
      rw [p2, q2]; rwa [abs_of_nonneg d0] at e
    generalize √(N (1 - a)) = p at *
    generalize √(1 - a) = q at *
    rcases eq_or_lt_of_le q0 with rfl | q0
    · have : p ^ 2 ≤ 0 := by
        have := le_trans (le_abs_self _) e
        norm_num at this ⊢
        linarith
      have : p = 0 := by nlinarith
      rw [this]; norm_num
    · rw [show p ^ 2 - q ^ 2 = (p - q) * (p + q) by ring, abs_mul, abs_of_pos (by linarith : 0 < p + q)] at e
      have h3 : |p - q| * q ≤ 1 / 2048 * q ^ 2 := by
        refine le_trans (mul_le_mul_of_nonneg_left (by linarith : q ≤ p + q) (abs_nonneg _)) (le_trans e ?_)
        norm_num
      have h4 : |p - q| * q ≤ 1 / 2048 * q * q := by rw [mul_assoc, ← sq]; exact h3
      have := le_of_mul_le_mul_right h4 q0
      linarith
  have : |N (√(N (1 - a))) - √(1 - a)| ≤ |N (√(N (1 - a))) - √(N (1 - a))| + |√(N (1 - a)) - √(1 - a)| := abs_sub_le _ _ _
  unfold Near root
  linarith

/-- The arc cosine of a number between 0 and 1 as it is computed. -/
noncomputable def arc (a : ℝ) : ℝ := N (pc a * root a)

theorem arc_near {a : ℝ} (ha : Format.half.Representable a) (h0 : 0 ≤ a) (h1 : a ≤ 1) :
    Near (arc a) (Real.arccos a) 0.00337 ∧ |arc a| < 2 := by
  obtain ⟨-, r0, r1, r2⟩ := root_near ha h0 h1
  have p := pc_near h0 h1
  obtain ⟨b0, b1⟩ := Pc_bounds h0 h1
  have q0 : 0 ≤ √(1 - a) := Real.sqrt_nonneg _
  have q1 : √(1 - a) ≤ 1 := Real.sqrt_le_one.2 (by linarith)
  have e := Pc_close h0 h1
  have m : Near (pc a * root a) (Pc a * √(1 - a)) 0.00281 := by
    unfold Near at *
    have h1 : |pc a * root a - Pc a * √(1 - a)| ≤ |pc a - Pc a| * root a + Pc a * |root a - √(1 - a)| := by
      rw [show pc a * root a - Pc a * √(1 - a) = (pc a - Pc a) * root a + Pc a * (root a - √(1 - a)) by ring]
      refine le_trans (abs_add_le _ _) (le_of_eq ?_)
      rw [abs_mul, abs_mul, abs_of_nonneg r0, abs_of_nonneg b0]
    have h2 : |pc a - Pc a| * root a ≤ 0.00127 * 1 := mul_le_mul p r1 r0 (by norm_num)
    have h3 : Pc a * |root a - √(1 - a)| ≤ 1.5707288 * (1 / 1024) := mul_le_mul b1 r2 (abs_nonneg _) (by norm_num)
    norm_num at *
    linarith
  have hb : |Pc a * √(1 - a)| ≤ 1.5707288 := by
    rw [abs_of_nonneg (mul_nonneg b0 q0)]
    nlinarith
  have m2 := m.round (k := 1) (by norm_num) (by norm_num at *; linarith)
  have g1 : gap 1 = 1 / 2048 := by unfold gap; norm_num
  rw [g1] at m2
  refine ⟨?_, m2.size (by norm_num at *; linarith)⟩
  unfold Near at *
  have : |arc a - Real.arccos a| ≤ |arc a - Pc a * √(1 - a)| + |Pc a * √(1 - a) - Real.arccos a| := abs_sub_le _ _ _
  have m3 : |arc a - Pc a * √(1 - a)| ≤ 0.00281 + 1 / 2048 := m2
  have e2 : |Pc a * √(1 - a) - Real.arccos a| ≤ 0.00007 := by nlinarith
  norm_num at *
  linarith

end LvArray.math.Rounded

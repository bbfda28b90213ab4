import Verif.MathHalfLemmas

/-!
# Rounding errors of atan2Impl
-/

namespace LvArray.math.Rounded

open LvArray Binary

/-- The polynomial of `Pa`. -/
noncomputable def At (t : ℝ) : ℝ :=
  ((((-0.013480470 * t + 0.057477314) * t - 0.121239071) * t + 0.195635925) * t - 0.332994597) * t + 0.999995630

theorem Pa_eq (r : ℝ) : Pa r = At (r ^ 2) * r := rfl

/-- The polynomial as it is computed. -/
noncomputable def pat (t : ℝ) : ℝ :=
  N (N (N (N (N (N (N (N (N (N (N (-0.013480470) * t) + N 0.057477314) * t) - N 0.121239071) * t) + N 0.195635925) * t) - N 0.332994597) * t) +
    N 0.999995630)

theorem pat_near {t : ℝ} (h0 : 0 ≤ t) (h1 : t ≤ 1) : Near (pat t) (At t) 0.00143 := by
  have c5 : Near (N (-0.013480470)) (-0.013480470) (gap (-6)) := Near.const (by norm_num) (by rw [abs_lt]; norm_num)
  have c4 : Near (N 0.057477314) 0.057477314 (gap (-4)) := Near.const (by norm_num) (by rw [abs_lt]; norm_num)
  have c3 : Near (N 0.121239071) 0.121239071 (gap (-3)) := Near.const (by norm_num) (by rw [abs_lt]; norm_num)
  have c2 : Near (N 0.195635925) 0.195635925 (gap (-2)) := Near.const (by norm_num) (by rw [abs_lt]; norm_num)
  have c1 : Near (N 0.332994597) 0.332994597 (gap (-1)) := Near.const (by norm_num) (by rw [abs_lt]; norm_num)
  have c0 : Near (N 0.999995630) 0.999995630 (gap 0) := Near.const (by norm_num) (by rw [abs_lt]; norm_num)
  have g6 : gap (-6) = 1 / 262144 := by unfold gap; norm_num
  have g4 : gap (-4) = 1 / 65536 := by unfold gap; norm_num
  have g3 : gap (-3) = 1 / 32768 := by unfold gap; norm_num
  have g2 : gap (-2) = 1 / 16384 := by unfold gap; norm_num
  have g1 : gap (-1) = 1 / 8192 := by unfold gap; norm_num
  have g0 : gap 0 = 1 / 4096 := by unfold gap; norm_num
  have gg : gap 1 = 1 / 2048 := by unfold gap; norm_num
  rw [g6] at c5; rw [g4] at c4; rw [g3] at c3; rw [g2] at c2; rw [g1] at c1; rw [g0] at c0
  have b : ∀ {v e r : ℝ}, -(r - e) < v → v < r - e → |v| + e < r := fun h h' => by
    have := abs_lt.2 ⟨h, h'⟩
    linarith
  have s1 := ((c5.scale h0 h1).round (k := -6) (by norm_num) (b (by norm_num; linarith) (by norm_num; linarith))).add c4
  rw [g6] at s1
  have s1 := s1.round (k := -4) (by norm_num) (b (by norm_num; linarith) (by norm_num; linarith))
  rw [g4] at s1
  unfold At
  have v1 : 0 ≤ -0.013480470 * t + 0.057477314 ∧ -0.013480470 * t + 0.057477314 ≤ 0.057477314 := ⟨by linarith, by linarith⟩
  generalize -0.013480470 * t + 0.057477314 = a1 at s1 v1 ⊢
  have w1 : 0 ≤ a1 * t ∧ a1 * t ≤ 0.057477314 := ⟨by nlinarith, by nlinarith⟩
  have s2 := ((s1.scale h0 h1).round (k := -4) (by norm_num) (b (by norm_num; linarith) (by norm_num; linarith))).sub c3
  rw [g4] at s2
  have s2 := s2.round (k := -3) (by norm_num) (b (by norm_num; linarith) (by norm_num; linarith))
  rw [g3] at s2
  have v2 : -0.121239071 ≤ a1 * t - 0.121239071 ∧ a1 * t - 0.121239071 ≤ 0 := ⟨by linarith, by linarith⟩
  generalize a1 * t - 0.121239071 = a2 at s2 v2 ⊢
  have w2 : -0.121239071 ≤ a2 * t ∧ a2 * t ≤ 0 := ⟨by nlinarith, by nlinarith⟩
  have s3 := ((s2.scale h0 h1).round (k := -3) (by norm_num) (b (by norm_num; linarith) (by norm_num; linarith))).add c2
  rw [g3] at s3
  have s3 := s3.round (k := -2) (by norm_num) (b (by norm_num; linarith) (by norm_num; linarith))
  rw [g2] at s3
  have v3 : 0 ≤ a2 * t + 0.195635925 ∧ a2 * t + 0.195635925 ≤ 0.195635925 := ⟨by linarith, by linarith⟩
  generalize a2 * t + 0.195635925 = a3 at s3 v3 ⊢
  have w3 : 0 ≤ a3 * t ∧ a3 * t ≤ 0.195635925 := ⟨by nlinarith, by nlinarith⟩
  have s4 := ((s3.scale h0 h1).round (k := -2) (by norm_num) (b (by norm_num; linarith) (by norm_num; linarith))).sub c1
  rw [g2] at s4
  have s4 := s4.round (k := -1) (by norm_num) (b (by norm_num; linarith) (by norm_num; linarith))
  rw [g1] at s4
  have v4 : -0.332994597 ≤ a3 * t - 0.332994597 ∧ a3 * t - 0.332994597 ≤ 0 := ⟨by linarith, by linarith⟩
  generalize a3 * t - 0.332994597 = a4 at s4 v4 ⊢
  have w4 : -0.332994597 ≤ a4 * t ∧ a4 * t ≤ 0 := ⟨by nlinarith, by nlinarith⟩
  have s5 := ((s4.scale h0 h1).round (k := -1) (by norm_num) (b (by norm_num; linarith) (by norm_num; linarith))).add c0
  rw [g1] at s5
  have s5 := s5.round (k := 1) (by norm_num) (b (by norm_num; linarith) (by norm_num; linarith))
  rw [gg] at s5
  exact s5.mono (by norm_num)

theorem At_slope {t u : ℝ} (t0 : 0 ≤ t) (t1 : t ≤ 1) (u0 : 0 ≤ u) (u1 : u ≤ 1) : |At t - At u| ≤ 0.334 * |t - u| := by
  have := Convex.norm_image_sub_le_of_norm_hasDerivWithin_le (s := Set.Icc (0 : ℝ) 1) (f := At)
    (f' := fun t => -0.332994597 + 2 * 0.195635925 * t - 3 * 0.121239071 * t ^ 2 + 4 * 0.057477314 * t ^ 3 - 5 * 0.013480470 * t ^ 4)
    (C := 0.334) (x := u) (y := t)
    (fun x _ => by
      refine HasDerivAt.hasDerivWithinAt ?_
      have h : At = fun t => 0.999995630 * t ^ 0 - 0.332994597 * t ^ 1 + 0.195635925 * t ^ 2 - 0.121239071 * t ^ 3 + 0.057477314 * t ^ 4 -
          0.013480470 * t ^ 5 := by
        funext t; unfold At; ring
      rw [h]
      have := ((((((hasDerivAt_pow 0 x).const_mul 0.999995630).sub ((hasDerivAt_pow 1 x).const_mul 0.332994597)).add
        ((hasDerivAt_pow 2 x).const_mul 0.195635925)).sub ((hasDerivAt_pow 3 x).const_mul 0.121239071)).add
        ((hasDerivAt_pow 4 x).const_mul 0.057477314)).sub ((hasDerivAt_pow 5 x).const_mul 0.013480470)
      refine this.congr_deriv ?_
      norm_num
      ring)
    (fun x hx => by
      have l := Poly.atan_slope_low hx.1 hx.2
      have h := Poly.atan_slope_high hx.1 hx.2
      rw [Real.norm_eq_abs, abs_le]
      constructor <;> norm_num at * <;> linarith)
    (convex_Icc 0 1) ⟨u0, u1⟩ ⟨t0, t1⟩
  simpa using this

/-- The arc tangent of a number between 0 and 1 as it is computed. -/
noncomputable def arct (q : ℝ) : ℝ := N (pat (N (N q * N q)) * N q)

theorem arct_near {q : ℝ} (h0 : 0 ≤ q) (h1 : q ≤ 1) : Near (arct q) (Real.arctan q) 0.00234 ∧ |arct q| < 1 := by
  obtain ⟨r0, r1⟩ := N_unit h0 h1
  have g1 : gap 1 = 1 / 2048 := by unfold gap; norm_num
  have g0 : gap 0 = 1 / 4096 := by unfold gap; norm_num
  have er := N_close (k := 1) (by norm_num) (z := q) (by rw [abs_of_nonneg h0]; norm_num; linarith)
  rw [g1] at er
  unfold arct
  generalize N q = r at r0 r1 er
  have rr0 : 0 ≤ r * r := mul_nonneg r0 r0
  have rr1 : r * r ≤ 1 := by nlinarith
  obtain ⟨t0, t1⟩ := N_unit rr0 rr1
  have et := N_close (k := 1) (by norm_num) (z := r * r) (by rw [abs_of_nonneg rr0]; norm_num; linarith)
  rw [g1] at et
  generalize N (r * r) = t at t0 t1 et
  have e1 := pat_near t0 t1
  have e2 := At_slope t0 t1 rr0 rr1
  have e3 : Near (pat t) (At (r * r)) 0.0016 := by
    have : |pat t - At (r * r)| ≤ |pat t - At t| + |At t - At (r * r)| := abs_sub_le _ _ _
    unfold Near at *
    norm_num at *
    linarith
  have e4 := e3.scale r0 r1
  have hp := Pa_close r0 r1
  rw [Pa_eq, pow_two] at hp
  have ha0 : 0 ≤ Real.arctan r := Real.arctan_nonneg.2 r0
  have ha1 : Real.arctan r ≤ Real.pi / 4 := by
    rw [← Real.arctan_one]; exact Real.arctan_strictMono.monotone r1
  have p2 := Real.pi_lt_d2
  have hpr : |At (r * r) * r - Real.arctan r| ≤ 0.000005 := by
    norm_num at *
    linarith
  have hA : |At (r * r) * r| < 0.79 := by
    rw [abs_le] at hpr
    obtain ⟨hpr1, hpr2⟩ := hpr
    rw [abs_lt]
    norm_num at hpr1 hpr2 p2 ⊢
    constructor <;> linarith
  have e5 := e4.round (k := 0) (by norm_num) (by norm_num at *; linarith)
  rw [g0] at e5
  refine ⟨?_, e5.size (by norm_num at *; linarith)⟩
  have hl : |Real.arctan r - Real.arctan q| ≤ |r - q| := by
    have := Convex.norm_image_sub_le_of_norm_hasDerivWithin_le (s := Set.univ) (f := Real.arctan) (f' := fun x => 1 / (1 + x ^ 2))
      (C := 1) (x := q) (y := r) (fun x _ => (Real.hasDerivAt_arctan x).hasDerivWithinAt)
      (fun x _ => by
        rw [Real.norm_eq_abs, abs_of_pos (by positivity), div_le_one (by positivity)]
        nlinarith [sq_nonneg x])
      convex_univ (Set.mem_univ _) (Set.mem_univ _)
    simpa using this
  have t1 : |N (pat t * r) - Real.arctan q| ≤ |N (pat t * r) - At (r * r) * r| + |At (r * r) * r - Real.arctan q| := abs_sub_le _ _ _
  have t2 : |At (r * r) * r - Real.arctan q| ≤ |At (r * r) * r - Real.arctan r| + |Real.arctan r - Real.arctan q| := abs_sub_le _ _ _
  unfold Near at *
  norm_num at *
  linarith

end LvArray.math.Rounded

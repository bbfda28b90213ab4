import Verif.Spec.Rounding
import Mathlib.Algebra.Order.Round
import Mathlib.Data.Int.Log
import Mathlib.Tactic.Linarith
import Mathlib.Tactic.Positivity
import Mathlib.Tactic.NormNum
import Mathlib.Tactic.FieldSimp
import Mathlib.Algebra.Order.Field.Power
import Mathlib.Tactic.Ring
import Mathlib.Data.Real.Archimedean
import Mathlib.Algebra.Ring.Parity
/-!
# IEEE 754 binary formats

The numbers that C68 is about exist: binary formats of any precision and range, with any rounding mode, meet the specification
`Spec.FloatingPoint`.  Nothing in /repo defines them; they model the `float` and `double` of the platform.  Infinities and NaNs are
one value, and so are the two zeros.
-/

namespace LvArray

/-- A binary format with a rounding mode: `p` significant bits, exponents from `emin` to `emax`.  `rnd` rounds to an integer; it is
exact for integers and off by at most `h`, one half for the modes that round to nearest and one for the others. -/
structure Format where
  p : Nat
  emin : Int
  emax : Int
  rnd : ℝ → Int
  h : ℝ
  p_pos : 0 < p
  emin_le : emin ≤ emax
  rnd_close : ∀ x, |x - rnd x| ≤ h
  rnd_exact : ∀ n : Int, rnd n = n
  h_le : h ≤ 1

namespace Format

variable (f : Format)

/-- The largest finite number. -/
noncomputable def huge : ℝ := (2 ^ f.p - 1) * 2 ^ (f.emax - (f.p - 1 : Int))

/-- The distance between neighbouring numbers near `x`. -/
noncomputable def ulp (x : ℝ) : ℝ := 2 ^ (max (Int.log 2 |x|) f.emin - (f.p - 1 : Int))

/-- `x` rounded. -/
noncomputable def nearest (x : ℝ) : ℝ := f.rnd (x / f.ulp x) * f.ulp x

/-- The finite numbers of the format. -/
def Representable (x : ℝ) : Prop :=
  (∃ m k : Int, x = m * 2 ^ k ∧ |m| < 2 ^ f.p ∧ f.emin - (f.p - 1 : Int) ≤ k) ∧ |x| ≤ f.huge

theorem ulp_pos (x : ℝ) : 0 < f.ulp x := by unfold ulp; positivity

theorem h_nonneg : 0 ≤ f.h := le_trans (abs_nonneg _) (f.rnd_close 0)

theorem nearest_close (x : ℝ) : |f.nearest x - x| ≤ f.h * f.ulp x := by
  have hu := f.ulp_pos x
  have h1 := f.rnd_close (x / f.ulp x)
  have h2 : f.nearest x - x = -(x / f.ulp x - f.rnd (x / f.ulp x)) * f.ulp x := by
    unfold nearest; field_simp; ring
  rw [h2, abs_mul, abs_neg, abs_of_pos hu]
  exact mul_le_mul_of_nonneg_right h1 hu.le

theorem lt_ulp (x : ℝ) : |x| < 2 ^ f.p * f.ulp x := by
  have h1 := Int.lt_zpow_succ_log_self (b := 2) (by norm_num) |x|
  have h2 : (2 : ℝ) ^ f.p * f.ulp x = 2 ^ (max (Int.log 2 |x|) f.emin + 1) := by
    unfold ulp
    rw [← zpow_natCast, ← zpow_add₀ (by norm_num)]
    congr 1; ring
  rw [h2]
  refine lt_of_lt_of_le (by exact_mod_cast h1) (zpow_le_zpow_right₀ (by norm_num) ?_)
  have := le_max_left (Int.log 2 |x|) f.emin
  omega

theorem nearest_representable (x : ℝ) (hx : |f.nearest x| ≤ f.huge) : f.Representable (f.nearest x) := by
  refine ⟨?_, hx⟩
  have hu := f.ulp_pos x
  have h1 := f.rnd_close (x / f.ulp x)
  have h2 : |x / f.ulp x| < 2 ^ f.p := by
    rw [abs_div, abs_of_pos hu, div_lt_iff₀ hu]; exact f.lt_ulp x
  have h3 : |(f.rnd (x / f.ulp x) : ℝ)| < 2 ^ f.p + 1 := by
    have := abs_sub_abs_le_abs_sub (f.rnd (x / f.ulp x) : ℝ) (x / f.ulp x)
    rw [abs_sub_comm] at this
    linarith [f.h_le]
  have h4 : |f.rnd (x / f.ulp x)| < 2 ^ f.p + 1 := by exact_mod_cast h3
  have h5 : f.emin - (f.p - 1 : Int) ≤ max (Int.log 2 |x|) f.emin - (f.p - 1 : Int) := by
    have := le_max_right (Int.log 2 |x|) f.emin
    omega
  by_cases h6 : |f.rnd (x / f.ulp x)| < 2 ^ f.p
  · exact ⟨_, _, rfl, h6, h5⟩
  · have h7 : |f.rnd (x / f.ulp x)| = 2 ^ f.p := by omega
    obtain ⟨q, hq⟩ : ∃ q, f.p = q + 1 := ⟨f.p - 1, by have := f.p_pos; omega⟩
    have h8 : (2 : Int) ^ q < 2 ^ (q + 1) := by
      rw [pow_succ]; have : (0 : Int) < 2 ^ q := by positivity
      omega
    have h9 : f.ulp x * 2 = 2 ^ (max (Int.log 2 |x|) f.emin - (f.p - 1 : Int) + 1) := by
      unfold ulp; rw [zpow_add_one₀ (by norm_num)]
    rcases eq_or_eq_neg_of_abs_eq h7 with e | e
    · refine ⟨2 ^ q, _, ?_, ?_, le_trans h5 (by omega : _ ≤ max (Int.log 2 |x|) f.emin - (f.p - 1 : Int) + 1)⟩
      · rw [← h9]; unfold nearest; rw [e, hq]; push_cast; ring
      · rw [abs_of_pos (by positivity), hq]; exact h8
    · refine ⟨-2 ^ q, _, ?_, ?_, le_trans h5 (by omega : _ ≤ max (Int.log 2 |x|) f.emin - (f.p - 1 : Int) + 1)⟩
      · rw [← h9]; unfold nearest; rw [e, hq]; push_cast; ring
      · rw [abs_neg, abs_of_pos (by positivity), hq]; exact h8

/-- In the normal range the error is relative. -/
theorem ulp_normal (x : ℝ) (hx : x ≠ 0) (hl : f.emin ≤ Int.log 2 |x|) : f.ulp x ≤ 2 ^ (1 - f.p : Int) * |x| := by
  have h1 := Int.zpow_log_le_self (b := 2) (by norm_num) (abs_pos.mpr hx)
  have h2 : f.ulp x = 2 ^ (1 - f.p : Int) * 2 ^ (Int.log 2 |x|) := by
    unfold ulp
    rw [max_eq_left hl, ← zpow_add₀ (by norm_num)]
    congr 1; ring
  rw [h2]
  exact mul_le_mul_of_nonneg_left (by exact_mod_cast h1) (by positivity)

/-- Below it the numbers are evenly spaced. -/
theorem ulp_subnormal (x : ℝ) (hl : ¬ f.emin ≤ Int.log 2 |x|) : f.ulp x = 2 ^ (f.emin - (f.p - 1 : Int)) := by
  unfold ulp; rw [max_eq_right (by omega)]

theorem nearest_zero : f.nearest 0 = 0 := by
  unfold nearest
  have := f.rnd_exact 0
  simp only [zero_div]
  rw [show (0 : ℝ) = ((0 : Int) : ℝ) by norm_num, this]; simp

/-- Rounding to the nearest integer, ties to the even one. -/
noncomputable def tiesToEven (x : ℝ) : Int :=
  if Int.fract x < 1 / 2 then ⌊x⌋ else if 1 / 2 < Int.fract x then ⌊x⌋ + 1 else if Even ⌊x⌋ then ⌊x⌋ else ⌊x⌋ + 1

theorem tiesToEven_close (x : ℝ) : |x - tiesToEven x| ≤ 1 / 2 := by
  have h0 := Int.fract_nonneg x
  have h1 := Int.fract_lt_one x
  have h2 : Int.fract x = x - ⌊x⌋ := rfl
  unfold tiesToEven
  split
  · rw [abs_le]; constructor <;> linarith
  · split
    · push_cast; rw [abs_le]; constructor <;> linarith
    · split
      · rw [abs_le]; constructor <;> linarith
      · push_cast; rw [abs_le]; constructor <;> linarith

theorem tiesToEven_exact (n : Int) : tiesToEven n = n := by
  unfold tiesToEven
  rw [Int.fract_intCast, if_pos (by norm_num), Int.floor_intCast]

/-- Rounding toward zero. -/
noncomputable def towardZero (x : ℝ) : Int := if 0 ≤ x then ⌊x⌋ else ⌈x⌉

theorem towardZero_close (x : ℝ) : |x - towardZero x| ≤ 1 := by
  unfold towardZero
  split
  · have h1 := Int.floor_le x
    have h2 := Int.lt_floor_add_one x
    rw [abs_le]; constructor <;> linarith
  · have h1 := Int.le_ceil x
    have h2 := Int.ceil_lt_add_one x
    rw [abs_le]; constructor <;> linarith

theorem towardZero_exact (n : Int) : towardZero n = n := by
  unfold towardZero; split <;> simp

/-- `double`, rounding to nearest. -/
noncomputable def double : Format where
  p := 53
  emin := -1022
  emax := 1023
  rnd := tiesToEven
  h := 1 / 2
  p_pos := by norm_num
  emin_le := by norm_num
  rnd_close := tiesToEven_close
  rnd_exact := tiesToEven_exact
  h_le := by norm_num

/-- `float`, rounding toward zero. -/
noncomputable def floatTowardZero : Format where
  p := 24
  emin := -126
  emax := 127
  rnd := towardZero
  h := 1
  p_pos := by norm_num
  emin_le := by norm_num
  rnd_close := towardZero_close
  rnd_exact := towardZero_exact
  h_le := by norm_num

end Format

/-- The values of a format: the finite numbers, and one more for the infinities and the NaNs. -/
inductive Binary (f : Format) : Type where
  | number (x : ℝ) (h : f.Representable x)
  | other

namespace Binary

variable {f : Format}

open Classical in
/-- The value nearest to a number, if it does not overflow. -/
noncomputable def ofReal (x : ℝ) : Binary f :=
  if hx : |f.nearest x| ≤ f.huge then number (f.nearest x) (f.nearest_representable x hx) else other

/-- The number. -/
noncomputable def toReal : Binary f → ℝ
  | number x _ => x
  | other => 0

def IsFinite (x : Binary f) : Prop := x ≠ other

/-- An operation on finite arguments is the exact one, rounded. -/
noncomputable def lift2 (op : ℝ → ℝ → ℝ) : Binary f → Binary f → Binary f
  | number a _, number b _ => ofReal (op a b)
  | _, _ => other

noncomputable instance : Add (Binary f) := ⟨lift2 (· + ·)⟩
noncomputable instance : Sub (Binary f) := ⟨lift2 (· - ·)⟩
noncomputable instance : Mul (Binary f) := ⟨lift2 (· * ·)⟩

theorem ofReal_finite {x : ℝ} (h : IsFinite (ofReal x : Binary f)) : toReal (ofReal x : Binary f) = f.nearest x ∧ |f.nearest x| ≤ f.huge := by
  unfold IsFinite ofReal at *
  split at h
  · rename_i hx; rw [dif_pos hx]; exact ⟨rfl, hx⟩
  · exact absurd rfl h

theorem finite_ofReal {x : ℝ} (h : |f.nearest x| ≤ f.huge) : IsFinite (ofReal x : Binary f) := by
  unfold IsFinite ofReal; rw [dif_pos h]; exact nofun

theorem lift2_finite {op : ℝ → ℝ → ℝ} {a b : Binary f} (h : IsFinite (lift2 op a b)) : IsFinite a ∧ IsFinite b := by
  cases a with
  | other => exact absurd rfl h
  | number a pa =>
    cases b with
    | other => exact absurd rfl h
    | number b pb => exact ⟨nofun, nofun⟩

theorem lift2_eq {op : ℝ → ℝ → ℝ} {a b : Binary f} (ha : IsFinite a) (hb : IsFinite b) :
    lift2 op a b = ofReal (op a.toReal b.toReal) := by
  cases a with
  | other => exact absurd rfl ha
  | number a pa =>
    cases b with
    | other => exact absurd rfl hb
    | number b pb => rfl

/-- Every number of the format is a multiple of the smallest one. -/
theorem multiple {a : Binary f} (ha : IsFinite a) : ∃ m : Int, a.toReal = m * 2 ^ (f.emin - (f.p - 1 : Int)) := by
  cases a with
  | other => exact absurd rfl ha
  | number a pa =>
    obtain ⟨⟨m, k, e, -, hk⟩, -⟩ := pa
    obtain ⟨j, hj⟩ : ∃ j : Nat, k = f.emin - (f.p - 1 : Int) + j := ⟨(k - (f.emin - (f.p - 1 : Int))).toNat, by omega⟩
    refine ⟨m * 2 ^ j, ?_⟩
    show a = _
    rw [e, hj, zpow_add₀ (by norm_num), zpow_natCast]
    push_cast; ring

theorem nearest_error (x : ℝ) : |f.nearest x - x| ≤ f.h * 2 ^ (1 - f.p : Int) * |x| + f.h * 2 ^ (f.emin - (f.p - 1 : Int)) := by
  have h0 := f.nearest_close x
  have hh := f.h_nonneg
  have p1 : 0 ≤ f.h * (2 : ℝ) ^ (f.emin - (f.p - 1 : Int)) := by positivity
  have p2 : 0 ≤ f.h * (2 : ℝ) ^ (1 - f.p : Int) * |x| := by positivity
  by_cases hl : f.emin ≤ Int.log 2 |x|
  · by_cases hx : x = 0
    · subst hx; rw [f.nearest_zero]; simpa using p1
    · have := mul_le_mul_of_nonneg_left (f.ulp_normal x hx hl) hh
      linarith
  · rw [f.ulp_subnormal x hl] at h0
    linarith

theorem nearest_error_multiple (x : ℝ) (m : Int) (e : x = m * 2 ^ (f.emin - (f.p - 1 : Int))) :
    |f.nearest x - x| ≤ f.h * 2 ^ (1 - f.p : Int) * |x| := by
  have h0 := f.nearest_close x
  have hh := f.h_nonneg
  have p2 : 0 ≤ f.h * (2 : ℝ) ^ (1 - f.p : Int) * |x| := by positivity
  by_cases hl : f.emin ≤ Int.log 2 |x|
  · by_cases hx : x = 0
    · subst hx; rw [f.nearest_zero]; simp
    · have := mul_le_mul_of_nonneg_left (f.ulp_normal x hx hl) hh
      linarith
  · have h1 : f.nearest x = x := by
      have hq : (0 : ℝ) < 2 ^ (f.emin - (f.p - 1 : Int)) := by positivity
      unfold Format.nearest
      rw [f.ulp_subnormal x hl, e, mul_div_cancel_right₀ _ hq.ne', f.rnd_exact]
    rw [h1, sub_self, abs_zero]; exact p2

theorem nearest_le {x e : ℝ} (h : |f.nearest x - x| ≤ e) : |f.nearest x| ≤ |x| + e := by
  have := abs_sub_abs_le_abs_sub (f.nearest x) x
  linarith

noncomputable instance : Spec.FloatingPoint (Binary f) where
  val := toReal
  Finite := IsFinite
  u := f.h * 2 ^ (1 - f.p : Int)
  tiny := f.h * 2 ^ (f.emin - (f.p - 1 : Int))
  huge := f.huge
  u_nonneg := by have := f.h_nonneg; positivity
  tiny_nonneg := by have := f.h_nonneg; positivity
  add_finite _ _ h := lift2_finite h
  sub_finite _ _ h := lift2_finite h
  mul_finite _ _ h := lift2_finite h
  add_close a b h := by
    obtain ⟨ha, hb⟩ := lift2_finite h
    have e : a + b = ofReal (a.toReal + b.toReal) := lift2_eq ha hb
    rw [e] at h ⊢
    rw [(ofReal_finite h).1]
    obtain ⟨m, hm⟩ := multiple ha
    obtain ⟨n, hn⟩ := multiple hb
    exact nearest_error_multiple _ (m + n) (by rw [hm, hn]; push_cast; ring)
  sub_close a b h := by
    obtain ⟨ha, hb⟩ := lift2_finite h
    have e : a - b = ofReal (a.toReal - b.toReal) := lift2_eq ha hb
    rw [e] at h ⊢
    rw [(ofReal_finite h).1]
    obtain ⟨m, hm⟩ := multiple ha
    obtain ⟨n, hn⟩ := multiple hb
    exact nearest_error_multiple _ (m - n) (by rw [hm, hn]; push_cast; ring)
  mul_close a b h := by
    obtain ⟨ha, hb⟩ := lift2_finite h
    have e : a * b = ofReal (a.toReal * b.toReal) := lift2_eq ha hb
    rw [e] at h ⊢
    rw [(ofReal_finite h).1]
    exact nearest_error _
  add_defined a b ha hb h := by
    have e : a + b = ofReal (a.toReal + b.toReal) := lift2_eq ha hb
    rw [e]
    obtain ⟨m, hm⟩ := multiple ha
    obtain ⟨n, hn⟩ := multiple hb
    refine finite_ofReal (le_trans (nearest_le (nearest_error_multiple _ (m + n) (by rw [hm, hn]; push_cast; ring))) ?_)
    linarith
  sub_defined a b ha hb h := by
    have e : a - b = ofReal (a.toReal - b.toReal) := lift2_eq ha hb
    rw [e]
    obtain ⟨m, hm⟩ := multiple ha
    obtain ⟨n, hn⟩ := multiple hb
    refine finite_ofReal (le_trans (nearest_le (nearest_error_multiple _ (m - n) (by rw [hm, hn]; push_cast; ring))) ?_)
    linarith
  mul_defined a b ha hb h := by
    have e : a * b = ofReal (a.toReal * b.toReal) := lift2_eq ha hb
    rw [e]
    refine finite_ofReal (le_trans (nearest_le (nearest_error _)) ?_)
    linarith

/-- An integer of at most `p` bits, as a value of the format. -/
theorem ofInt_representable (n : Int) (hn : |n| < 2 ^ f.p) (h0 : f.emin - (f.p - 1 : Int) ≤ 0) (h1 : (f.p - 1 : Int) ≤ f.emax) :
    f.Representable n := by
  refine ⟨⟨n, 0, by simp, hn, h0⟩, ?_⟩
  have h2 : |(n : ℝ)| ≤ 2 ^ f.p - 1 := by
    have : |n| ≤ 2 ^ f.p - 1 := by omega
    have h : ((|n| : Int) : ℝ) ≤ ((2 ^ f.p - 1 : Int) : ℝ) := Int.cast_le.mpr this
    push_cast at h; exact h
  refine le_trans h2 ?_
  unfold Format.huge
  have h3 : (1 : ℝ) ≤ 2 ^ (f.emax - (f.p - 1 : Int)) := one_le_zpow₀ (by norm_num) (by omega)
  have h4 : (0 : ℝ) ≤ 2 ^ f.p - 1 := le_trans (abs_nonneg _) h2
  nlinarith

end Binary

end LvArray

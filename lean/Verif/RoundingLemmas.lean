import Verif.Spec.Rounding
import Verif.TensorLemmas
import Verif.TensorFixed
import Mathlib.Tactic.Linarith
import Mathlib.Tactic.Positivity
import Mathlib.Tactic.GCongr
/-!
# Lemmas for rounding errors
-/

namespace LvArray.tensorOps

open Finset LvArray.Spec LvArray.Spec.FloatingPoint

variable {F : Type} [Add F] [Sub F] [Mul F] [FloatingPoint F]

/-- `Computes` together with what the steps of a computation need. -/
structure Est (x : F) (v s : ℝ) (k : Nat) (e : ℝ) : Prop where
  abs_le : |v| ≤ s
  low : 0 ≤ e
  close : Finite x → |val x - v| ≤ ((1 + u F) ^ k - 1) * s + e
  defined : (1 + u F) ^ k * s + e ≤ huge F → Finite x

theorem Est.computes {x : F} {v s e : ℝ} {k : Nat} (h : Est x v s k e) : Computes x v s k e := ⟨h.close, h.defined⟩

theorem Est.size_nonneg {x : F} {v s e : ℝ} {k : Nat} (h : Est x v s k e) : 0 ≤ s := le_trans (abs_nonneg _) h.abs_le

theorem one_le_pow (k : Nat) : 1 ≤ (1 + u F) ^ k := one_le_pow₀ (by linarith [u_nonneg (F := F)])

theorem pow_mono {k l : Nat} (h : k ≤ l) : (1 + u F) ^ k ≤ (1 + u F) ^ l :=
  pow_le_pow_right₀ (by linarith [u_nonneg (F := F)]) h

/-- An argument. -/
theorem Est.input {x : F} (h : Finite x) : Est x (val x) |val x| 0 0 := ⟨le_refl _, le_refl _, by simp, fun _ => h⟩

theorem Est.mono {x : F} {v s e e' : ℝ} {k k' : Nat} (h : Est x v s k e) (hk : k ≤ k') (he : e ≤ e') : Est x v s k' e' := by
  have hs := h.size_nonneg
  have hp := mul_le_mul_of_nonneg_right (pow_mono (F := F) hk) hs
  refine ⟨h.abs_le, le_trans h.low he, fun hf => le_trans (h.close hf) ?_, fun hh => h.defined ?_⟩
  · linarith
  · linarith

theorem Est.congr {x : F} {v s e v' s' e' : ℝ} {k k' : Nat} (h : Est x v s k e) (hv : v = v') (hs : s = s') (hk : k = k') (he : e = e') :
    Est x v' s' k' e' := by
  subst hv hs hk he; exact h

/-- The size of a computed value. -/
theorem Est.val_le {x : F} {v s e : ℝ} {k : Nat} (h : Est x v s k e) (hf : Finite x) : |val x| ≤ (1 + u F) ^ k * s + e := by
  have h1 := h.close hf
  have h2 := abs_sub_abs_le_abs_sub (val x) v
  have := h.abs_le
  linarith

theorem Est.add {x y : F} {v w s t e f : ℝ} {k : Nat} (hx : Est x v s k e) (hy : Est y w t k f) :
    Est (x + y) (v + w) (s + t) (k + 1) ((1 + u F) * (e + f)) := by
  have hu := u_nonneg (F := F)
  have he := hx.low
  have hf := hy.low
  have hs := hx.size_nonneg
  have ht := hy.size_nonneg
  have hp := one_le_pow (F := F) k
  refine ⟨le_trans (abs_add_le _ _) (add_le_add hx.abs_le hy.abs_le), by positivity, fun h => ?_, fun h => ?_⟩
  · obtain ⟨fx, fy⟩ := add_finite x y h
    have h1 := add_close x y h
    have h2 := hx.close fx
    have h3 := hy.close fy
    have h4 := hx.val_le fx
    have h5 := hy.val_le fy
    have h6 : |val x + val y| ≤ (1 + u F) ^ k * (s + t) + (e + f) := le_trans (abs_add_le _ _) (by linarith)
    have h7 : |val (x + y) - (v + w)| ≤ |val (x + y) - (val x + val y)| + (|val x - v| + |val y - w|) := by
      have : val (x + y) - (v + w) = (val (x + y) - (val x + val y)) + ((val x - v) + (val y - w)) := by ring
      rw [this]
      exact le_trans (abs_add_le _ _) (by gcongr; exact abs_add_le _ _)
    have h8 := mul_le_mul_of_nonneg_left h6 hu
    rw [pow_succ]
    nlinarith
  · have hb : (1 + u F) * ((1 + u F) ^ k * (s + t) + (e + f)) ≤ huge F := by rw [pow_succ] at h; linarith
    have hx0 : 0 ≤ (1 + u F) ^ k * s := by positivity
    have hy0 : 0 ≤ (1 + u F) ^ k * t := by positivity
    have hle : (1 + u F) ^ k * (s + t) + (e + f) ≤ huge F := by nlinarith
    have fx := hx.defined (by linarith)
    have fy := hy.defined (by linarith)
    refine add_defined x y fx fy (le_trans (mul_le_mul_of_nonneg_left ?_ (by linarith)) hb)
    have h4 := hx.val_le fx
    have h5 := hy.val_le fy
    exact le_trans (abs_add_le _ _) (by linarith)

theorem Est.sub {x y : F} {v w s t e f : ℝ} {k : Nat} (hx : Est x v s k e) (hy : Est y w t k f) :
    Est (x - y) (v - w) (s + t) (k + 1) ((1 + u F) * (e + f)) := by
  have hu := u_nonneg (F := F)
  have he := hx.low
  have hf := hy.low
  have hs := hx.size_nonneg
  have ht := hy.size_nonneg
  have hp := one_le_pow (F := F) k
  refine ⟨le_trans (abs_sub _ _) (add_le_add hx.abs_le hy.abs_le), by positivity, fun h => ?_, fun h => ?_⟩
  · obtain ⟨fx, fy⟩ := sub_finite x y h
    have h1 := sub_close x y h
    have h2 := hx.close fx
    have h3 := hy.close fy
    have h4 := hx.val_le fx
    have h5 := hy.val_le fy
    have h6 : |val x - val y| ≤ (1 + u F) ^ k * (s + t) + (e + f) := le_trans (abs_sub _ _) (by linarith)
    have h7 : |val (x - y) - (v - w)| ≤ |val (x - y) - (val x - val y)| + (|val x - v| + |val y - w|) := by
      have : val (x - y) - (v - w) = (val (x - y) - (val x - val y)) + ((val x - v) - (val y - w)) := by ring
      rw [this]
      exact le_trans (abs_add_le _ _) (by gcongr; exact abs_sub _ _)
    have h8 := mul_le_mul_of_nonneg_left h6 hu
    rw [pow_succ]
    nlinarith
  · have hb : (1 + u F) * ((1 + u F) ^ k * (s + t) + (e + f)) ≤ huge F := by rw [pow_succ] at h; linarith
    have hx0 : 0 ≤ (1 + u F) ^ k * s := by positivity
    have hy0 : 0 ≤ (1 + u F) ^ k * t := by positivity
    have hle : (1 + u F) ^ k * (s + t) + (e + f) ≤ huge F := by nlinarith
    have fx := hx.defined (by linarith)
    have fy := hy.defined (by linarith)
    refine sub_defined x y fx fy (le_trans (mul_le_mul_of_nonneg_left ?_ (by linarith)) hb)
    have h4 := hx.val_le fx
    have h5 := hy.val_le fy
    exact le_trans (abs_sub _ _) (by linarith)

/-- A product with an argument, both finite. -/
theorem Est.mul {x y : F} {v s e : ℝ} {k : Nat} (hx : Est x v s k e) (hy : Finite y)
    (hxf : Finite x) :
    Est (x * y) (v * val y) (s * |val y|) (k + 1) ((1 + u F) * (e * |val y|) + tiny F) := by
  have hu := u_nonneg (F := F)
  have htiny := tiny_nonneg (F := F)
  have he := hx.low
  have hs := hx.size_nonneg
  have hp := one_le_pow (F := F) k
  have hy0 := abs_nonneg (val y)
  have h4 := hx.val_le hxf
  have h6 : |val x * val y| ≤ (1 + u F) ^ k * (s * |val y|) + e * |val y| := by
    rw [abs_mul]
    have := mul_le_mul_of_nonneg_right h4 hy0
    linarith
  refine ⟨?_, by positivity, fun h => ?_, fun h => ?_⟩
  · rw [abs_mul]; exact mul_le_mul_of_nonneg_right hx.abs_le hy0
  · have h1 := mul_close x y h
    have h2 := mul_le_mul_of_nonneg_right (hx.close hxf) hy0
    have h7 : |val (x * y) - v * val y| ≤ |val (x * y) - val x * val y| + |val x - v| * |val y| := by
      have : val (x * y) - v * val y = (val (x * y) - val x * val y) + (val x - v) * val y := by ring
      rw [this, ← abs_mul]
      exact abs_add_le _ _
    have h8 := mul_le_mul_of_nonneg_left h6 hu
    rw [pow_succ]
    nlinarith
  · refine mul_defined x y hxf hy (le_trans ?_ h)
    have := mul_le_mul_of_nonneg_left h6 (show 0 ≤ 1 + u F by linarith)
    rw [pow_succ]
    linarith

/-- A product of arguments. -/
theorem Est.prod {x y : F} (hx : Finite x) (hy : Finite y) : Est (x * y) (val x * val y) |val x * val y| 1 (tiny F) :=
  ((Est.input hx).mul hy hx).congr rfl (abs_mul _ _).symm rfl (by ring)

/-- Accumulation of terms. -/
theorem est_loop (g : Nat → F) (w t : Nat → ℝ) (f : ℝ) : ∀ (n lo : Nat) (x : F) (v s e : ℝ) (k : Nat), Est x v s k e →
    (∀ i, lo ≤ i → i < lo + n → Est (g i) (w i) (t i) k f) → 0 ≤ f →
    Est (loop n lo (fun i x => x + g i) x) (v + ∑ i ∈ range n, w (lo + i)) (s + ∑ i ∈ range n, t (lo + i)) (k + n)
      ((1 + u F) ^ n * (e + n * f))
  | 0, lo, x, v, s, e, k, hx, _, _ => by
    refine hx.congr ?_ ?_ ?_ ?_ <;> simp
  | n + 1, lo, x, v, s, e, k, hx, hg, hf => by
    have h1 := hx.add (hg lo (le_refl _) (by omega))
    have h2 := est_loop g w t f n (lo + 1) _ _ _ _ (k + 1) h1 (fun i h h' => (hg i (by omega) (by omega)).mono (by omega) le_rfl) hf
    have hu := u_nonneg (F := F)
    have shift : ∀ (q : Nat → ℝ) (a : ℝ), a + q lo + ∑ i ∈ range n, q (lo + 1 + i) = a + ∑ i ∈ range (n + 1), q (lo + i) := by
      intro q a
      rw [sum_range_succ', Nat.add_zero]
      have : ∀ k, q (lo + 1 + k) = q (lo + (k + 1)) := fun k => by congr 1; omega
      simp only [this]; ring
    refine (h2.mono (Nat.le_refl _) ?_).congr (shift w v) (shift t s) (by omega) rfl
    have hp : 0 ≤ (1 + u F) ^ n := by positivity
    have he := hx.low
    have : (1 + u F) * (e + f) + n * f ≤ (1 + u F) * (e + (n + 1 : Nat) * f) := by
      push_cast
      have : 0 ≤ u F * (n * f) := by positivity
      nlinarith
    calc (1 + u F) ^ n * ((1 + u F) * (e + f) + n * f) ≤ (1 + u F) ^ n * ((1 + u F) * (e + (n + 1 : Nat) * f)) :=
          mul_le_mul_of_nonneg_left this hp
      _ = (1 + u F) ^ (n + 1) * (e + (n + 1 : Nat) * f) := by rw [pow_succ]; ring

/-- A sum of products that starts with the first of them. -/
theorem est_products {n : Nat} (hn : 0 < n) (a b : Nat → F) (ha : ∀ i, i < n → Finite (a i)) (hb : ∀ i, i < n → Finite (b i)) :
    Est (loop (n - 1) 1 (fun i x => x + a i * b i) (a 0 * b 0)) (∑ i ∈ range n, val (a i) * val (b i))
      (∑ i ∈ range n, |val (a i) * val (b i)|) n (n * (1 + u F) ^ (n - 1) * tiny F) := by
  have h := est_loop (fun i => a i * b i) (fun i => val (a i) * val (b i)) (fun i => |val (a i) * val (b i)|) (tiny F) (n - 1) 1
    (a 0 * b 0) _ _ _ 1 (Est.prod (ha 0 hn) (hb 0 hn)) (fun i _ h' => Est.prod (ha i (by omega)) (hb i (by omega))) tiny_nonneg
  refine h.congr ?_ ?_ (by omega) ?_
  · exact head_sum (fun i => val (a i) * val (b i)) hn
  · exact head_sum (fun i => |val (a i) * val (b i)|) hn
  · obtain ⟨m, rfl⟩ : ∃ k, n = k + 1 := ⟨n - 1, by omega⟩
    push_cast [Nat.add_sub_cancel]; ring

/-- A sum of products added to a number. -/
theorem est_add_products (n : Nat) (x : F) (hx : Finite x) (a b : Nat → F) (ha : ∀ i, i < n → Finite (a i))
    (hb : ∀ i, i < n → Finite (b i)) :
    Est (loop n 0 (fun i x => x + a i * b i) x) (val x + ∑ i ∈ range n, val (a i) * val (b i))
      (|val x| + ∑ i ∈ range n, |val (a i) * val (b i)|) (n + 1) (n * (1 + u F) ^ n * tiny F) := by
  have h := est_loop (fun i => a i * b i) (fun i => val (a i) * val (b i)) (fun i => |val (a i) * val (b i)|) (tiny F) n 0
    x _ _ _ 1 ((Est.input hx).mono (Nat.zero_le 1) le_rfl)
    (fun i _ h' => Est.prod (ha i (by omega)) (hb i (by omega))) tiny_nonneg
  refine h.congr ?_ ?_ (by omega) (by ring) <;> simp only [Nat.zero_add]

/-- Accumulation in one entry of a vector is accumulation in one number. -/
theorem loop_vec_acc {K : Type} [Add K] (i : Nat) (g : Nat → K) : ∀ (n lo : Nat) (v : Vec K),
    loop n lo (fun k v => v.put i (v i + g k)) v = v.put i (loop n lo (fun k x => x + g k) (v i))
  | 0, lo, v => by simp [loop, Vec.put_self]
  | n + 1, lo, v => by
    rw [loop, loop_vec_acc i g n (lo + 1), Vec.put_put, Vec.put_same]; rfl

/-- Accumulation in one entry of a matrix is accumulation in one number. -/
theorem loop_mat_acc {K : Type} [Add K] (i j : Nat) (g : Nat → K) : ∀ (n lo : Nat) (a : Mat K),
    loop n lo (fun k a => a.put i j (a i j + g k)) a = a.put i j (loop n lo (fun k x => x + g k) (a i j))
  | 0, lo, a => by simp [loop, Mat.put_self]
  | n + 1, lo, a => by
    rw [loop, loop_mat_acc i j g n (lo + 1), Mat.put_put, Mat.put_same]; rfl

/-- The entries of a product that starts with the first term. -/
theorem eq_product_acc {K : Type} [Add K] (g : Nat → Nat → Nat → K) (n m l : Nat) (dst : Mat K) :
    loop n 0 (fun i dst => loop m 0 (fun j dst =>
      loop (l - 1) 1 (fun k dst => dst.put i j (dst i j + g i j k)) (dst.put i j (g i j 0))) dst) dst =
    fun i j => if i < n ∧ j < m then loop (l - 1) 1 (fun k x => x + g i j k) (g i j 0) else dst i j := by
  refine loop_loop (fun i j _ => loop (l - 1) 1 (fun k x => x + g i j k) (g i j 0)) _ (fun i j a => ?_) n m dst
  rw [loop_mat_acc, Mat.put_put, Mat.put_same]

/-- The entries of a product that is added to the destination. -/
theorem add_product_acc {K : Type} [Add K] (g : Nat → Nat → Nat → K) (n m l : Nat) (dst : Mat K) :
    loop n 0 (fun i dst => loop m 0 (fun j dst => loop l 0 (fun k dst => dst.put i j (dst i j + g i j k)) dst) dst) dst =
    fun i j => if i < n ∧ j < m then loop l 0 (fun k x => x + g i j k) (dst i j) else dst i j := by
  refine loop_loop (fun i j x => loop l 0 (fun k x => x + g i j k) x) _ (fun i j a => ?_) n m dst
  rw [loop_mat_acc]

/-- The entries of a product of matrices, given the factors of the terms. -/
theorem matrix_computes {n m l : Nat} (hl : 0 < l) (dst : Nat → Nat → F) (p q : Nat → Nat → Nat → F)
    (hp : ∀ i j k, i < n → j < m → k < l → Finite (p i j k)) (hq : ∀ i j k, i < n → j < m → k < l → Finite (q i j k)) :
    MatrixComputes n m (loop n 0 (fun i (dst : Mat F) => loop m 0 (fun j (dst : Mat F) =>
        loop (l - 1) 1 (fun k (dst : Mat F) => dst.put i j (dst i j + p i j k * q i j k)) (dst.put i j (p i j 0 * q i j 0))) dst) dst) dst
      (fun i j => ∑ k ∈ range l, val (p i j k) * val (q i j k)) (fun i j => ∑ k ∈ range l, |val (p i j k) * val (q i j k)|) l
      (l * (1 + u F) ^ (l - 1) * tiny F) := by
  refine ⟨fun i j hi hj => ?_, fun i j h => ?_⟩
  · rw [eq_product_acc fun i j k => p i j k * q i j k]
    simp only [hi, hj, and_self, if_true]
    exact (est_products hl (p i j) (q i j) (fun k hk => hp i j k hi hj hk) (fun k hk => hq i j k hi hj hk)).computes
  · rw [eq_product_acc fun i j k => p i j k * q i j k]
    simp only [h, if_false]

/-- The same for a product that is added. -/
theorem matrix_add_computes {n m l : Nat} (dst : Nat → Nat → F) (p q : Nat → Nat → Nat → F)
    (hd : ∀ i j, i < n → j < m → Finite (dst i j))
    (hp : ∀ i j k, i < n → j < m → k < l → Finite (p i j k)) (hq : ∀ i j k, i < n → j < m → k < l → Finite (q i j k)) :
    MatrixComputes n m (loop n 0 (fun i (dst : Mat F) => loop m 0 (fun j (dst : Mat F) =>
        loop l 0 (fun k (dst : Mat F) => dst.put i j (dst i j + p i j k * q i j k)) dst) dst) dst) dst
      (fun i j => val (dst i j) + ∑ k ∈ range l, val (p i j k) * val (q i j k))
      (fun i j => |val (dst i j)| + ∑ k ∈ range l, |val (p i j k) * val (q i j k)|) (l + 1)
      (l * (1 + u F) ^ l * tiny F) := by
  refine ⟨fun i j hi hj => ?_, fun i j h => ?_⟩
  · rw [add_product_acc fun i j k => p i j k * q i j k]
    simp only [hi, hj, and_self, if_true]
    exact (est_add_products l _ (hd i j hi hj) (p i j) (q i j) (fun k hk => hp i j k hi hj hk)
      (fun k hk => hq i j k hi hj hk)).computes
  · rw [add_product_acc fun i j k => p i j k * q i j k]
    simp only [h, if_false]

theorem vec_computes {n : Nat} (v : Nat → F) (g : Nat → F → F) (f : Nat → Vec F → Vec F)
    (hf : ∀ i v, f i v = v.put i (g i (v i))) {w s : Nat → ℝ} {k : Nat} {e : ℝ}
    (h : ∀ i, i < n → Est (g i (v i)) (w i) (s i) k e) : VectorComputes n (loop n 0 f v) v w s k e := by
  rw [loop_vec g f hf]
  refine ⟨fun i hi => ?_, fun i hi => ?_⟩
  · simp only [Nat.zero_le, Nat.zero_add, hi, and_self, if_true]; exact (h i hi).computes
  · simp only [Nat.zero_add, hi, and_false, if_false]

theorem mat_computes {n m : Nat} (a : Nat → Nat → F) (g : Nat → Nat → F → F) (f : Nat → Nat → Mat F → Mat F)
    (hf : ∀ i j a, f i j a = a.put i j (g i j (a i j))) {w s : Nat → Nat → ℝ} {k : Nat} {e : ℝ}
    (h : ∀ i j, i < n → j < m → Est (g i j (a i j)) (w i j) (s i j) k e) :
    MatrixComputes n m (loop n 0 (fun i a => loop m 0 (f i) a) a) a w s k e := by
  rw [loop_loop g f hf]
  refine ⟨fun i j hi hj => ?_, fun i j hij => ?_⟩
  · simp only [hi, hj, and_self, if_true]; exact (h i j hi hj).computes
  · simp only [hij, if_false]

theorem est_sum {x y : F} (hx : Finite x) (hy : Finite y) : Est (x + y) (val x + val y) (|val x| + |val y|) 1 0 :=
  ((Est.input hx).add (Est.input hy)).congr rfl rfl rfl (by ring)

theorem est_difference {x y : F} (hx : Finite x) (hy : Finite y) : Est (x - y) (val x - val y) (|val x| + |val y|) 1 0 :=
  ((Est.input hx).sub (Est.input hy)).congr rfl rfl rfl (by ring)

theorem est_multiply_add {x y z : F} (hx : Finite x) (hy : Finite y) (hz : Finite z) :
    Est (x + y * z) (val x + val y * val z) (|val x| + |val y * val z|) 2 ((1 + u F) * tiny F) :=
  (((Est.input hx).mono (Nat.zero_le 1) le_rfl).add (Est.prod hy hz)).congr rfl rfl rfl (by ring)

/-- A product with an argument on the left. -/
theorem Est.lmul {x y : F} {v s e : ℝ} {k : Nat} (hx : Est x v s k e) (hy : Finite y) (hxf : Finite x) :
    Est (y * x) (val y * v) (|val y| * s) (k + 1) ((1 + u F) * (e * |val y|) + tiny F) := by
  have hu := u_nonneg (F := F)
  have htiny := tiny_nonneg (F := F)
  have he := hx.low
  have hs := hx.size_nonneg
  have hp := one_le_pow (F := F) k
  have hy0 := abs_nonneg (val y)
  have h4 := hx.val_le hxf
  have h6 : |val y * val x| ≤ (1 + u F) ^ k * (|val y| * s) + e * |val y| := by
    rw [abs_mul]
    have := mul_le_mul_of_nonneg_left h4 hy0
    linarith
  refine ⟨?_, by positivity, fun h => ?_, fun h => ?_⟩
  · rw [abs_mul]; exact mul_le_mul_of_nonneg_left hx.abs_le hy0
  · have h1 := mul_close y x h
    have h2 := mul_le_mul_of_nonneg_left (hx.close hxf) hy0
    have h7 : |val (y * x) - val y * v| ≤ |val (y * x) - val y * val x| + |val y| * |val x - v| := by
      have : val (y * x) - val y * v = (val (y * x) - val y * val x) + val y * (val x - v) := by ring
      rw [this, ← abs_mul]
      exact abs_add_le _ _
    have h8 := mul_le_mul_of_nonneg_left h6 hu
    rw [pow_succ]
    nlinarith
  · refine mul_defined y x hy hxf (le_trans ?_ h)
    have := mul_le_mul_of_nonneg_left h6 (show 0 ≤ 1 + u F by linarith)
    rw [pow_succ]
    linarith

/-- A difference of products of arguments. -/
theorem est_minor {a b c d : F} (ha : Finite a) (hb : Finite b) (hc : Finite c) (hd : Finite d) :
    Est (a * b - c * d) (val a * val b - val c * val d) (|val a * val b| + |val c * val d|) 2 (2 * (1 + u F) * tiny F) :=
  ((Est.prod ha hb).sub (Est.prod hc hd)).congr rfl rfl rfl (by ring)

theorem est_two {a b c d : F} (ha : Finite a) (hb : Finite b) (hc : Finite c) (hd : Finite d) :
    Est (a * b + c * d) (val a * val b + val c * val d) (|val a * val b| + |val c * val d|) 2 (2 * (1 + u F) * tiny F) :=
  ((Est.prod ha hb).add (Est.prod hc hd)).congr rfl rfl rfl (by ring)

theorem est_three {a b c d e f : F} (ha : Finite a) (hb : Finite b) (hc : Finite c) (hd : Finite d) (he : Finite e) (hf : Finite f) :
    Est (a * b + c * d + e * f) (val a * val b + val c * val d + val e * val f)
      (|val a * val b| + |val c * val d| + |val e * val f|) 3 (3 * (1 + u F) ^ 2 * tiny F) := by
  have h := (est_two ha hb hc hd).add ((Est.prod he hf).mono (show 1 ≤ 2 by omega) le_rfl)
  have hu := u_nonneg (F := F)
  have htiny := tiny_nonneg (F := F)
  refine h.mono le_rfl ?_
  have : 0 ≤ (1 + u F) * u F * tiny F := by positivity
  nlinarith

theorem est_add_two {x a b c d : F} (hx : Finite x) (ha : Finite a) (hb : Finite b) (hc : Finite c) (hd : Finite d) :
    Est (x + a * b + c * d) (val x + (val a * val b + val c * val d)) (|val x| + (|val a * val b| + |val c * val d|)) 3
      (2 * (1 + u F) ^ 2 * tiny F) := by
  have h := (est_multiply_add hx ha hb).add ((Est.prod hc hd).mono (show 1 ≤ 2 by omega) le_rfl)
  have hu := u_nonneg (F := F)
  have htiny := tiny_nonneg (F := F)
  refine (h.congr (by ring) (by ring) rfl rfl).mono le_rfl ?_
  have : 0 ≤ (1 + u F) * u F * tiny F := by positivity
  nlinarith

theorem est_add_three {x a b c d e f : F} (hx : Finite x) (ha : Finite a) (hb : Finite b) (hc : Finite c) (hd : Finite d)
    (he : Finite e) (hf : Finite f) :
    Est (x + a * b + c * d + e * f) (val x + (val a * val b + val c * val d + val e * val f))
      (|val x| + (|val a * val b| + |val c * val d| + |val e * val f|)) 4 (3 * (1 + u F) ^ 3 * tiny F) := by
  have h := (est_add_two hx ha hb hc hd).add ((Est.prod he hf).mono (show 1 ≤ 3 by omega) le_rfl)
  have hu := u_nonneg (F := F)
  have htiny := tiny_nonneg (F := F)
  refine (h.congr (by ring) (by ring) rfl rfl).mono le_rfl ?_
  have : tiny F ≤ (1 + u F) ^ 2 * tiny F := le_mul_of_one_le_left htiny (one_le_pow 2)
  have := mul_le_mul_of_nonneg_left this (show 0 ≤ 1 + u F by linarith)
  nlinarith

/-- The determinant of size three, once the three minors are finite. -/
theorem est_determinant3 (a : Mat F) (ha : ∀ i j, i < 3 → j < 3 → Finite (a i j))
    (h0 : Finite (a 1 1 * a 2 2 - a 1 2 * a 2 1)) (h1 : Finite (a 0 2 * a 2 1 - a 0 1 * a 2 2))
    (h2 : Finite (a 0 1 * a 1 2 - a 0 2 * a 1 1)) :
    Est (determinant3 a) (determinant3 fun i j => val (a i j)) (terms3 fun i j => val (a i j)) 5
      ((1 + u F) ^ 4 * (3 + 2 * (|val (a 0 0)| + |val (a 1 0)| + |val (a 2 0)|)) * tiny F) := by
  have hu := u_nonneg (F := F)
  have htiny := tiny_nonneg (F := F)
  have f : ∀ i j, i < 3 → j < 3 → Finite (a i j) := ha
  have e0 := (est_minor (f 1 1 (by omega) (by omega)) (f 2 2 (by omega) (by omega)) (f 1 2 (by omega) (by omega))
    (f 2 1 (by omega) (by omega))).lmul (f 0 0 (by omega) (by omega)) h0
  have e1 := (est_minor (f 0 2 (by omega) (by omega)) (f 2 1 (by omega) (by omega)) (f 0 1 (by omega) (by omega))
    (f 2 2 (by omega) (by omega))).lmul (f 1 0 (by omega) (by omega)) h1
  have e2 := (est_minor (f 0 1 (by omega) (by omega)) (f 1 2 (by omega) (by omega)) (f 0 2 (by omega) (by omega))
    (f 1 1 (by omega) (by omega))).lmul (f 2 0 (by omega) (by omega)) h2
  have e := (e0.add e1).add (e2.mono (show 2 + 1 ≤ 3 + 1 by omega) le_rfl)
  refine (e.congr rfl ?_ rfl rfl).mono le_rfl ?_
  · simp only [terms3, abs_mul]; ring
  · have p1 := one_le_pow (F := F) 2
    have q0 := abs_nonneg (val (a 0 0))
    have q1 := abs_nonneg (val (a 1 0))
    have q2 := abs_nonneg (val (a 2 0))
    have p2 : (1 + u F) * tiny F ≤ (1 + u F) ^ 4 * tiny F :=
      mul_le_mul_of_nonneg_right (by simpa using pow_mono (F := F) (show 1 ≤ 4 by omega)) htiny
    have p3 : (1 + u F) ^ 2 * tiny F ≤ (1 + u F) ^ 4 * tiny F :=
      mul_le_mul_of_nonneg_right (pow_mono (F := F) (show 2 ≤ 4 by omega)) htiny
    have p4 : (1 + u F) ^ 3 * tiny F ≤ (1 + u F) ^ 4 * tiny F :=
      mul_le_mul_of_nonneg_right (pow_mono (F := F) (show 3 ≤ 4 by omega)) htiny
    have r := mul_le_mul_of_nonneg_right p4 q2
    nlinarith

end LvArray.tensorOps

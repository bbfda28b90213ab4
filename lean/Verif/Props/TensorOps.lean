import Verif.TensorLemmas
import Verif.Spec.Tensor
import Mathlib.Algebra.Order.Group.Abs
import Mathlib.Algebra.Order.Ring.Int

/-!
# C40: `tensorOps` computes the index expressions for all sizes
-/

namespace LvArray.Props

open LvArray.tensorOps Spec Finset

/-- `fill` and `copy` of vectors and matrices. -/
theorem C40_fill_copy {K : Type} (n m : Nat) (v w : Vec K) (a b : Mat K) (x : K) :
    VectorIs n (fill n v x) v (fun _ => x) ∧
    MatrixIs n m (fillMat n m a x) a (fun _ _ => x) ∧
    VectorIs n (copy n v w) v w ∧
    MatrixIs n m (copyMat n m a b) a b := by
  refine ⟨?_, ?_, ?_, ?_⟩
  · rw [fill, loop_vec (fun _ _ => x) _ (fun _ _ => rfl)]
    exact ⟨fun i h => if_pos (by omega), fun i h => if_neg (by omega)⟩
  · rw [fillMat, loop_loop (fun _ _ _ => x) _ (fun _ _ _ => rfl)]
    exact ⟨fun i j h h' => if_pos (by omega), fun i j h => if_neg (by omega)⟩
  · rw [copy, loop_vec (fun i _ => w i) _ (fun _ _ => rfl)]
    exact ⟨fun i h => if_pos (by omega), fun i h => if_neg (by omega)⟩
  · rw [copyMat, loop_loop (fun i j _ => b i j) _ (fun _ _ _ => rfl)]
    exact ⟨fun i j h h' => if_pos (by omega), fun i j h => if_neg (by omega)⟩

section Ring

variable {K : Type} [CommRing K]

/-- The operations on the entries of a vector. -/
theorem C40_vector (n : Nat) (v w u : Vec K) (x : K) :
    VectorIs n (scale n v x) v (fun i => v i * x) ∧
    VectorIs n (scaledCopy n v w x) v (fun i => x * w i) ∧
    VectorIs n (addScalar n v x) v (fun i => v i + x) ∧
    VectorIs n (add n v w) v (fun i => v i + w i) ∧
    VectorIs n (subtract n v w) v (fun i => v i - w i) ∧
    VectorIs n (scaledAdd n v w x) v (fun i => v i + x * w i) ∧
    VectorIs n (hadamardProduct n v w u) v (fun i => w i * u i) := by
  refine ⟨?_, ?_, ?_, ?_, ?_, ?_, ?_⟩
  · rw [scale, loop_vec (fun _ y => y * x) _ (fun _ _ => rfl)]
    exact ⟨fun i h => if_pos (by omega), fun i h => if_neg (by omega)⟩
  · rw [scaledCopy, loop_vec (fun i _ => x * w i) _ (fun _ _ => rfl)]
    exact ⟨fun i h => if_pos (by omega), fun i h => if_neg (by omega)⟩
  · rw [addScalar, loop_vec (fun _ y => y + x) _ (fun _ _ => rfl)]
    exact ⟨fun i h => if_pos (by omega), fun i h => if_neg (by omega)⟩
  · rw [add, loop_vec (fun i y => y + w i) _ (fun _ _ => rfl)]
    exact ⟨fun i h => if_pos (by omega), fun i h => if_neg (by omega)⟩
  · rw [subtract, loop_vec (fun i y => y - w i) _ (fun _ _ => rfl)]
    exact ⟨fun i h => if_pos (by omega), fun i h => if_neg (by omega)⟩
  · rw [scaledAdd, loop_vec (fun i y => y + x * w i) _ (fun _ _ => rfl)]
    exact ⟨fun i h => if_pos (by omega), fun i h => if_neg (by omega)⟩
  · rw [hadamardProduct, loop_vec (fun i _ => w i * u i) _ (fun _ _ => rfl)]
    exact ⟨fun i h => if_pos (by omega), fun i h => if_neg (by omega)⟩

/-- The operations on the entries of a matrix. -/
theorem C40_matrix (n m : Nat) (a b : Mat K) (x : K) :
    MatrixIs n m (scaleMat n m a x) a (fun i j => a i j * x) ∧
    MatrixIs n m (scaledCopyMat n m a b x) a (fun i j => x * b i j) ∧
    MatrixIs n m (addMat n m a b) a (fun i j => a i j + b i j) ∧
    MatrixIs n m (scaledAddMat n m a b x) a (fun i j => a i j + x * b i j) := by
  refine ⟨?_, ?_, ?_, ?_⟩
  · rw [scaleMat, loop_loop (fun _ _ y => y * x) _ (fun _ _ _ => rfl)]
    exact ⟨fun i j h h' => if_pos (by omega), fun i j h => if_neg (by omega)⟩
  · rw [scaledCopyMat, loop_loop (fun i j _ => x * b i j) _ (fun _ _ _ => rfl)]
    exact ⟨fun i j h h' => if_pos (by omega), fun i j h => if_neg (by omega)⟩
  · rw [addMat, loop_loop (fun i j y => y + b i j) _ (fun _ _ _ => rfl)]
    exact ⟨fun i j h h' => if_pos (by omega), fun i j h => if_neg (by omega)⟩
  · rw [scaledAddMat, loop_loop (fun i j y => y + x * b i j) _ (fun _ _ _ => rfl)]
    exact ⟨fun i j h h' => if_pos (by omega), fun i j h => if_neg (by omega)⟩

/-- Inner products, for every positive size (the code has a `static_assert`). -/
theorem C40_inner {n : Nat} (hn : 0 < n) (v w : Vec K) :
    AiBi n v w = ∑ i ∈ range n, v i * w i ∧
    l2NormSquared n v = ∑ i ∈ range n, v i ^ 2 := by
  constructor
  · rw [AiBi, loop_sum (fun i => v i * w i), head_sum (fun i => v i * w i) hn]
  · rw [l2NormSquared, loop_sum (fun i => v i * v i), head_sum (fun i => v i * v i) hn]
    exact sum_congr rfl fun i _ => (pow_two _).symm

/-- The cross product: antisymmetric, and orthogonal to both arguments. -/
theorem C40_cross (dst v w : Vec K) :
    VectorIs 3 (crossProduct dst v w) dst
      (fun i => v ((i + 1) % 3) * w ((i + 2) % 3) - v ((i + 2) % 3) * w ((i + 1) % 3)) ∧
    ∑ i ∈ range 3, v i * crossProduct dst v w i = 0 ∧
    ∑ i ∈ range 3, w i * crossProduct dst v w i = 0 := by
  have e0 : crossProduct dst v w 0 = v 1 * w 2 - v 2 * w 1 := rfl
  have e1 : crossProduct dst v w 1 = v 2 * w 0 - v 0 * w 2 := rfl
  have e2 : crossProduct dst v w 2 = v 0 * w 1 - v 1 * w 0 := rfl
  refine ⟨⟨fun i h => ?_, fun i h => ?_⟩, ?_, ?_⟩
  · obtain rfl | rfl | rfl : i = 0 ∨ i = 1 ∨ i = 2 := by omega
    · exact e0
    · exact e1
    · exact e2
  · simp only [crossProduct, Vec.put]
    rw [if_neg (by omega), if_neg (by omega), if_neg (by omega)]
  · simp only [sum_range_succ, sum_range_zero, e0, e1, e2]; ring
  · simp only [sum_range_succ, sum_range_zero, e0, e1, e2]; ring

/-- Outer products. -/
theorem C40_outer (n m : Nat) (dst : Mat K) (v w : Vec K) :
    MatrixIs n m (Rij_eq_AiBj n m dst v w) dst (fun i j => v i * w j) ∧
    MatrixIs n m (Rij_add_AiBj n m dst v w) dst (fun i j => dst i j + v i * w j) := by
  constructor
  · rw [Rij_eq_AiBj, loop_loop (fun i j _ => v i * w j) _ (fun _ _ _ => rfl)]
    exact ⟨fun i j h h' => if_pos (by omega), fun i j h => if_neg (by omega)⟩
  · rw [Rij_add_AiBj, loop_loop (fun i j y => y + v i * w j) _ (fun _ _ _ => rfl)]
    exact ⟨fun i j h h' => if_pos (by omega), fun i j h => if_neg (by omega)⟩

/-- Products of a matrix and a vector. -/
theorem C40_matrix_vector (n : Nat) {m : Nat} (hm : 0 < m) (dst : Vec K) (a : Mat K) (v : Vec K) :
    VectorIs n (Ri_eq_AijBj n m dst a v) dst (fun i => ∑ j ∈ range m, a i j * v j) ∧
    VectorIs n (Ri_add_AijBj n m dst a v) dst (fun i => dst i + ∑ j ∈ range m, a i j * v j) ∧
    VectorIs n (Ri_eq_AjiBj n m dst a v) dst (fun i => ∑ j ∈ range m, a j i * v j) ∧
    VectorIs n (Ri_add_AjiBj n m dst a v) dst (fun i => dst i + ∑ j ∈ range m, a j i * v j) := by
  refine ⟨?_, ?_, ?_, ?_⟩
  · rw [Ri_eq_AijBj, loop_vec (fun i _ => ∑ j ∈ range m, a i j * v j) _ (fun i d => by
      rw [loop_vec_sum i (fun j => a i j * v j), Vec.put_put, Vec.put_same, head_sum (fun j => a i j * v j) hm])]
    exact ⟨fun i h => if_pos (by omega), fun i h => if_neg (by omega)⟩
  · rw [Ri_add_AijBj, loop_vec (fun i y => y + ∑ j ∈ range m, a i j * v j) _ (fun i d => by
      rw [loop_vec_sum i (fun j => a i j * v j)]; simp only [Nat.zero_add])]
    exact ⟨fun i h => if_pos (by omega), fun i h => if_neg (by omega)⟩
  · rw [Ri_eq_AjiBj, loop_vec (fun i _ => ∑ j ∈ range m, a j i * v j) _ (fun i d => by
      rw [loop_vec_sum i (fun j => a j i * v j), Vec.put_put, Vec.put_same, head_sum (fun j => a j i * v j) hm])]
    exact ⟨fun i h => if_pos (by omega), fun i h => if_neg (by omega)⟩
  · rw [Ri_add_AjiBj, loop_vec (fun i y => y + ∑ j ∈ range m, a j i * v j) _ (fun i d => by
      rw [loop_vec_sum i (fun j => a j i * v j)]; simp only [Nat.zero_add])]
    exact ⟨fun i h => if_pos (by omega), fun i h => if_neg (by omega)⟩

/-- Products of matrices. -/
theorem C40_matrix_matrix (n m : Nat) {l : Nat} (hl : 0 < l) (dst a b : Mat K) :
    MatrixIs n m (Rij_eq_AikBkj n m l dst a b) dst (fun i j => ∑ k ∈ range l, a i k * b k j) ∧
    MatrixIs n m (Rij_add_AikBkj n m l dst a b) dst (fun i j => dst i j + ∑ k ∈ range l, a i k * b k j) ∧
    MatrixIs n m (Rij_eq_AikBjk n m l dst a b) dst (fun i j => ∑ k ∈ range l, a i k * b j k) ∧
    MatrixIs n m (Rij_add_AikBjk n m l dst a b) dst (fun i j => dst i j + ∑ k ∈ range l, a i k * b j k) ∧
    MatrixIs n m (Rij_eq_AkiBkj n m l dst a b) dst (fun i j => ∑ k ∈ range l, a k i * b k j) ∧
    MatrixIs n m (Rij_add_AkiBkj n m l dst a b) dst (fun i j => dst i j + ∑ k ∈ range l, a k i * b k j) ∧
    MatrixIs n n (Rij_add_AikAjk n l dst a) dst (fun i j => dst i j + ∑ k ∈ range l, a i k * a j k) ∧
    MatrixIs n n (Rij_eq_AkiAkj n l dst a) dst (fun i j => ∑ k ∈ range l, a k i * a k j) := by
  refine ⟨?_, ?_, ?_, ?_, ?_, ?_, ?_, ?_⟩
  · rw [Rij_eq_AikBkj, eq_product (fun i j k => a i k * b k j) hl]
    exact ⟨fun i j h h' => if_pos (by omega), fun i j h => if_neg (by omega)⟩
  · rw [Rij_add_AikBkj, add_product (fun i j k => a i k * b k j)]
    exact ⟨fun i j h h' => if_pos (by omega), fun i j h => if_neg (by omega)⟩
  · rw [Rij_eq_AikBjk, eq_product (fun i j k => a i k * b j k) hl]
    exact ⟨fun i j h h' => if_pos (by omega), fun i j h => if_neg (by omega)⟩
  · rw [Rij_add_AikBjk, add_product (fun i j k => a i k * b j k)]
    exact ⟨fun i j h h' => if_pos (by omega), fun i j h => if_neg (by omega)⟩
  · rw [Rij_eq_AkiBkj, eq_product (fun i j k => a k i * b k j) hl]
    exact ⟨fun i j h h' => if_pos (by omega), fun i j h => if_neg (by omega)⟩
  · rw [Rij_add_AkiBkj, add_product (fun i j k => a k i * b k j)]
    exact ⟨fun i j h h' => if_pos (by omega), fun i j h => if_neg (by omega)⟩
  · rw [Rij_add_AikAjk, add_product (fun i j k => a i k * a j k)]
    exact ⟨fun i j h h' => if_pos (by omega), fun i j h => if_neg (by omega)⟩
  · rw [Rij_eq_AkiAkj, eq_product (fun i j k => a k i * a k j) hl]
    exact ⟨fun i j h h' => if_pos (by omega), fun i j h => if_neg (by omega)⟩

/-- The product of square matrices is the product of matrices. -/
theorem C40_product (n : Nat) (hn : 0 < n) (dst a b : Mat K) :
    square n (Rij_eq_AikBkj n n n dst a b) = square n a * square n b ∧
    square n (Rij_eq_AikBjk n n n dst a b) = square n a * (square n b).transpose ∧
    square n (Rij_eq_AkiBkj n n n dst a b) = (square n a).transpose * square n b := by
  obtain ⟨h1, _, h3, _, h5, _⟩ := C40_matrix_matrix n n hn dst a b
  refine ⟨?_, ?_, ?_⟩
  · ext i j
    rw [Matrix.mul_apply]
    exact (h1.1 i j i.2 j.2).trans (Finset.sum_range (fun k => a i k * b k j))
  · ext i j
    rw [Matrix.mul_apply]
    exact (h3.1 i j i.2 j.2).trans (Finset.sum_range (fun k => a i k * b j k))
  · ext i j
    rw [Matrix.mul_apply]
    exact (h5.1 i j i.2 j.2).trans (Finset.sum_range (fun k => a k i * b k j))

/-- Adding a multiple of the identity, and the trace, also of a symmetric matrix, whose diagonal is packed first. -/
theorem C40_diagonal {n : Nat} (hn : 0 < n) (a : Mat K) (s : Vec K) (x : K) :
    MatrixIs n n (addIdentity n a x) a (fun i j => a i j + if i = j then x else 0) ∧
    VectorIs (symSize n) (symAddIdentity n s x) s (fun i => s i + if i < n then x else 0) ∧
    trace n a = ∑ i ∈ range n, a i i ∧
    symTrace n s = ∑ i ∈ range n, s i := by
  have hs : n ≤ symSize n := by
    unfold symSize
    rw [Nat.le_div_iff_mul_le (by omega)]
    exact Nat.mul_le_mul_left n (by omega)
  refine ⟨?_, ?_, ?_, ?_⟩
  · have key : ∀ k l, addIdentity n a x k l = if k < n ∧ l = k then a k l + x else a k l := fun k l => by
      obtain ⟨h1, h2⟩ := loop_mat (fun i k l => k = i ∧ l = i) (fun _ _ y => y + x) (fun i a => a.put i i (a i i + x))
        (fun _ _ _ _ h h' => h.1.symm.trans h'.1)
        (fun i a => by
          funext k l; simp only [Mat.put]
          by_cases h : k = i ∧ l = i
          · rw [if_pos h, if_pos h, h.1, h.2]
          · rw [if_neg h, if_neg h]) n 0 a k l
      by_cases h : k < n ∧ l = k
      · rw [if_pos h]; exact h1 ⟨k, by omega, by omega, rfl, h.2⟩
      · rw [if_neg h]; exact h2 fun ⟨j, ha, hb, hc, hd⟩ => h ⟨by omega, by omega⟩
    refine ⟨fun i j hi hj => ?_, fun i j h => ?_⟩
    · rw [key]
      show _ = a i j + if i = j then x else 0
      by_cases h : i = j
      · rw [if_pos ⟨hi, h.symm⟩, if_pos h]
      · rw [if_neg (fun h' => h h'.2.symm), if_neg h, add_zero]
    · rw [key, if_neg (by omega)]
  · rw [symAddIdentity, loop_vec (fun _ y => y + x) _ (fun _ _ => rfl)]
    refine ⟨fun i h => ?_, fun i h => if_neg (by omega)⟩
    show (if 0 ≤ i ∧ i < 0 + n then s i + x else s i) = s i + if i < n then x else 0
    by_cases h' : i < n
    · rw [if_pos (by omega), if_pos h']
    · rw [if_neg (by omega), if_neg h', add_zero]
  · rw [tensorOps.trace, loop_sum (fun i => a i i), head_sum (fun i => a i i) hn]
  · rw [symTrace, loop_sum s, head_sum s hn]

end Ring

/-- Both forms of `transpose`. -/
theorem C40_transpose {K : Type} (n m : Nat) (dst src : Mat K) :
    MatrixIs n m (transpose n m dst src) dst (fun i j => src j i) ∧
    MatrixIs n n (transposeInPlace n src) src (fun i j => src j i) := by
  constructor
  · have key : ∀ k l, transpose n m dst src k l = if k < n ∧ l < m then src l k else dst k l := fun k l => by
      obtain ⟨h1, h2⟩ := loop_mat (fun i k l => l = i ∧ 0 ≤ k ∧ k < 0 + n) (fun k l _ => src l k)
        (fun i dst => loop n 0 (fun j dst => dst.put j i (src i j)) dst) (fun _ _ _ _ h h' => h.1.symm.trans h'.1)
        (fun i a => loop_col i (fun k l _ => src l k) (fun j dst => dst.put j i (src i j)) (fun _ _ => rfl) n 0 a) m 0 dst k l
      by_cases h : k < n ∧ l < m
      · rw [if_pos h]; exact h1 ⟨l, by omega, by omega, rfl, by omega, by omega⟩
      · rw [if_neg h]; exact h2 fun ⟨j, ha, hb, hc, hd⟩ => h ⟨by omega, by omega⟩
    exact ⟨fun i j h h' => (key i j).trans (if_pos (by omega)), fun i j h => (key i j).trans (if_neg (by omega))⟩
  · rw [transposeInPlace, loop_transpose n n 0 src (by omega)]
    exact ⟨fun i j h h' => if_pos (by omega), fun i j h => if_neg (by omega)⟩

/-- The largest absolute value: it is that of an entry and no entry has a larger one. -/
theorem C40_maxAbsoluteEntry {K : Type} [LinearOrder K] [AddGroup K] {n : Nat} (hn : 0 < n) (v : Vec K) :
    (∃ i, i < n ∧ maxAbsoluteEntry n v = |v i|) ∧ ∀ i, i < n → |v i| ≤ maxAbsoluteEntry n v := by
  obtain ⟨h1, h2, h3⟩ := loop_max (fun i => |v i|) n 0 |v 0|
  refine ⟨?_, fun i h => h3 i (by omega) (by omega)⟩
  rcases h1 with h1 | ⟨i, _, h, h'⟩
  · exact ⟨0, hn, h1⟩
  · exact ⟨i, by omega, h'⟩

/-! ## The hypotheses are met and the results are not trivial -/

example : Rij_eq_AikBkj 2 2 3 (fun _ _ => 7) (fun i k => (i : Int) + 2 * k) (fun k j => (k : Int) * k - j) 1 1 = 1 * -1 + 3 * 0 + 5 * 3 := by
  decide

example : Rij_add_AikBjk 2 2 3 (fun _ _ => 7) (fun i k => (i : Int) + 2 * k) (fun j k => (k : Int) * k - j) 1 1 = 21 := by decide

example : transposeInPlace 3 (fun i j => 10 * i + j) 2 1 = 12 := by decide

example : transpose 2 3 (fun _ _ => 0) (fun i j => 10 * i + j) 1 2 = 21 := by decide

example : maxAbsoluteEntry 3 (fun i => 2 - 3 * (i : Int)) = 4 := by decide

end LvArray.Props

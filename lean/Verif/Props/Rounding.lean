import Verif.RoundingLemmas
import Verif.Spec.Tensor
import Verif.Props.TensorFixed
import Verif.BinaryFormat
/-!
# C68: rounding errors of the tensor operations
-/

namespace LvArray.Props

open Finset LvArray.Spec LvArray.Spec.FloatingPoint LvArray.tensorOps

variable {F : Type} [Add F] [Sub F] [Mul F] [FloatingPoint F]

/-! ## Sums of products -/

/-- **C68 (inner product).** For every size and all finite arguments, the computed inner product differs from the exact one by at
most `( 1 + u )^n - 1` times the sum of the absolute values of the products, plus `n ( 1 + u )^( n - 1 )` times the error below the
normal range; and it is finite unless the sum of the absolute values comes close to the largest number. -/
theorem C68_inner_product {n : Nat} (hn : 0 < n) (a b : Nat → F) (ha : ∀ i, i < n → Finite (a i)) (hb : ∀ i, i < n → Finite (b i)) :
    Computes (AiBi n a b) (∑ i ∈ range n, val (a i) * val (b i)) (∑ i ∈ range n, |val (a i) * val (b i)|) n
      (n * (1 + u F) ^ (n - 1) * tiny F) :=
  (est_products hn a b ha hb).computes

/-- **C68 (square of the norm).** No terms cancel, so the relative error is at most `( 1 + u )^n - 1`. -/
theorem C68_norm_squared {n : Nat} (hn : 0 < n) (v : Nat → F) (hv : ∀ i, i < n → Finite (v i)) :
    Computes (l2NormSquared n v) (∑ i ∈ range n, val (v i) ^ 2) (∑ i ∈ range n, val (v i) ^ 2) n
      (n * (1 + u F) ^ (n - 1) * tiny F) := by
  have h := (est_products hn v v hv hv).computes
  have e : ∀ i, |val (v i) * val (v i)| = val (v i) ^ 2 := fun i => by rw [abs_mul_self, sq]
  have e' : ∀ i, val (v i) * val (v i) = val (v i) ^ 2 := fun i => by rw [sq]
  simp only [e] at h
  simp only [e'] at h
  exact h

/-- **C68 (matrix times vector).** -/
theorem C68_matrix_vector {n m : Nat} (hm : 0 < m) (dst b b' : Nat → F) (a a' : Nat → Nat → F)
    (ha : ∀ i j, i < n → j < m → Finite (a i j)) (ha' : ∀ i j, i < m → j < n → Finite (a' i j))
    (hb : ∀ j, j < m → Finite (b j)) :
    VectorComputes n (Ri_eq_AijBj n m dst a b) dst (fun i => ∑ j ∈ range m, val (a i j) * val (b j))
      (fun i => ∑ j ∈ range m, |val (a i j) * val (b j)|) m (m * (1 + u F) ^ (m - 1) * tiny F) ∧
    VectorComputes n (Ri_eq_AjiBj n m dst a' b) dst (fun i => ∑ j ∈ range m, val (a' j i) * val (b j))
      (fun i => ∑ j ∈ range m, |val (a' j i) * val (b j)|) m (m * (1 + u F) ^ (m - 1) * tiny F) := by
  have key : ∀ g : Nat → Nat → F, loop n 0 (fun i (dst : Vec F) => loop (m - 1) 1 (fun j (dst : Vec F) => dst.put i (dst i + g i j))
      (dst.put i (g i 0))) dst = fun k => if 0 ≤ k ∧ k < 0 + n then loop (m - 1) 1 (fun j x => x + g k j) (g k 0) else dst k := by
    intro g
    refine loop_vec (fun i _ => loop (m - 1) 1 (fun j x => x + g i j) (g i 0)) _ (fun i v => ?_) n 0 dst
    rw [loop_vec_acc, Vec.put_put, Vec.put_same]
  refine ⟨⟨fun i hi => ?_, fun i hi => ?_⟩, ⟨fun i hi => ?_, fun i hi => ?_⟩⟩
  · rw [Ri_eq_AijBj, key fun i j => a i j * b j]
    simp only [Nat.zero_le, Nat.zero_add, hi, and_self, if_true]
    exact (est_products hm (fun j => a i j) b (fun j hj => ha i j hi hj) hb).computes
  · rw [Ri_eq_AijBj, key fun i j => a i j * b j]
    simp only [Nat.zero_add, hi, and_false, if_false]
  · rw [Ri_eq_AjiBj, key fun i j => a' j i * b j]
    simp only [Nat.zero_le, Nat.zero_add, hi, and_self, if_true]
    exact (est_products hm (fun j => a' j i) b (fun j hj => ha' j i hj hi) hb).computes
  · rw [Ri_eq_AjiBj, key fun i j => a' j i * b j]
    simp only [Nat.zero_add, hi, and_false, if_false]

/-- **C68 (matrix times vector, added).** -/
theorem C68_add_matrix_vector {n m : Nat} (dst b : Nat → F) (a a' : Nat → Nat → F) (hd : ∀ i, i < n → Finite (dst i))
    (ha : ∀ i j, i < n → j < m → Finite (a i j)) (ha' : ∀ i j, i < m → j < n → Finite (a' i j))
    (hb : ∀ j, j < m → Finite (b j)) :
    VectorComputes n (Ri_add_AijBj n m dst a b) dst (fun i => val (dst i) + ∑ j ∈ range m, val (a i j) * val (b j))
      (fun i => |val (dst i)| + ∑ j ∈ range m, |val (a i j) * val (b j)|) (m + 1) (m * (1 + u F) ^ m * tiny F) ∧
    VectorComputes n (Ri_add_AjiBj n m dst a' b) dst (fun i => val (dst i) + ∑ j ∈ range m, val (a' j i) * val (b j))
      (fun i => |val (dst i)| + ∑ j ∈ range m, |val (a' j i) * val (b j)|) (m + 1) (m * (1 + u F) ^ m * tiny F) := by
  have key : ∀ g : Nat → Nat → F, loop n 0 (fun i (dst : Vec F) => loop m 0 (fun j (dst : Vec F) => dst.put i (dst i + g i j)) dst) dst =
      fun k => if 0 ≤ k ∧ k < 0 + n then loop m 0 (fun j x => x + g k j) (dst k) else dst k := by
    intro g
    exact loop_vec (fun i x => loop m 0 (fun j x => x + g i j) x) _ (fun i v => loop_vec_acc i (g i) m 0 v) n 0 dst
  refine ⟨⟨fun i hi => ?_, fun i hi => ?_⟩, ⟨fun i hi => ?_, fun i hi => ?_⟩⟩
  · rw [Ri_add_AijBj, key fun i j => a i j * b j]
    simp only [Nat.zero_le, Nat.zero_add, hi, and_self, if_true]
    exact (est_add_products m (dst i) (hd i hi) (fun j => a i j) b (fun j hj => ha i j hi hj) hb).computes
  · rw [Ri_add_AijBj, key fun i j => a i j * b j]
    simp only [Nat.zero_add, hi, and_false, if_false]
  · rw [Ri_add_AjiBj, key fun i j => a' j i * b j]
    simp only [Nat.zero_le, Nat.zero_add, hi, and_self, if_true]
    exact (est_add_products m (dst i) (hd i hi) (fun j => a' j i) b (fun j hj => ha' j i hj hi) hb).computes
  · rw [Ri_add_AjiBj, key fun i j => a' j i * b j]
    simp only [Nat.zero_add, hi, and_false, if_false]

/-- All entries of an `n` by `m` matrix are finite. -/
def FiniteMat (n m : Nat) (a : Nat → Nat → F) : Prop := ∀ i j, i < n → j < m → Finite (a i j)

/-- **C68 (products of matrices).** -/
theorem C68_matrix_products {n m l : Nat} (hl : 0 < l) (dst : Nat → Nat → F) (a b at' bt : Nat → Nat → F)
    (ha : FiniteMat n l a) (hb : FiniteMat l m b) (hat : FiniteMat l n at') (hbt : FiniteMat m l bt) :
    MatrixComputes n m (Rij_eq_AikBkj n m l dst a b) dst (fun i j => ∑ k ∈ range l, val (a i k) * val (b k j))
      (fun i j => ∑ k ∈ range l, |val (a i k) * val (b k j)|) l (l * (1 + u F) ^ (l - 1) * tiny F) ∧
    MatrixComputes n m (Rij_eq_AikBjk n m l dst a bt) dst (fun i j => ∑ k ∈ range l, val (a i k) * val (bt j k))
      (fun i j => ∑ k ∈ range l, |val (a i k) * val (bt j k)|) l (l * (1 + u F) ^ (l - 1) * tiny F) ∧
    MatrixComputes n m (Rij_eq_AkiBkj n m l dst at' b) dst (fun i j => ∑ k ∈ range l, val (at' k i) * val (b k j))
      (fun i j => ∑ k ∈ range l, |val (at' k i) * val (b k j)|) l (l * (1 + u F) ^ (l - 1) * tiny F) ∧
    MatrixComputes n n (Rij_eq_AkiAkj n l dst at') dst (fun i j => ∑ k ∈ range l, val (at' k i) * val (at' k j))
      (fun i j => ∑ k ∈ range l, |val (at' k i) * val (at' k j)|) l (l * (1 + u F) ^ (l - 1) * tiny F) :=
  ⟨matrix_computes hl dst (fun i _ k => a i k) (fun _ j k => b k j) (fun i _ k hi _ hk => ha i k hi hk)
      (fun _ j k _ hj hk => hb k j hk hj),
    matrix_computes hl dst (fun i _ k => a i k) (fun _ j k => bt j k) (fun i _ k hi _ hk => ha i k hi hk)
      (fun _ j k _ hj hk => hbt j k hj hk),
    matrix_computes hl dst (fun i _ k => at' k i) (fun _ j k => b k j) (fun i _ k hi _ hk => hat k i hk hi)
      (fun _ j k _ hj hk => hb k j hk hj),
    matrix_computes hl dst (fun i _ k => at' k i) (fun _ j k => at' k j) (fun i _ k hi _ hk => hat k i hk hi)
      (fun _ j k _ hj hk => hat k j hk hj)⟩

/-- **C68 (products of matrices, added).** -/
theorem C68_add_matrix_products {n m l : Nat} (dst dst' : Nat → Nat → F) (a b at' bt : Nat → Nat → F)
    (hd : FiniteMat n m dst) (hd' : FiniteMat n n dst')
    (ha : FiniteMat n l a) (hb : FiniteMat l m b) (hat : FiniteMat l n at') (hbt : FiniteMat m l bt) :
    MatrixComputes n m (Rij_add_AikBkj n m l dst a b) dst (fun i j => val (dst i j) + ∑ k ∈ range l, val (a i k) * val (b k j))
      (fun i j => |val (dst i j)| + ∑ k ∈ range l, |val (a i k) * val (b k j)|) (l + 1) (l * (1 + u F) ^ l * tiny F) ∧
    MatrixComputes n m (Rij_add_AikBjk n m l dst a bt) dst
      (fun i j => val (dst i j) + ∑ k ∈ range l, val (a i k) * val (bt j k))
      (fun i j => |val (dst i j)| + ∑ k ∈ range l, |val (a i k) * val (bt j k)|) (l + 1) (l * (1 + u F) ^ l * tiny F) ∧
    MatrixComputes n m (Rij_add_AkiBkj n m l dst at' b) dst
      (fun i j => val (dst i j) + ∑ k ∈ range l, val (at' k i) * val (b k j))
      (fun i j => |val (dst i j)| + ∑ k ∈ range l, |val (at' k i) * val (b k j)|) (l + 1) (l * (1 + u F) ^ l * tiny F) ∧
    MatrixComputes n n (Rij_add_AikAjk n l dst' a) dst'
      (fun i j => val (dst' i j) + ∑ k ∈ range l, val (a i k) * val (a j k))
      (fun i j => |val (dst' i j)| + ∑ k ∈ range l, |val (a i k) * val (a j k)|) (l + 1) (l * (1 + u F) ^ l * tiny F) :=
  ⟨matrix_add_computes dst (fun i _ k => a i k) (fun _ j k => b k j) hd (fun i _ k hi _ hk => ha i k hi hk)
      (fun _ j k _ hj hk => hb k j hk hj),
    matrix_add_computes dst (fun i _ k => a i k) (fun _ j k => bt j k) hd (fun i _ k hi _ hk => ha i k hi hk)
      (fun _ j k _ hj hk => hbt j k hj hk),
    matrix_add_computes dst (fun i _ k => at' k i) (fun _ j k => b k j) hd (fun i _ k hi _ hk => hat k i hk hi)
      (fun _ j k _ hj hk => hb k j hk hj),
    matrix_add_computes dst' (fun i _ k => a i k) (fun _ j k => a j k) hd' (fun i _ k hi _ hk => ha i k hi hk)
      (fun _ j k _ hj hk => ha j k hj hk)⟩

/-- **C68 (traces).** Nothing is multiplied, so results below the normal range have no error. -/
theorem C68_trace {n : Nat} (hn : 0 < n) (a : Nat → Nat → F) (s : Nat → F) (ha : ∀ i, i < n → Finite (a i i))
    (hs : ∀ i, i < n → Finite (s i)) :
    Computes (trace n a) (∑ i ∈ range n, val (a i i)) (∑ i ∈ range n, |val (a i i)|) (n - 1) 0 ∧
    Computes (symTrace n s) (∑ i ∈ range n, val (s i)) (∑ i ∈ range n, |val (s i)|) (n - 1) 0 := by
  have key : ∀ g : Nat → F, (∀ i, i < n → Finite (g i)) →
      Computes (loop (n - 1) 1 (fun i t => t + g i) (g 0)) (∑ i ∈ range n, val (g i)) (∑ i ∈ range n, |val (g i)|) (n - 1) 0 := by
    intro g hg
    have h := est_loop g (fun i => val (g i)) (fun i => |val (g i)|) 0 (n - 1) 1 (g 0) _ _ _ 0 (Est.input (hg 0 hn))
      (fun i _ h' => Est.input (hg i (by omega))) le_rfl
    exact (h.congr (head_sum (fun i => val (g i)) hn) (head_sum (fun i => |val (g i)|) hn) (by omega) (by ring)).computes
  exact ⟨key (fun i => a i i) ha, key s hs⟩

/-! ## Operations entry by entry -/

/-- **C68 (entry by entry, vectors).** One rounding for each operation. -/
theorem C68_vectors {n : Nat} (dst src a b : Nat → F) (s : F) (hd : ∀ i, i < n → Finite (dst i)) (hsrc : ∀ i, i < n → Finite (src i))
    (ha : ∀ i, i < n → Finite (a i)) (hb : ∀ i, i < n → Finite (b i)) (hs : Finite s) :
    VectorComputes n (scale n dst s) dst (fun i => val (dst i) * val s) (fun i => |val (dst i) * val s|) 1 (tiny F) ∧
    VectorComputes n (scaledCopy n dst src s) dst (fun i => val s * val (src i)) (fun i => |val s * val (src i)|) 1 (tiny F) ∧
    VectorComputes n (hadamardProduct n dst a b) dst (fun i => val (a i) * val (b i)) (fun i => |val (a i) * val (b i)|) 1 (tiny F) ∧
    VectorComputes n (addScalar n dst s) dst (fun i => val (dst i) + val s) (fun i => |val (dst i)| + |val s|) 1 0 ∧
    VectorComputes n (add n dst src) dst (fun i => val (dst i) + val (src i)) (fun i => |val (dst i)| + |val (src i)|) 1 0 ∧
    VectorComputes n (subtract n dst src) dst (fun i => val (dst i) - val (src i)) (fun i => |val (dst i)| + |val (src i)|) 1 0 ∧
    VectorComputes n (symAddIdentity n dst s) dst (fun i => val (dst i) + val s) (fun i => |val (dst i)| + |val s|) 1 0 ∧
    VectorComputes n (scaledAdd n dst src s) dst (fun i => val (dst i) + val s * val (src i))
      (fun i => |val (dst i)| + |val s * val (src i)|) 2 ((1 + u F) * tiny F) :=
  ⟨vec_computes dst (fun _ x => x * s) _ (fun _ _ => rfl) fun i hi => Est.prod (hd i hi) hs,
    vec_computes dst (fun i _ => s * src i) _ (fun _ _ => rfl) fun i hi => Est.prod hs (hsrc i hi),
    vec_computes dst (fun i _ => a i * b i) _ (fun _ _ => rfl) fun i hi => Est.prod (ha i hi) (hb i hi),
    vec_computes dst (fun _ x => x + s) _ (fun _ _ => rfl) fun i hi => est_sum (hd i hi) hs,
    vec_computes dst (fun i x => x + src i) _ (fun _ _ => rfl) fun i hi => est_sum (hd i hi) (hsrc i hi),
    vec_computes dst (fun i x => x - src i) _ (fun _ _ => rfl) fun i hi => est_difference (hd i hi) (hsrc i hi),
    vec_computes dst (fun _ x => x + s) _ (fun _ _ => rfl) fun i hi => est_sum (hd i hi) hs,
    vec_computes dst (fun i x => x + s * src i) _ (fun _ _ => rfl) fun i hi => est_multiply_add (hd i hi) hs (hsrc i hi)⟩

/-- **C68 (entry by entry, matrices).** -/
theorem C68_matrices {n m : Nat} (dst src : Nat → Nat → F) (a b : Nat → F) (s : F) (hd : FiniteMat n m dst) (hsrc : FiniteMat n m src)
    (ha : ∀ i, i < n → Finite (a i)) (hb : ∀ i, i < m → Finite (b i)) (hs : Finite s) :
    MatrixComputes n m (scaleMat n m dst s) dst (fun i j => val (dst i j) * val s) (fun i j => |val (dst i j) * val s|) 1 (tiny F) ∧
    MatrixComputes n m (scaledCopyMat n m dst src s) dst (fun i j => val s * val (src i j)) (fun i j => |val s * val (src i j)|) 1
      (tiny F) ∧
    MatrixComputes n m (addMat n m dst src) dst (fun i j => val (dst i j) + val (src i j))
      (fun i j => |val (dst i j)| + |val (src i j)|) 1 0 ∧
    MatrixComputes n m (scaledAddMat n m dst src s) dst (fun i j => val (dst i j) + val s * val (src i j))
      (fun i j => |val (dst i j)| + |val s * val (src i j)|) 2 ((1 + u F) * tiny F) ∧
    MatrixComputes n m (Rij_eq_AiBj n m dst a b) dst (fun i j => val (a i) * val (b j)) (fun i j => |val (a i) * val (b j)|) 1
      (tiny F) ∧
    MatrixComputes n m (Rij_add_AiBj n m dst a b) dst (fun i j => val (dst i j) + val (a i) * val (b j))
      (fun i j => |val (dst i j)| + |val (a i) * val (b j)|) 2 ((1 + u F) * tiny F) :=
  ⟨mat_computes dst (fun _ _ x => x * s) _ (fun _ _ _ => rfl) fun i j hi hj => Est.prod (hd i j hi hj) hs,
    mat_computes dst (fun i j _ => s * src i j) _ (fun _ _ _ => rfl) fun i j hi hj => Est.prod hs (hsrc i j hi hj),
    mat_computes dst (fun i j x => x + src i j) _ (fun _ _ _ => rfl) fun i j hi hj => est_sum (hd i j hi hj) (hsrc i j hi hj),
    mat_computes dst (fun i j x => x + s * src i j) _ (fun _ _ _ => rfl) fun i j hi hj =>
      est_multiply_add (hd i j hi hj) hs (hsrc i j hi hj),
    mat_computes dst (fun i j _ => a i * b j) _ (fun _ _ _ => rfl) fun i j hi hj => Est.prod (ha i hi) (hb j hj),
    mat_computes dst (fun i j x => x + a i * b j) _ (fun _ _ _ => rfl) fun i j hi hj =>
      est_multiply_add (hd i j hi hj) (ha i hi) (hb j hj)⟩

/-! ## Fixed sizes -/

/-- **C68 (cross product).** Each component is a difference of two products. -/
theorem C68_cross_product (dst a b : Nat → F) (ha : ∀ i, i < 3 → Finite (a i)) (hb : ∀ i, i < 3 → Finite (b i)) :
    VectorComputes 3 (crossProduct dst a b) dst
      (fun i => ![val (a 1) * val (b 2) - val (a 2) * val (b 1), val (a 2) * val (b 0) - val (a 0) * val (b 2),
        val (a 0) * val (b 1) - val (a 1) * val (b 0)] (Fin.ofNat 3 i))
      (fun i => ![|val (a 1) * val (b 2)| + |val (a 2) * val (b 1)|, |val (a 2) * val (b 0)| + |val (a 0) * val (b 2)|,
        |val (a 0) * val (b 1)| + |val (a 1) * val (b 0)|] (Fin.ofNat 3 i)) 2 (2 * (1 + u F) * tiny F) := by
  have a0 := ha 0 (by omega)
  have a1 := ha 1 (by omega)
  have a2 := ha 2 (by omega)
  have b0 := hb 0 (by omega)
  have b1 := hb 1 (by omega)
  have b2 := hb 2 (by omega)
  refine ⟨fun i hi => ?_, fun i hi => ?_⟩
  · have : i = 0 ∨ i = 1 ∨ i = 2 := by omega
    rcases this with rfl | rfl | rfl
    · exact (est_minor a1 b2 a2 b1).computes
    · exact (est_minor a2 b0 a0 b2).computes
    · exact (est_minor a0 b1 a1 b0).computes
  · simp only [crossProduct, Vec.put]
    rw [if_neg (by omega), if_neg (by omega), if_neg (by omega)]

/-- **C68 (determinants of size two).** -/
theorem C68_determinant2 (a : Nat → Nat → F) (s : Nat → F) (ha : FiniteMat 2 2 a) (hs : ∀ i, i < 3 → Finite (s i)) :
    Computes (determinant2 a) (square 2 fun i j => val (a i j)).det (terms2 fun i j => val (a i j)) 2 (2 * (1 + u F) * tiny F) ∧
    Computes (symDeterminant2 s) (voigt2 fun i => val (s i)).det (|val (s 0) * val (s 1)| + val (s 2) ^ 2) 2
      (2 * (1 + u F) * tiny F) := by
  rw [← (C41_determinant _).1, ← (C42_determinant _).1]
  constructor
  · exact (est_minor (ha 0 0 (by omega) (by omega)) (ha 1 1 (by omega) (by omega)) (ha 0 1 (by omega) (by omega))
      (ha 1 0 (by omega) (by omega))).computes
  · have h := est_minor (hs 0 (by omega)) (hs 1 (by omega)) (hs 2 (by omega)) (hs 2 (by omega))
    exact (h.congr rfl (by rw [abs_mul_self, sq]) rfl rfl).computes

/-- **C68 (determinant of size three).** The error of a finite result; and the result is finite if the three minors of the first
column are and the size of the terms allows it.  (A minor that overflows and is multiplied by zero gives a NaN.) -/
theorem C68_determinant3 (a : Nat → Nat → F) (ha : FiniteMat 3 3 a) :
    (Finite (determinant3 a) → |val (determinant3 a) - (square 3 fun i j => val (a i j)).det| ≤
      ((1 + u F) ^ 5 - 1) * (terms3 fun i j => val (a i j)) +
        (1 + u F) ^ 4 * (3 + 2 * (|val (a 0 0)| + |val (a 1 0)| + |val (a 2 0)|)) * tiny F) ∧
    (Finite (a 1 1 * a 2 2 - a 1 2 * a 2 1) → Finite (a 0 2 * a 2 1 - a 0 1 * a 2 2) → Finite (a 0 1 * a 1 2 - a 0 2 * a 1 1) →
      (1 + u F) ^ 5 * (terms3 fun i j => val (a i j)) +
        (1 + u F) ^ 4 * (3 + 2 * (|val (a 0 0)| + |val (a 1 0)| + |val (a 2 0)|)) * tiny F ≤ huge F →
      Finite (determinant3 a)) := by
  rw [← (C41_determinant _).2]
  refine ⟨fun h => ?_, fun h0 h1 h2 h => (est_determinant3 a ha h0 h1 h2).defined h⟩
  have h' := add_finite _ _ h
  have h'' := add_finite _ _ h'.1
  exact (est_determinant3 a ha (mul_finite _ _ h''.1).2 (mul_finite _ _ h''.2).2 (mul_finite _ _ h'.2).2).close h

/-- **C68 (symmetric matrix times vector).** -/
theorem C68_symmetric_matrix_vector (dst s v : Nat → F) (hs : ∀ i, i < 6 → Finite (s i)) (hv : ∀ i, i < 3 → Finite (v i)) :
    (∀ i : Fin 2, Computes (Ri_eq_symAijBj2 dst s v i) (∑ j : Fin 2, val (voigt2 s i j) * val (v j))
      (∑ j : Fin 2, |val (voigt2 s i j) * val (v j)|) 2 (2 * (1 + u F) * tiny F)) ∧
    (∀ i : Fin 3, Computes (Ri_eq_symAijBj3 dst s v i) (∑ j : Fin 3, val (voigt3 s i j) * val (v j))
      (∑ j : Fin 3, |val (voigt3 s i j) * val (v j)|) 3 (3 * (1 + u F) ^ 2 * tiny F)) ∧
    (∀ i : Fin 2, Finite (dst i) → Computes (Ri_add_symAijBj2 dst s v i) (val (dst i) + ∑ j : Fin 2, val (voigt2 s i j) * val (v j))
      (|val (dst i)| + ∑ j : Fin 2, |val (voigt2 s i j) * val (v j)|) 3 (2 * (1 + u F) ^ 2 * tiny F)) ∧
    (∀ i : Fin 3, Finite (dst i) → Computes (Ri_add_symAijBj3 dst s v i) (val (dst i) + ∑ j : Fin 3, val (voigt3 s i j) * val (v j))
      (|val (dst i)| + ∑ j : Fin 3, |val (voigt3 s i j) * val (v j)|) 4 (3 * (1 + u F) ^ 3 * tiny F)) := by
  have s0 := hs 0 (by omega)
  have s1 := hs 1 (by omega)
  have s2 := hs 2 (by omega)
  have s3 := hs 3 (by omega)
  have s4 := hs 4 (by omega)
  have s5 := hs 5 (by omega)
  have v0 := hv 0 (by omega)
  have v1 := hv 1 (by omega)
  have v2 := hv 2 (by omega)
  refine ⟨fun i => ?_, fun i => ?_, fun i hd => ?_, fun i hd => ?_⟩
  · simp only [Fin.sum_univ_two]
    fin_cases i
    · exact (est_two s0 v0 s2 v1).computes
    · exact (est_two s2 v0 s1 v1).computes
  · simp only [Fin.sum_univ_three]
    fin_cases i
    · exact (est_three s0 v0 s5 v1 s4 v2).computes
    · exact (est_three s5 v0 s1 v1 s3 v2).computes
    · exact (est_three s4 v0 s3 v1 s2 v2).computes
  · simp only [Fin.sum_univ_two]
    fin_cases i
    · exact (est_add_two hd s0 v0 s2 v1).computes
    · exact (est_add_two hd s2 v0 s1 v1).computes
  · simp only [Fin.sum_univ_three]
    fin_cases i
    · exact (est_add_three hd s0 v0 s5 v1 s4 v2).computes
    · exact (est_add_three hd s5 v0 s1 v1 s3 v2).computes
    · exact (est_add_three hd s4 v0 s3 v1 s2 v2).computes

/-- **C68 (symmetric matrix times transposed matrix).** -/
theorem C68_symmetric_matrix_matrix (dst b : Nat → Nat → F) (s : Nat → F) (hs : ∀ i, i < 6 → Finite (s i)) (hb : FiniteMat 3 3 b) :
    (∀ i j : Fin 2, Computes (Rij_eq_symAikBjk2 dst s b i j) (∑ k : Fin 2, val (voigt2 s i k) * val (b j k))
      (∑ k : Fin 2, |val (voigt2 s i k) * val (b j k)|) 2 (2 * (1 + u F) * tiny F)) ∧
    (∀ i j : Fin 3, Computes (Rij_eq_symAikBjk3 dst s b i j) (∑ k : Fin 3, val (voigt3 s i k) * val (b j k))
      (∑ k : Fin 3, |val (voigt3 s i k) * val (b j k)|) 3 (3 * (1 + u F) ^ 2 * tiny F)) := by
  have s0 := hs 0 (by omega)
  have s1 := hs 1 (by omega)
  have s2 := hs 2 (by omega)
  have s3 := hs 3 (by omega)
  have s4 := hs 4 (by omega)
  have s5 := hs 5 (by omega)
  have b' : ∀ j k : Fin 3, Finite (b j k) := fun j k => hb j k j.2 k.2
  refine ⟨fun i j => ?_, fun i j => ?_⟩
  · simp only [Fin.sum_univ_two]
    fin_cases i <;> fin_cases j
    · exact (est_two s0 (b' 0 0) s2 (b' 0 1)).computes
    · exact (est_two s0 (b' 1 0) s2 (b' 1 1)).computes
    · exact (est_two s2 (b' 0 0) s1 (b' 0 1)).computes
    · exact (est_two s2 (b' 1 0) s1 (b' 1 1)).computes
  · simp only [Fin.sum_univ_three]
    fin_cases i <;> fin_cases j
    · exact (est_three s0 (b' 0 0) s5 (b' 0 1) s4 (b' 0 2)).computes
    · exact (est_three s0 (b' 1 0) s5 (b' 1 1) s4 (b' 1 2)).computes
    · exact (est_three s0 (b' 2 0) s5 (b' 2 1) s4 (b' 2 2)).computes
    · exact (est_three s5 (b' 0 0) s1 (b' 0 1) s3 (b' 0 2)).computes
    · exact (est_three s5 (b' 1 0) s1 (b' 1 1) s3 (b' 1 2)).computes
    · exact (est_three s5 (b' 2 0) s1 (b' 2 1) s3 (b' 2 2)).computes
    · exact (est_three s4 (b' 0 0) s3 (b' 0 1) s2 (b' 0 2)).computes
    · exact (est_three s4 (b' 1 0) s3 (b' 1 1) s2 (b' 1 2)).computes
    · exact (est_three s4 (b' 2 0) s3 (b' 2 1) s2 (b' 2 2)).computes

/-! ## Infinities and NaNs -/

/-- **C68 (what is not finite shows).** If the inner product is finite, so was every argument; and the same for the determinants. -/
theorem C68_non_finite_arguments {n : Nat} (hn : 0 < n) (a b : Nat → F) (m : Nat → Nat → F) :
    (Finite (AiBi n a b) → ∀ i, i < n → Finite (a i) ∧ Finite (b i)) ∧
    (Finite (determinant2 m) → FiniteMat 2 2 m) ∧ (Finite (determinant3 m) → FiniteMat 3 3 m) := by
  refine ⟨fun h => ?_, fun h => ?_, fun h => ?_⟩
  · have key : ∀ (k lo : Nat) (x : F), Finite (loop k lo (fun i x => x + a i * b i) x) →
        Finite x ∧ ∀ i, lo ≤ i → i < lo + k → Finite (a i) ∧ Finite (b i) := by
      intro k
      induction k with
      | zero => intro lo x h; exact ⟨h, fun i _ _ => by omega⟩
      | succ k ih =>
        intro lo x h
        obtain ⟨h1, h2⟩ := ih (lo + 1) _ h
        obtain ⟨h3, h4⟩ := add_finite _ _ h1
        refine ⟨h3, fun i hi hi' => ?_⟩
        by_cases e : i = lo
        · subst e; exact mul_finite _ _ h4
        · exact h2 i (by omega) (by omega)
    obtain ⟨h1, h2⟩ := key (n - 1) 1 _ h
    intro i hi
    by_cases e : i = 0
    · subst e; exact mul_finite _ _ h1
    · exact h2 i (by omega) (by omega)
  · have h' := sub_finite _ _ h
    have h1 := mul_finite _ _ h'.1
    have h2 := mul_finite _ _ h'.2
    intro i j hi hj
    have : (i = 0 ∨ i = 1) ∧ (j = 0 ∨ j = 1) := by omega
    rcases this with ⟨rfl | rfl, rfl | rfl⟩
    · exact h1.1
    · exact h2.1
    · exact h2.2
    · exact h1.2
  · have h' := add_finite _ _ h
    have h'' := add_finite _ _ h'.1
    have t0 := mul_finite _ _ h''.1
    have t1 := mul_finite _ _ h''.2
    have t2 := mul_finite _ _ h'.2
    have u0 := sub_finite _ _ t0.2
    have u2 := sub_finite _ _ t2.2
    intro i j hi hj
    have : (i = 0 ∨ i = 1 ∨ i = 2) ∧ (j = 0 ∨ j = 1 ∨ j = 2) := by omega
    rcases this with ⟨rfl | rfl | rfl, rfl | rfl | rfl⟩
    · exact t0.1
    · exact (mul_finite _ _ u2.1).1
    · exact (mul_finite _ _ u2.2).1
    · exact t1.1
    · exact (mul_finite _ _ u0.1).1
    · exact (mul_finite _ _ u0.2).1
    · exact t2.1
    · exact (mul_finite _ _ u0.2).2
    · exact (mul_finite _ _ u0.1).2

/-! ## The formats of IEEE 754 -/

/-- **C68 (the assumptions are met).** For every binary format and every rounding mode the assumptions hold with `u = h 2^( 1 - p )`
and `tiny = h 2^( emin - p + 1 )`, where `h` is one half if the mode rounds to nearest; so the bound on the inner product holds. -/
theorem C68_binary_formats (f : Format) {n : Nat} (hn : 0 < n) (a b : Nat → Binary f) (ha : ∀ i, i < n → a i ≠ .other)
    (hb : ∀ i, i < n → b i ≠ .other) (hr : AiBi n a b ≠ .other) :
    |(AiBi n a b).toReal - ∑ i ∈ range n, (a i).toReal * (b i).toReal| ≤
      ((1 + f.h * 2 ^ (1 - f.p : Int)) ^ n - 1) * ∑ i ∈ range n, |(a i).toReal * (b i).toReal| +
        n * (1 + f.h * 2 ^ (1 - f.p : Int)) ^ (n - 1) * (f.h * 2 ^ (f.emin - (f.p - 1 : Int))) :=
  (C68_inner_product hn a b ha hb).1 hr

/-- **C68 (`double`).** The same for `double` with the default rounding mode. -/
theorem C68_double {n : Nat} (hn : 0 < n) (a b : Nat → Binary .double) (ha : ∀ i, i < n → a i ≠ .other)
    (hb : ∀ i, i < n → b i ≠ .other) (hr : AiBi n a b ≠ .other) :
    |(AiBi n a b).toReal - ∑ i ∈ range n, (a i).toReal * (b i).toReal| ≤
      ((1 + 2 ^ (-53 : Int)) ^ n - 1) * ∑ i ∈ range n, |(a i).toReal * (b i).toReal| +
        n * (1 + 2 ^ (-53 : Int)) ^ (n - 1) * 2 ^ (-1075 : Int) := by
  have h := C68_binary_formats .double hn a b ha hb hr
  have e1 : Format.double.h * (2 : ℝ) ^ (1 - Format.double.p : Int) = 2 ^ (-53 : Int) := by
    rw [show (-53 : Int) = (1 - Format.double.p : Int) - 1 by rfl, zpow_sub_one₀ (by norm_num)]
    show 1 / 2 * _ = _
    ring
  have e2 : Format.double.h * (2 : ℝ) ^ (Format.double.emin - (Format.double.p - 1 : Int)) = 2 ^ (-1075 : Int) := by
    rw [show (-1075 : Int) = (Format.double.emin - (Format.double.p - 1 : Int)) - 1 by rfl, zpow_sub_one₀ (by norm_num)]
    show 1 / 2 * _ = _
    ring
  rw [e1, e2] at h
  exact h

/-! ## Non-vacuity -/

/-- Small integers as values of `double`. -/
noncomputable def doubleOf (n : Int) (h : |n| < 2 ^ 53) : Binary .double :=
  .number n (Binary.ofInt_representable n h (by decide) (by decide))

theorem doubleOf_finite (n : Int) (h : |n| < 2 ^ 53) : Finite (doubleOf n h) := by
  show doubleOf n h ≠ .other
  unfold doubleOf
  exact nofun

/-- The hypotheses of `C68_inner_product` hold for `( 3, 3, 3 )` and `( -5, -5, -5 )`, and so does the condition for a finite result. -/
example : Finite (AiBi 3 (fun _ => doubleOf 3 (by decide)) (fun _ => doubleOf (-5) (by decide))) := by
  refine (C68_inner_product (by norm_num) _ _ (fun _ _ => doubleOf_finite _ _) (fun _ _ => doubleOf_finite _ _)).2 ?_
  have e : ∀ n h, val (doubleOf n h) = (n : ℝ) := fun _ _ => rfl
  have eu : u (Binary .double) ≤ 1 := by
    show 1 / 2 * (2 : ℝ) ^ (1 - (53 : Nat) : Int) ≤ 1
    norm_num
  have et : tiny (Binary .double) ≤ 1 := by
    show 1 / 2 * (2 : ℝ) ^ ((-1022 : Int) - ((53 : Nat) - 1 : Int)) ≤ 1
    have : (2 : ℝ) ^ ((-1022 : Int) - ((53 : Nat) - 1 : Int)) ≤ 1 := zpow_le_one_of_nonpos₀ (by norm_num) (by norm_num)
    exact le_trans (mul_le_mul_of_nonneg_left this (by norm_num)) (by norm_num)
  have eh : (1000 : ℝ) ≤ huge (Binary .double) := by
    show (1000 : ℝ) ≤ (2 ^ 53 - 1) * 2 ^ ((1023 : Int) - ((53 : Nat) - 1 : Int))
    have : (1 : ℝ) ≤ 2 ^ ((1023 : Int) - ((53 : Nat) - 1 : Int)) := one_le_zpow₀ (by norm_num) (by norm_num)
    nlinarith
  have u0 := u_nonneg (F := Binary .double)
  have t0 := tiny_nonneg (F := Binary .double)
  have p3 : (1 + u (Binary .double)) ^ 3 ≤ 2 ^ 3 := pow_le_pow_left₀ (by linarith) (by linarith) 3
  have p2 : (1 + u (Binary .double)) ^ 2 ≤ 2 ^ 2 := pow_le_pow_left₀ (by linarith) (by linarith) 2
  simp only [e]
  norm_num [Finset.sum_const] at *
  nlinarith [mul_le_mul p2 et t0 (by norm_num)]

/-- The hypotheses of the theorems about matrices hold for the matrix with twos on the diagonal and minus ones elsewhere. -/
example : FiniteMat 3 3 fun i j => if i = j then doubleOf 2 (by decide) else doubleOf (-1) (by decide) := by
  intro i j _ _
  dsimp only
  split <;> exact doubleOf_finite _ _

/-- Rounding does happen: a sum of two values of a format with one significant bit that is not in the format. -/
example (f : Format) (hp : f.p = 1) : ¬ f.Representable 3 := by
  rintro ⟨⟨m, k, e, hm, -⟩, -⟩
  rw [hp] at hm
  have hm' : m = 0 ∨ m = 1 ∨ m = -1 := by
    rw [abs_lt] at hm; omega
  have hpos : (0 : ℝ) < 2 ^ k := by positivity
  rcases hm' with rfl | rfl | rfl
  · norm_num at e
  · norm_num at e
    by_cases hk : k ≤ 1
    · have : (2 : ℝ) ^ k ≤ 2 ^ (1 : Int) := zpow_le_zpow_right₀ (by norm_num) hk
      norm_num at this; linarith
    · have : (2 : ℝ) ^ (2 : Int) ≤ 2 ^ k := zpow_le_zpow_right₀ (by norm_num) (by omega)
      norm_num at this; linarith
  · norm_num at e; linarith

end LvArray.Props

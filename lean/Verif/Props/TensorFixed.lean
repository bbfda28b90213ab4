import Verif.TensorFixed
import Verif.TensorLemmas
import Verif.Props.TensorOps
import Verif.Spec.Tensor
import Mathlib.LinearAlgebra.Matrix.Adjugate
import Mathlib.LinearAlgebra.Matrix.Trace
import Mathlib.Tactic.FieldSimp
import Mathlib.Tactic.LinearCombination
import Mathlib.Algebra.Field.Rat

/-!
# C41 and C42: determinants, inverses and symmetric matrices of size two and three
-/

namespace LvArray.Props

open LvArray.tensorOps Spec Finset

variable {K : Type}

theorem square2 (a : Mat K) : square 2 a = !![a 0 0, a 0 1; a 1 0, a 1 1] := by
  ext i j; fin_cases i <;> fin_cases j <;> rfl

theorem square3 (a : Mat K) :
    square 3 a = !![a 0 0, a 0 1, a 0 2; a 1 0, a 1 1, a 1 2; a 2 0, a 2 1, a 2 2] := by
  ext i j; fin_cases i <;> fin_cases j <;> rfl

theorem inverse_of_adjugate [Field K] {n : Nat} {A B : Matrix (Fin n) (Fin n) K} (h : A.det ≠ 0) (hB : B = (1 / A.det) • A.adjugate) :
    B * A = 1 ∧ A * B = 1 := by
  subst hB
  constructor
  · rw [Matrix.smul_mul, Matrix.adjugate_mul, smul_smul, one_div, inv_mul_cancel₀ h, one_smul]
  · rw [Matrix.mul_smul, Matrix.mul_adjugate, smul_smul, one_div, inv_mul_cancel₀ h, one_smul]

/-! ## C41 -/

/-- `determinant` is the determinant. -/
theorem C41_determinant [CommRing K] (a : Mat K) : determinant2 a = (square 2 a).det ∧ determinant3 a = (square 3 a).det := by
  constructor
  · rw [square2, Matrix.det_fin_two_of, determinant2]
  · rw [square3, Matrix.det_fin_three, determinant3]; simp; ring

/-- Both forms of `invert` for size two: the result is the two-sided inverse, the determinant is returned, no other entry changes. -/
theorem C41_invert2 [Field K] (dst a : Mat K) (h : (square 2 a).det ≠ 0) :
    (square 2 (invert2 dst a).1 * square 2 a = 1 ∧ square 2 a * square 2 (invert2 dst a).1 = 1 ∧
      (invert2 dst a).2 = (square 2 a).det ∧ ∀ i j, ¬ (i < 2 ∧ j < 2) → (invert2 dst a).1 i j = dst i j) ∧
    (square 2 (invert2InPlace a).1 * square 2 a = 1 ∧ square 2 a * square 2 (invert2InPlace a).1 = 1 ∧
      (invert2InPlace a).2 = (square 2 a).det ∧ ∀ i j, ¬ (i < 2 ∧ j < 2) → (invert2InPlace a).1 i j = a i j) := by
  have d := (C41_determinant a).1
  have e1 : (invert2 dst a).2 = (square 2 a).det := d
  have e2 : (invert2InPlace a).2 = (square 2 a).det := d
  have a1 := inverse_of_adjugate (B := square 2 (invert2 dst a).1) h (by
    rw [← d, square2 a, Matrix.adjugate_fin_two_of]
    ext i j
    fin_cases i <;> fin_cases j <;> simp [square, invert2, Mat.put] <;> ring)
  have a2 := inverse_of_adjugate (B := square 2 (invert2InPlace a).1) h (by
    rw [← d, square2 a, Matrix.adjugate_fin_two_of]
    ext i j
    fin_cases i <;> fin_cases j <;> simp [square, invert2InPlace, Mat.put] <;> ring)
  refine ⟨⟨a1.1, a1.2, e1, fun i j hij => ?_⟩, a2.1, a2.2, e2, fun i j hij => ?_⟩
  · simp only [invert2, Mat.put]; grind
  · simp only [invert2InPlace, Mat.put]; grind

/-- Both forms of `invert` for size three. -/
theorem C41_invert3 [Field K] (dst a : Mat K) (h : (square 3 a).det ≠ 0) :
    (square 3 (invert3 dst a).1 * square 3 a = 1 ∧ square 3 a * square 3 (invert3 dst a).1 = 1 ∧
      (invert3 dst a).2 = (square 3 a).det ∧ ∀ i j, ¬ (i < 3 ∧ j < 3) → (invert3 dst a).1 i j = dst i j) ∧
    (square 3 (invert3InPlace a).1 * square 3 a = 1 ∧ square 3 a * square 3 (invert3InPlace a).1 = 1 ∧
      (invert3InPlace a).2 = (square 3 a).det ∧ ∀ i j, ¬ (i < 3 ∧ j < 3) → (invert3InPlace a).1 i j = a i j) := by
  have d := (C41_determinant a).2
  have e1 : (invert3 dst a).2 = (square 3 a).det := d
  have e2 : (invert3InPlace a).2 = (square 3 a).det := d
  have a1 := inverse_of_adjugate (B := square 3 (invert3 dst a).1) h (by
    rw [← e1, square3 a, Matrix.adjugate_fin_three_of]
    ext i j
    fin_cases i <;> fin_cases j <;> simp [square, invert3, Mat.put] <;> ring)
  have a2 := inverse_of_adjugate (B := square 3 (invert3InPlace a).1) h (by
    rw [← e2, square3 a, Matrix.adjugate_fin_three_of]
    ext i j
    fin_cases i <;> fin_cases j <;> simp [square, invert3InPlace, Mat.put, loop] <;> ring)
  refine ⟨⟨a1.1, a1.2, e1, fun i j hij => ?_⟩, a2.1, a2.2, e2, fun i j hij => ?_⟩
  · simp only [invert3, Mat.put]; grind
  · simp only [invert3InPlace, Mat.put, loop]; grind

/-! ## C42 -/

/-- The order in which a symmetric matrix is packed, the conversions, and that they are inverse to each other. -/
theorem C42_conversions [CommRing K] (d : Vec K) (e a : Mat K) (s : Vec K) :
    square 2 (symmetricToDense2 e s) = voigt2 s ∧
    square 3 (symmetricToDense3 e s) = voigt3 s ∧
    (∀ i, i < 3 → denseToSymmetric2 d (symmetricToDense2 e s) i = s i) ∧
    (∀ i, i < 6 → denseToSymmetric3 d (symmetricToDense3 e s) i = s i) ∧
    ((square 2 a).IsSymm → voigt2 (denseToSymmetric2 d a) = square 2 a) ∧
    ((square 3 a).IsSymm → voigt3 (denseToSymmetric3 d a) = square 3 a) ∧
    (∀ i j, ¬ (i < 2 ∧ j < 2) → symmetricToDense2 e s i j = e i j) ∧
    (∀ i j, ¬ (i < 3 ∧ j < 3) → symmetricToDense3 e s i j = e i j) ∧
    (∀ i, ¬ i < 3 → denseToSymmetric2 d a i = d i) ∧
    (∀ i, ¬ i < 6 → denseToSymmetric3 d a i = d i) := by
  refine ⟨?_, ?_, ?_, ?_, ?_, ?_, ?_, ?_, ?_, ?_⟩
  · ext i j; fin_cases i <;> fin_cases j <;> rfl
  · ext i j; fin_cases i <;> fin_cases j <;> rfl
  · intro i h
    obtain rfl | rfl | rfl : i = 0 ∨ i = 1 ∨ i = 2 := by omega
    all_goals rfl
  · intro i h
    obtain rfl | rfl | rfl | rfl | rfl | rfl : i = 0 ∨ i = 1 ∨ i = 2 ∨ i = 3 ∨ i = 4 ∨ i = 5 := by omega
    all_goals rfl
  · intro h
    have h01 : a 1 0 = a 0 1 := h.apply 0 1
    rw [square2, h01]; rfl
  · intro h
    have h01 : a 1 0 = a 0 1 := h.apply 0 1
    have h02 : a 2 0 = a 0 2 := h.apply 0 2
    have h12 : a 2 1 = a 1 2 := h.apply 1 2
    rw [square3, h01, h02, h12]; rfl
  · intro i j h; simp only [symmetricToDense2, Mat.put]; grind
  · intro i j h; simp only [symmetricToDense3, Mat.put]; grind
  · intro i h; simp only [denseToSymmetric2, Vec.put]; grind
  · intro i h; simp only [denseToSymmetric3, Vec.put]; grind

/-- `symDeterminant` and `symTrace`. -/
theorem C42_determinant [CommRing K] (s : Vec K) :
    symDeterminant2 s = (voigt2 s).det ∧ symDeterminant3 s = (voigt3 s).det ∧
    symTrace 2 s = (voigt2 s).trace ∧ symTrace 3 s = (voigt3 s).trace := by
  refine ⟨?_, ?_, ?_, ?_⟩
  · rw [voigt2, Matrix.det_fin_two_of, symDeterminant2]
  · rw [voigt3, Matrix.det_fin_three, symDeterminant3]; simp; ring
  · simp [symTrace, loop, voigt2, Matrix.trace_fin_two]
  · simp [symTrace, loop, voigt3, Matrix.trace_fin_three]

/-- `symAddIdentity` adds a multiple of the identity. -/
theorem C42_addIdentity [CommRing K] (s : Vec K) (x : K) :
    voigt2 (symAddIdentity 2 s x) = voigt2 s + x • 1 ∧ voigt3 (symAddIdentity 3 s x) = voigt3 s + x • 1 := by
  constructor
  · ext i j; fin_cases i <;> fin_cases j <;> simp [voigt2, symAddIdentity, loop, Vec.put]
  · ext i j; fin_cases i <;> fin_cases j <;> simp [voigt3, symAddIdentity, loop, Vec.put]

/-- Both forms of `symInvert` for size two. -/
theorem C42_invert2 [Field K] (dst s : Vec K) (h : (voigt2 s).det ≠ 0) :
    (voigt2 (symInvert2 dst s).1 * voigt2 s = 1 ∧ voigt2 s * voigt2 (symInvert2 dst s).1 = 1 ∧
      (symInvert2 dst s).2 = (voigt2 s).det ∧ ∀ i, ¬ i < 3 → (symInvert2 dst s).1 i = dst i) ∧
    (voigt2 (symInvert2InPlace s).1 * voigt2 s = 1 ∧ voigt2 s * voigt2 (symInvert2InPlace s).1 = 1 ∧
      (symInvert2InPlace s).2 = (voigt2 s).det ∧ ∀ i, ¬ i < 3 → (symInvert2InPlace s).1 i = s i) := by
  have d := (C42_determinant s).1
  have e1 : (symInvert2 dst s).2 = (voigt2 s).det := d
  have e2 : (symInvert2InPlace s).2 = (voigt2 s).det := d
  have a1 := inverse_of_adjugate (B := voigt2 (symInvert2 dst s).1) h (by
    rw [← e1, voigt2, voigt2, Matrix.adjugate_fin_two_of]
    ext i j
    fin_cases i <;> fin_cases j <;> simp [symInvert2, Vec.put] <;> ring)
  have a2 := inverse_of_adjugate (B := voigt2 (symInvert2InPlace s).1) h (by
    rw [← e2, voigt2, voigt2, Matrix.adjugate_fin_two_of]
    ext i j
    fin_cases i <;> fin_cases j <;> simp [symInvert2InPlace, Vec.put] <;> ring)
  refine ⟨⟨a1.1, a1.2, e1, fun i hi => ?_⟩, a2.1, a2.2, e2, fun i hi => ?_⟩
  · simp only [symInvert2, Vec.put]; grind
  · simp only [symInvert2InPlace, Vec.put]; grind

/-- Both forms of `symInvert` for size three; the second starts with a temporary that is not initialised. -/
theorem C42_invert3 [Field K] (dst temp s : Vec K) (h : (voigt3 s).det ≠ 0) :
    (voigt3 (symInvert3 dst s).1 * voigt3 s = 1 ∧ voigt3 s * voigt3 (symInvert3 dst s).1 = 1 ∧
      (symInvert3 dst s).2 = (voigt3 s).det ∧ ∀ i, ¬ i < 6 → (symInvert3 dst s).1 i = dst i) ∧
    (voigt3 (symInvert3InPlace temp s).1 * voigt3 s = 1 ∧ voigt3 s * voigt3 (symInvert3InPlace temp s).1 = 1 ∧
      (symInvert3InPlace temp s).2 = (voigt3 s).det ∧ ∀ i, ¬ i < 6 → (symInvert3InPlace temp s).1 i = s i) := by
  have d := (C42_determinant s).2.1
  have e : ∀ dst : Vec K, (symInvert3 dst s).2 = (voigt3 s).det := fun dst => by
    rw [← d]; simp [symInvert3, symDeterminant3, Vec.put]; ring
  have a : ∀ dst : Vec K, voigt3 (symInvert3 dst s).1 = (1 / (voigt3 s).det) • (voigt3 s).adjugate := fun dst => by
    rw [← e dst, voigt3, voigt3, Matrix.adjugate_fin_three_of]
    ext i j
    fin_cases i <;> fin_cases j <;> simp [symInvert3, Vec.put] <;> ring
  have c : voigt3 (symInvert3InPlace temp s).1 = voigt3 (symInvert3 temp s).1 := rfl
  have a1 := inverse_of_adjugate h (a dst)
  have a2 := inverse_of_adjugate h (c.trans (a temp))
  refine ⟨⟨a1.1, a1.2, e dst, fun i hi => ?_⟩, a2.1, a2.2, e temp, fun i hi => ?_⟩
  · simp only [symInvert3, Vec.put]; grind
  · exact (C40_fill_copy 6 6 s (symInvert3 temp s).1 (fun _ _ => 0) (fun _ _ => 0) 0).2.2.1.2 i hi

/-- Products of a symmetric matrix and a vector. -/
theorem C42_matrix_vector [CommRing K] (dst s v : Vec K) :
    vector 2 (Ri_eq_symAijBj2 dst s v) = (voigt2 s).mulVec (vector 2 v) ∧
    vector 3 (Ri_eq_symAijBj3 dst s v) = (voigt3 s).mulVec (vector 3 v) ∧
    vector 2 (Ri_add_symAijBj2 dst s v) = vector 2 dst + (voigt2 s).mulVec (vector 2 v) ∧
    vector 3 (Ri_add_symAijBj3 dst s v) = vector 3 dst + (voigt3 s).mulVec (vector 3 v) ∧
    (∀ i, ¬ i < 2 → Ri_eq_symAijBj2 dst s v i = dst i ∧ Ri_add_symAijBj2 dst s v i = dst i) ∧
    (∀ i, ¬ i < 3 → Ri_eq_symAijBj3 dst s v i = dst i ∧ Ri_add_symAijBj3 dst s v i = dst i) := by
  refine ⟨?_, ?_, ?_, ?_, ?_, ?_⟩
  · ext i; fin_cases i <;>
      simp [vector, Ri_eq_symAijBj2, Vec.put, voigt2, Matrix.mulVec, dotProduct, Fin.sum_univ_two]
  · ext i; fin_cases i <;>
      simp [vector, Ri_eq_symAijBj3, Vec.put, voigt3, Matrix.mulVec, dotProduct, Fin.sum_univ_three]
  · ext i; fin_cases i <;>
      simp [vector, Ri_add_symAijBj2, Vec.put, voigt2, Matrix.mulVec, dotProduct, Fin.sum_univ_two] <;> ring
  · ext i; fin_cases i <;>
      simp [vector, Ri_add_symAijBj3, Vec.put, voigt3, Matrix.mulVec, dotProduct, Fin.sum_univ_three] <;> ring
  · intro i h; simp only [Ri_eq_symAijBj2, Ri_add_symAijBj2, Vec.put]; grind
  · intro i h; simp only [Ri_eq_symAijBj3, Ri_add_symAijBj3, Vec.put]; grind

/-- Products of a symmetric and a transposed matrix, and congruences, whose result is packed. -/
theorem C42_matrix_matrix [CommRing K] (e a : Mat K) (d s : Vec K) :
    square 2 (Rij_eq_symAikBjk2 e s a) = voigt2 s * (square 2 a).transpose ∧
    square 3 (Rij_eq_symAikBjk3 e s a) = voigt3 s * (square 3 a).transpose ∧
    voigt2 (Rij_eq_AikSymBklAjl2 d a s) = square 2 a * voigt2 s * (square 2 a).transpose ∧
    voigt3 (Rij_eq_AikSymBklAjl3 d a s) = square 3 a * voigt3 s * (square 3 a).transpose ∧
    (∀ i j, ¬ (i < 2 ∧ j < 2) → Rij_eq_symAikBjk2 e s a i j = e i j) ∧
    (∀ i j, ¬ (i < 3 ∧ j < 3) → Rij_eq_symAikBjk3 e s a i j = e i j) ∧
    (∀ i, ¬ i < 3 → Rij_eq_AikSymBklAjl2 d a s i = d i) ∧
    (∀ i, ¬ i < 6 → Rij_eq_AikSymBklAjl3 d a s i = d i) := by
  refine ⟨?_, ?_, ?_, ?_, ?_, ?_, ?_, ?_⟩
  · ext i j; fin_cases i <;> fin_cases j <;>
      simp [square, Rij_eq_symAikBjk2, Mat.put, voigt2, Matrix.mul_apply, Fin.sum_univ_two]
  · ext i j; fin_cases i <;> fin_cases j <;>
      simp [square, Rij_eq_symAikBjk3, Mat.put, voigt3, Matrix.mul_apply, Fin.sum_univ_three]
  · ext i j; fin_cases i <;> fin_cases j <;>
      simp [square, Rij_eq_AikSymBklAjl2, Vec.put, voigt2, Matrix.mul_apply, Fin.sum_univ_two] <;> ring
  · ext i j; fin_cases i <;> fin_cases j <;>
      simp [square, Rij_eq_AikSymBklAjl3, Vec.put, voigt3, Matrix.mul_apply, Fin.sum_univ_three] <;> ring
  · intro i j h; simp only [Rij_eq_symAikBjk2, Mat.put]; grind
  · intro i j h; simp only [Rij_eq_symAikBjk3, Mat.put]; grind
  · intro i h; simp only [Rij_eq_AikSymBklAjl2, Vec.put]; grind
  · intro i h; simp only [Rij_eq_AikSymBklAjl3, Vec.put]; grind

/-- Outer products whose result is symmetric. -/
theorem C42_outer [CommRing K] (dst v w : Vec K) :
    voigt2 (symRij_eq_AiAj2 dst v) = Matrix.vecMulVec (vector 2 v) (vector 2 v) ∧
    voigt3 (symRij_eq_AiAj3 dst v) = Matrix.vecMulVec (vector 3 v) (vector 3 v) ∧
    voigt2 (symRij_eq_AiBj_plus_AjBi2 dst v w) =
      Matrix.vecMulVec (vector 2 v) (vector 2 w) + Matrix.vecMulVec (vector 2 w) (vector 2 v) ∧
    voigt3 (symRij_eq_AiBj_plus_AjBi3 dst v w) =
      Matrix.vecMulVec (vector 3 v) (vector 3 w) + Matrix.vecMulVec (vector 3 w) (vector 3 v) ∧
    (∀ i, ¬ i < 3 → symRij_eq_AiAj2 dst v i = dst i ∧ symRij_eq_AiBj_plus_AjBi2 dst v w i = dst i) ∧
    (∀ i, ¬ i < 6 → symRij_eq_AiAj3 dst v i = dst i ∧ symRij_eq_AiBj_plus_AjBi3 dst v w i = dst i) := by
  refine ⟨?_, ?_, ?_, ?_, ?_, ?_⟩
  · ext i j; fin_cases i <;> fin_cases j <;>
      simp [vector, symRij_eq_AiAj2, Vec.put, voigt2, Matrix.vecMulVec_apply] <;> ring
  · ext i j; fin_cases i <;> fin_cases j <;>
      simp [vector, symRij_eq_AiAj3, Vec.put, voigt3, Matrix.vecMulVec_apply] <;> ring
  · ext i j; fin_cases i <;> fin_cases j <;>
      simp [vector, symRij_eq_AiBj_plus_AjBi2, Vec.put, voigt2, Matrix.vecMulVec_apply] <;> ring
  · ext i j; fin_cases i <;> fin_cases j <;>
      simp [vector, symRij_eq_AiBj_plus_AjBi3, Vec.put, voigt3, Matrix.vecMulVec_apply] <;> ring
  · intro i h; simp only [symRij_eq_AiAj2, symRij_eq_AiBj_plus_AjBi2, Vec.put]; grind
  · intro i h; simp only [symRij_eq_AiAj3, symRij_eq_AiBj_plus_AjBi3, Vec.put]; grind

/-! ## The hypotheses are met -/

/-- A matrix of size three with a determinant that is not zero, and an entry of its inverse. -/
example : determinant3 (fun i j => if i = j then (2 : Rat) else 1) = 4 ∧
    (invert3 (fun _ _ => 0) (fun i j => if i = j then (2 : Rat) else 1)).1 2 1 = -1 / 4 := by
  constructor <;> norm_num [determinant3, invert3, Mat.put]

example : symDeterminant3 (fun i => if i < 3 then (2 : Rat) else 1) = 4 ∧
    (symInvert3InPlace (fun _ => 9) (fun i => if i < 3 then (2 : Rat) else 1)).1 3 = -1 / 4 := by
  constructor <;> norm_num [symDeterminant3, symInvert3InPlace, symInvert3, Vec.put, copy, loop]

/-- Matrices with a determinant that is not zero. -/
example : (square 2 (fun i j => if i = j then (2 : Rat) else 1)).det ≠ 0 ∧ (square 3 (fun i j => if i = j then (2 : Rat) else 1)).det ≠ 0 ∧
    (voigt2 (fun i => if i < 2 then (2 : Rat) else 1)).det ≠ 0 ∧ (voigt3 (fun i => if i < 3 then (2 : Rat) else 1)).det ≠ 0 := by
  rw [← (C41_determinant _).1, ← (C41_determinant _).2, ← (C42_determinant _).1, ← (C42_determinant _).2.1]
  norm_num [determinant2, determinant3, symDeterminant2, symDeterminant3]

end LvArray.Props

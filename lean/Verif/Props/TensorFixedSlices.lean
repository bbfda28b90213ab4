import Verif.TensorFixedSlicesLemmas
import Verif.Spec.TensorFixedSlices
import Verif.Props.TensorFixed
import Verif.Props.TensorSlices

/-!
# C80: `tensorOps` on square matrices of size two and three in one memory
-/

namespace LvArray.Props

open LvArray.tensorOps Spec

section Helpers

variable {K : Type}

theorem matrixAt_shown {n : Nat} {d : Slice} {old new : Store K} {a : Mat K} (h : Slices.Shows2 n n d old new a) :
    matrixAt n d new = square n a := by
  ext i j; exact h.1 i j i.2 j.2

theorem vectorAt_shown {n : Nat} {d : Slice} {old new : Store K} {a : Vec K} (h : Slices.Shows1 n d old new a) :
    vectorAt n d new = vector n a := by
  ext i; exact h.1 i i.2

theorem packed2_shown {d : Slice} {new : Store K} {a : Vec K} (h : ∀ i, i < 3 → new (entry d i) = a i) : packed2 d new = voigt2 a := by
  simp only [packed2, voigt2, h 0 (by omega), h 1 (by omega), h 2 (by omega)]

theorem packed3_shown {d : Slice} {new : Store K} {a : Vec K} (h : ∀ i, i < 6 → new (entry d i) = a i) : packed3 d new = voigt3 a := by
  simp only [packed3, voigt3, h 0 (by omega), h 1 (by omega), h 2 (by omega), h 3 (by omega), h 4 (by omega), h 5 (by omega)]

end Helpers

/-- The determinants are those of the matrices in memory. -/
theorem C80_determinant {K : Type} [CommRing K] (c : Cfg) {a2 a3 s2 s3 : Slice} (mem : Store K) (h2 : IsMatrix 2 2 a2) (h3 : IsMatrix 3 3 a3)
    (hs2 : IsVector 3 s2) (hs3 : IsVector 6 s3) :
    Slices.determinant2 c a2 mem = .ok (matrixAt 2 a2 mem).det ∧
    Slices.determinant3 c a3 mem = .ok (matrixAt 3 a3 mem).det ∧
    Slices.symDeterminant2 c s2 mem = .ok (packed2 s2 mem).det ∧
    Slices.symDeterminant3 c s3 mem = .ok (packed3 s3 mem).det :=
  ⟨by rw [Slices.determinant2_follows c mem h2, (C41_determinant _).1]; rfl,
   by rw [Slices.determinant3_follows c mem h3, (C41_determinant _).2]; rfl,
   by rw [Slices.symDeterminant2_follows c mem hs2, (C42_determinant _).1]; rfl,
   by rw [Slices.symDeterminant3_follows c mem hs3, (C42_determinant _).2.1]; rfl⟩

/-- The inverse of a matrix is written to another, or over the matrix itself; nothing else changes. -/
theorem C80_invert2 {K : Type} [Field K] (c : Cfg) {dst src : Slice} (mem : Store K) (hd : IsMatrix 2 2 dst) (hD : Distinct2 2 2 dst)
    (hs : IsMatrix 2 2 src) (hS : Distinct2 2 2 src) (ps : NoneShared (Cells2 2 2 dst) (Cells2 2 2 src)) (h : (matrixAt 2 src mem).det ≠ 0) :
    Returns (Cells2 2 2 dst) mem (matrixAt 2 src mem).det (fun new => Inverse (matrixAt 2 dst new) (matrixAt 2 src mem))
      (Slices.invert2 c dst src mem) ∧
    Returns (Cells2 2 2 src) mem (matrixAt 2 src mem).det (fun new => Inverse (matrixAt 2 src new) (matrixAt 2 src mem))
      (Slices.invert2InPlace c src mem) := by
  obtain ⟨h1, h2⟩ := C41_invert2 (Slices.matAt dst mem) (Slices.matAt src mem) h
  constructor
  · obtain ⟨⟨new, x⟩, e, H, rfl⟩ := Slices.invert2_follows c mem hd hs hD ps
    refine ⟨new, by rw [e, h1.2.2.1]; rfl, ?_, H.2⟩
    have E := matrixAt_shown H
    simp only at E
    simp only [E]; exact ⟨h1.1, h1.2.1⟩
  · obtain ⟨⟨new, x⟩, e, H, rfl⟩ := Slices.invert2InPlace_follows c mem hs hS
    refine ⟨new, by rw [e, h2.2.2.1]; rfl, ?_, H.2⟩
    have E := matrixAt_shown H
    simp only at E
    simp only [E]; exact ⟨h2.1, h2.2.1⟩

theorem C80_invert3 {K : Type} [Field K] (c : Cfg) {dst src : Slice} (mem : Store K) (hd : IsMatrix 3 3 dst) (hD : Distinct2 3 3 dst)
    (hs : IsMatrix 3 3 src) (hS : Distinct2 3 3 src) (ps : NoneShared (Cells2 3 3 dst) (Cells2 3 3 src)) (h : (matrixAt 3 src mem).det ≠ 0) :
    Returns (Cells2 3 3 dst) mem (matrixAt 3 src mem).det (fun new => Inverse (matrixAt 3 dst new) (matrixAt 3 src mem))
      (Slices.invert3 c dst src mem) ∧
    Returns (Cells2 3 3 src) mem (matrixAt 3 src mem).det (fun new => Inverse (matrixAt 3 src new) (matrixAt 3 src mem))
      (Slices.invert3InPlace c src mem) := by
  obtain ⟨h1, h2⟩ := C41_invert3 (Slices.matAt dst mem) (Slices.matAt src mem) h
  constructor
  · obtain ⟨⟨new, x⟩, e, H, rfl⟩ := Slices.invert3_follows c mem hd hs hD ps
    refine ⟨new, by rw [e, h1.2.2.1]; rfl, ?_, H.2⟩
    have E := matrixAt_shown H
    simp only at E
    simp only [E]; exact ⟨h1.1, h1.2.1⟩
  · obtain ⟨⟨new, x⟩, e, H, rfl⟩ := Slices.invert3InPlace_follows c mem hs hS
    refine ⟨new, by rw [e, h2.2.2.1]; rfl, ?_, H.2⟩
    have E := matrixAt_shown H
    simp only at E
    simp only [E]; exact ⟨h2.1, h2.2.1⟩

/-- The same for symmetric matrices. -/
theorem C80_symInvert2 {K : Type} [Field K] (c : Cfg) {dst src : Slice} (mem : Store K) (hd : IsVector 3 dst) (hD : Distinct 3 dst)
    (hs : IsVector 3 src) (hS : Distinct 3 src) (ps : NoneShared (Cells 3 dst) (Cells 3 src)) (h : (packed2 src mem).det ≠ 0) :
    Returns (Cells 3 dst) mem (packed2 src mem).det (fun new => Inverse (packed2 dst new) (packed2 src mem)) (Slices.symInvert2 c dst src mem) ∧
    Returns (Cells 3 src) mem (packed2 src mem).det (fun new => Inverse (packed2 src new) (packed2 src mem))
      (Slices.symInvert2InPlace c src mem) := by
  obtain ⟨h1, h2⟩ := C42_invert2 (Slices.vecAt dst mem) (Slices.vecAt src mem) h
  constructor
  · obtain ⟨⟨new, x⟩, e, H, rfl⟩ := Slices.symInvert2_follows c mem hd hs hD ps
    refine ⟨new, by rw [e, h1.2.2.1]; rfl, ?_, H.2⟩
    have E := packed2_shown H.1
    simp only at E
    simp only [E]; exact ⟨h1.1, h1.2.1⟩
  · obtain ⟨⟨new, x⟩, e, H, rfl⟩ := Slices.symInvert2InPlace_follows c mem hs hS
    refine ⟨new, by rw [e, h2.2.2.1]; rfl, ?_, H.2⟩
    have E := packed2_shown H.1
    simp only at E
    simp only [E]; exact ⟨h2.1, h2.2.1⟩

/-- `temp` is where the function keeps its local array. -/
theorem C80_symInvert3 {K : Type} [Field K] (c : Cfg) {dst src temp : Slice} (mem : Store K) (hd : IsVector 6 dst) (hD : Distinct 6 dst)
    (hs : IsVector 6 src) (hS : Distinct 6 src) (ht : IsVector 6 temp) (hT : Distinct 6 temp) (ps : NoneShared (Cells 6 dst) (Cells 6 src))
    (pt : NoneShared (Cells 6 temp) (Cells 6 src)) (h : (packed3 src mem).det ≠ 0) :
    Returns (Cells 6 dst) mem (packed3 src mem).det (fun new => Inverse (packed3 dst new) (packed3 src mem)) (Slices.symInvert3 c dst src mem) ∧
    Returns (fun a => Cells 6 src a ∨ Cells 6 temp a) mem (packed3 src mem).det (fun new => Inverse (packed3 src new) (packed3 src mem))
      (Slices.symInvert3InPlace c temp src mem) := by
  obtain ⟨h1, -⟩ := C42_invert3 (Slices.vecAt dst mem) (Slices.vecAt temp mem) (Slices.vecAt src mem) h
  obtain ⟨-, h2⟩ := C42_invert3 (Slices.vecAt dst mem) (Slices.vecAt temp mem) (Slices.vecAt src mem) h
  constructor
  · obtain ⟨⟨new, x⟩, e, H, rfl⟩ := Slices.symInvert3_follows c mem hd hs hD ps
    refine ⟨new, by rw [e, h1.2.2.1]; rfl, ?_, H.2⟩
    have E := packed3_shown H.1
    simp only at E
    simp only [E]; exact ⟨h1.1, h1.2.1⟩
  · obtain ⟨⟨new, x⟩, e, H, H', rfl⟩ := Slices.symInvert3InPlace_follows c mem ht hs hT hS pt
    refine ⟨new, by rw [e, h2.2.2.1]; rfl, ?_, fun a ha => H' a (fun h => ha (.inl h)) (fun h => ha (.inr h))⟩
    have E := packed3_shown H
    simp only at E
    simp only [E]; exact ⟨h2.1, h2.2.1⟩

/-- Products with a symmetric matrix. -/
theorem C80_products2 {K : Type} [CommRing K] (c : Cfg) {v m p s w a : Slice} (mem : Store K)
    (hv : IsVector 2 v) (hV : Distinct 2 v) (hm : IsMatrix 2 2 m) (hM : Distinct2 2 2 m) (hp : IsVector 3 p) (hP : Distinct 3 p)
    (hs : IsVector 3 s) (hw : IsVector 2 w) (ha : IsMatrix 2 2 a)
    (vs : NoneShared (Cells 2 v) (Cells 3 s)) (vw : NoneShared (Cells 2 v) (Cells 2 w))
    (ms : NoneShared (Cells2 2 2 m) (Cells 3 s)) (ma : NoneShared (Cells2 2 2 m) (Cells2 2 2 a))
    (ps : NoneShared (Cells 3 p) (Cells 3 s)) (pa : NoneShared (Cells 3 p) (Cells2 2 2 a)) :
    Leaves (Cells 2 v) mem (fun new => vectorAt 2 v new = (packed2 s mem).mulVec (vectorAt 2 w mem)) (Slices.Ri_eq_symAijBj2 c v s w mem) ∧
    Leaves (Cells 2 v) mem (fun new => vectorAt 2 v new = vectorAt 2 v mem + (packed2 s mem).mulVec (vectorAt 2 w mem))
      (Slices.Ri_add_symAijBj2 c v s w mem) ∧
    Leaves (Cells2 2 2 m) mem (fun new => matrixAt 2 m new = packed2 s mem * (matrixAt 2 a mem).transpose)
      (Slices.Rij_eq_symAikBjk2 c m s a mem) ∧
    Leaves (Cells 3 p) mem (fun new => packed2 p new = matrixAt 2 a mem * packed2 s mem * (matrixAt 2 a mem).transpose)
      (Slices.Rij_eq_AikSymBklAjl2 c p a s mem) := by
  obtain ⟨f1, -, f2, -⟩ := C42_matrix_vector (Slices.vecAt v mem) (Slices.vecAt s mem) (Slices.vecAt w mem)
  obtain ⟨f3, -, f4, -⟩ := C42_matrix_matrix (Slices.matAt m mem) (Slices.matAt a mem) (Slices.vecAt p mem) (Slices.vecAt s mem)
  refine ⟨?_, ?_, ?_, ?_⟩
  · obtain ⟨new, e, H⟩ := Slices.Ri_eq_symAijBj2_follows c mem hv hs hw hV vs vw
    exact ⟨new, e, (vectorAt_shown H).trans f1, H.2⟩
  · obtain ⟨new, e, H⟩ := Slices.Ri_add_symAijBj2_follows c mem hv hs hw hV vs vw
    exact ⟨new, e, (vectorAt_shown H).trans f2, H.2⟩
  · obtain ⟨new, e, H⟩ := Slices.Rij_eq_symAikBjk2_follows c mem hm hs ha hM ms ma
    exact ⟨new, e, (matrixAt_shown H).trans f3, H.2⟩
  · obtain ⟨new, e, H⟩ := Slices.Rij_eq_AikSymBklAjl2_follows c mem hp ha hs hP pa ps
    exact ⟨new, e, (packed2_shown H.1).trans f4, H.2⟩

theorem C80_products3 {K : Type} [CommRing K] (c : Cfg) {v m p s w a : Slice} (mem : Store K)
    (hv : IsVector 3 v) (hV : Distinct 3 v) (hm : IsMatrix 3 3 m) (hM : Distinct2 3 3 m) (hp : IsVector 6 p) (hP : Distinct 6 p)
    (hs : IsVector 6 s) (hw : IsVector 3 w) (ha : IsMatrix 3 3 a)
    (vs : NoneShared (Cells 3 v) (Cells 6 s)) (vw : NoneShared (Cells 3 v) (Cells 3 w))
    (ms : NoneShared (Cells2 3 3 m) (Cells 6 s)) (ma : NoneShared (Cells2 3 3 m) (Cells2 3 3 a))
    (ps : NoneShared (Cells 6 p) (Cells 6 s)) (pa : NoneShared (Cells 6 p) (Cells2 3 3 a)) :
    Leaves (Cells 3 v) mem (fun new => vectorAt 3 v new = (packed3 s mem).mulVec (vectorAt 3 w mem)) (Slices.Ri_eq_symAijBj3 c v s w mem) ∧
    Leaves (Cells 3 v) mem (fun new => vectorAt 3 v new = vectorAt 3 v mem + (packed3 s mem).mulVec (vectorAt 3 w mem))
      (Slices.Ri_add_symAijBj3 c v s w mem) ∧
    Leaves (Cells2 3 3 m) mem (fun new => matrixAt 3 m new = packed3 s mem * (matrixAt 3 a mem).transpose)
      (Slices.Rij_eq_symAikBjk3 c m s a mem) ∧
    Leaves (Cells 6 p) mem (fun new => packed3 p new = matrixAt 3 a mem * packed3 s mem * (matrixAt 3 a mem).transpose)
      (Slices.Rij_eq_AikSymBklAjl3 c p a s mem) := by
  obtain ⟨-, f1, -, f2, -⟩ := C42_matrix_vector (Slices.vecAt v mem) (Slices.vecAt s mem) (Slices.vecAt w mem)
  obtain ⟨-, f3, -, f4, -⟩ := C42_matrix_matrix (Slices.matAt m mem) (Slices.matAt a mem) (Slices.vecAt p mem) (Slices.vecAt s mem)
  refine ⟨?_, ?_, ?_, ?_⟩
  · obtain ⟨new, e, H⟩ := Slices.Ri_eq_symAijBj3_follows c mem hv hs hw hV vs vw
    exact ⟨new, e, (vectorAt_shown H).trans f1, H.2⟩
  · obtain ⟨new, e, H⟩ := Slices.Ri_add_symAijBj3_follows c mem hv hs hw hV vs vw
    exact ⟨new, e, (vectorAt_shown H).trans f2, H.2⟩
  · obtain ⟨new, e, H⟩ := Slices.Rij_eq_symAikBjk3_follows c mem hm hs ha hM ms ma
    exact ⟨new, e, (matrixAt_shown H).trans f3, H.2⟩
  · obtain ⟨new, e, H⟩ := Slices.Rij_eq_AikSymBklAjl3_follows c mem hp ha hs hP pa ps
    exact ⟨new, e, (packed3_shown H.1).trans f4, H.2⟩

/-- Products of vectors, as symmetric matrices. -/
theorem C80_outer {K : Type} [CommRing K] (c : Cfg) {p2 v2 w2 p3 v3 w3 : Slice} (mem : Store K)
    (hp2 : IsVector 3 p2) (hP2 : Distinct 3 p2) (hv2 : IsVector 2 v2) (hw2 : IsVector 2 w2)
    (pv2 : NoneShared (Cells 3 p2) (Cells 2 v2)) (pw2 : NoneShared (Cells 3 p2) (Cells 2 w2))
    (hp3 : IsVector 6 p3) (hP3 : Distinct 6 p3) (hv3 : IsVector 3 v3) (hw3 : IsVector 3 w3)
    (pv3 : NoneShared (Cells 6 p3) (Cells 3 v3)) (pw3 : NoneShared (Cells 6 p3) (Cells 3 w3)) :
    Leaves (Cells 3 p2) mem (fun new => packed2 p2 new = Matrix.vecMulVec (vectorAt 2 v2 mem) (vectorAt 2 v2 mem))
      (Slices.symRij_eq_AiAj2 c p2 v2 mem) ∧
    Leaves (Cells 6 p3) mem (fun new => packed3 p3 new = Matrix.vecMulVec (vectorAt 3 v3 mem) (vectorAt 3 v3 mem))
      (Slices.symRij_eq_AiAj3 c p3 v3 mem) ∧
    Leaves (Cells 3 p2) mem (fun new => packed2 p2 new =
        Matrix.vecMulVec (vectorAt 2 v2 mem) (vectorAt 2 w2 mem) + Matrix.vecMulVec (vectorAt 2 w2 mem) (vectorAt 2 v2 mem))
      (Slices.symRij_eq_AiBj_plus_AjBi2 c p2 v2 w2 mem) ∧
    Leaves (Cells 6 p3) mem (fun new => packed3 p3 new =
        Matrix.vecMulVec (vectorAt 3 v3 mem) (vectorAt 3 w3 mem) + Matrix.vecMulVec (vectorAt 3 w3 mem) (vectorAt 3 v3 mem))
      (Slices.symRij_eq_AiBj_plus_AjBi3 c p3 v3 w3 mem) := by
  obtain ⟨f1, -, f3, -⟩ := C42_outer (Slices.vecAt p2 mem) (Slices.vecAt v2 mem) (Slices.vecAt w2 mem)
  obtain ⟨-, f2, -, f4, -⟩ := C42_outer (Slices.vecAt p3 mem) (Slices.vecAt v3 mem) (Slices.vecAt w3 mem)
  refine ⟨?_, ?_, ?_, ?_⟩
  · obtain ⟨new, e, H⟩ := Slices.symRij_eq_AiAj2_follows c mem hp2 hv2 hP2 pv2
    exact ⟨new, e, (packed2_shown H.1).trans f1, H.2⟩
  · obtain ⟨new, e, H⟩ := Slices.symRij_eq_AiAj3_follows c mem hp3 hv3 hP3 pv3
    exact ⟨new, e, (packed3_shown H.1).trans f2, H.2⟩
  · obtain ⟨new, e, H⟩ := Slices.symRij_eq_AiBj_plus_AjBi2_follows c mem hp2 hv2 hw2 hP2 pv2 pw2
    exact ⟨new, e, (packed2_shown H.1).trans f3, H.2⟩
  · obtain ⟨new, e, H⟩ := Slices.symRij_eq_AiBj_plus_AjBi3_follows c mem hp3 hv3 hw3 hP3 pv3 pw3
    exact ⟨new, e, (packed3_shown H.1).trans f4, H.2⟩

/-- A symmetric matrix is written out in full, or packed; nothing else changes. -/
theorem C80_conversions {K : Type} [CommRing K] (c : Cfg) {p2 m2 p3 m3 : Slice} (mem : Store K)
    (hp2 : IsVector 3 p2) (hP2 : Distinct 3 p2) (hm2 : IsMatrix 2 2 m2) (hM2 : Distinct2 2 2 m2)
    (hp3 : IsVector 6 p3) (hP3 : Distinct 6 p3) (hm3 : IsMatrix 3 3 m3) (hM3 : Distinct2 3 3 m3)
    (h2 : NoneShared (Cells 3 p2) (Cells2 2 2 m2)) (h3 : NoneShared (Cells 6 p3) (Cells2 3 3 m3)) :
    Leaves (Cells2 2 2 m2) mem (fun new => matrixAt 2 m2 new = packed2 p2 mem) (Slices.symmetricToDense2 c m2 p2 mem) ∧
    Leaves (Cells2 3 3 m3) mem (fun new => matrixAt 3 m3 new = packed3 p3 mem) (Slices.symmetricToDense3 c m3 p3 mem) ∧
    ((matrixAt 2 m2 mem).IsSymm →
      Leaves (Cells 3 p2) mem (fun new => packed2 p2 new = matrixAt 2 m2 mem) (Slices.denseToSymmetric2 c p2 m2 mem)) ∧
    ((matrixAt 3 m3 mem).IsSymm →
      Leaves (Cells 6 p3) mem (fun new => packed3 p3 new = matrixAt 3 m3 mem) (Slices.denseToSymmetric3 c p3 m3 mem)) := by
  have h2' : NoneShared (Cells2 2 2 m2) (Cells 3 p2) := fun a h h' => h2 a h' h
  have h3' : NoneShared (Cells2 3 3 m3) (Cells 6 p3) := fun a h h' => h3 a h' h
  obtain ⟨f1, -, -, -, f3, -⟩ := C42_conversions (Slices.vecAt p2 mem) (Slices.matAt m2 mem) (Slices.matAt m2 mem) (Slices.vecAt p2 mem)
  obtain ⟨-, f2, -, -, -, f4, -⟩ := C42_conversions (Slices.vecAt p3 mem) (Slices.matAt m3 mem) (Slices.matAt m3 mem) (Slices.vecAt p3 mem)
  refine ⟨?_, ?_, fun hs => ?_, fun hs => ?_⟩
  · obtain ⟨new, e, H⟩ := Slices.symmetricToDense2_follows c mem hm2 hp2 hM2 h2'
    exact ⟨new, e, (matrixAt_shown H).trans f1, H.2⟩
  · obtain ⟨new, e, H⟩ := Slices.symmetricToDense3_follows c mem hm3 hp3 hM3 h3'
    exact ⟨new, e, (matrixAt_shown H).trans f2, H.2⟩
  · obtain ⟨new, e, H⟩ := Slices.denseToSymmetric2_follows c mem hp2 hm2 hP2 h2
    exact ⟨new, e, (packed2_shown H.1).trans (f3 hs), H.2⟩
  · obtain ⟨new, e, H⟩ := Slices.denseToSymmetric3_follows c mem hp3 hm3 hP3 h3
    exact ⟨new, e, (packed3_shown H.1).trans (f4 hs), H.2⟩

/-! ## When the arguments overlap -/

def m33 (data : Int) : Slice := ⟨data, [3, 3], [3, 1], 1⟩

def v6 (data : Int) : Slice := ⟨data, [6], [1], 0⟩

def v2 (data : Int) : Slice := ⟨data, [2], [1], 0⟩

def squaresQ : Store Rat := fun a => a * a

/-- What is at some addresses after the call. -/
def cellsAfter (r : R (Store Rat)) (as : List Int) : R (List Rat) := r >>= fun mem => .ok (as.map mem)

theorem cellsAfter_eq {r : R (Store Rat)} {new : Store Rat} (h : r = .ok new) (as : List Int) : cellsAfter r as = .ok (as.map new) := by
  rw [cellsAfter, h, bind_ok]

def memoryOnly (r : R (Store Rat × Rat)) : R (Store Rat) := r >>= fun p => .ok p.1

theorem memoryOnly_eq {r : R (Store Rat × Rat)} {new : Store Rat} {x : Rat} (h : r = .ok (new, x)) : memoryOnly r = .ok new := by
  rw [memoryOnly, h, bind_ok]

/-- If the destination is also the source of the other form of `invert`, or of a product, then entries are used after they have been
overwritten. -/
theorem C80_overlap_witness (c : Cfg) :
    ¬ Returns (Cells2 2 2 (m22 1)) squaresQ (matrixAt 2 (m22 1) squaresQ).det
        (fun new => Inverse (matrixAt 2 (m22 1) new) (matrixAt 2 (m22 1) squaresQ)) (Slices.invert2 c (m22 1) (m22 1) squaresQ) ∧
    ¬ Returns (Cells2 3 3 (m33 1)) squaresQ (matrixAt 3 (m33 1) squaresQ).det
        (fun new => Inverse (matrixAt 3 (m33 1) new) (matrixAt 3 (m33 1) squaresQ)) (Slices.invert3 c (m33 1) (m33 1) squaresQ) ∧
    ¬ Returns (Cells 3 (v3 1)) squaresQ (packed2 (v3 1) squaresQ).det
        (fun new => Inverse (packed2 (v3 1) new) (packed2 (v3 1) squaresQ)) (Slices.symInvert2 c (v3 1) (v3 1) squaresQ) ∧
    ¬ Returns (Cells 6 (v6 1)) squaresQ (packed3 (v6 1) squaresQ).det
        (fun new => Inverse (packed3 (v6 1) new) (packed3 (v6 1) squaresQ)) (Slices.symInvert3 c (v6 1) (v6 1) squaresQ) ∧
    ¬ Leaves (Cells 2 (v2 9)) squaresQ (fun new => vectorAt 2 (v2 9) new = (packed2 (v3 1) squaresQ).mulVec (vectorAt 2 (v2 9) squaresQ))
        (Slices.Ri_eq_symAijBj2 c (v2 9) (v3 1) (v2 9) squaresQ) ∧
    ¬ Leaves (Cells2 2 2 (m22 5)) squaresQ
        (fun new => matrixAt 2 (m22 5) new = packed2 (v3 1) squaresQ * (matrixAt 2 (m22 5) squaresQ).transpose)
        (Slices.Rij_eq_symAikBjk2 c (m22 5) (v3 1) (m22 5) squaresQ) ∧
    ¬ Leaves (Cells 3 (v3 1)) squaresQ
        (fun new => packed2 (v3 1) new = matrixAt 2 (m22 5) squaresQ * packed2 (v3 1) squaresQ * (matrixAt 2 (m22 5) squaresQ).transpose)
        (Slices.Rij_eq_AikSymBklAjl2 c (v3 1) (m22 5) (v3 1) squaresQ) := by
  obtain ⟨t, b, d⟩ := c
  refine ⟨?_, ?_, ?_, ?_, ?_, ?_, ?_⟩
  · rintro ⟨new, h, hI, -⟩
    have v := cellsAfter_eq (memoryOnly_eq h) [3, 4]
    rw [show cellsAfter _ [3, 4] = .ok [9 / 20, 1 / 25] by cases t <;> cases b <;> cases d <;> decide +kernel] at v
    injection v with v
    simp only [List.map_cons, List.map_nil, List.cons.injEq, and_true] at v
    have e := congrFun (congrFun hI.1 1) 0
    simp [Matrix.mul_apply, Fin.sum_univ_succ, matrixAt, square, entry2, m22, ← v.1, ← v.2, squaresQ] at e
    norm_num at e
  · rintro ⟨new, h, hI, -⟩
    have v := cellsAfter_eq (memoryOnly_eq h) [1, 2, 3]
    rw [show cellsAfter _ [1, 2, 3] = .ok [-31/57264, 7/14316, 983/57264] by cases t <;> cases b <;> cases d <;> decide +kernel] at v
    injection v with v
    simp only [List.map_cons, List.map_nil, List.cons.injEq, and_true] at v
    have e := congrFun (congrFun hI.1 0) 0
    simp [Matrix.mul_apply, Fin.sum_univ_succ, matrixAt, square, entry2, m33, ← v.1, ← v.2.1, ← v.2.2, squaresQ] at e
    norm_num at e
  · rintro ⟨new, h, hI, -⟩
    have v := cellsAfter_eq (memoryOnly_eq h) [2, 3]
    rw [show cellsAfter _ [2, 3] = .ok [4 / 5929, 9 / 77] by cases t <;> cases b <;> cases d <;> decide +kernel] at v
    injection v with v
    simp only [List.map_cons, List.map_nil, List.cons.injEq, and_true] at v
    have e := congrFun (congrFun hI.1 1) 0
    simp [Matrix.mul_apply, Fin.sum_univ_succ, packed2, voigt2, entry, v3, ← v.1, ← v.2, squaresQ] at e
    norm_num at e
  · rintro ⟨new, h, hI, -⟩
    have v := cellsAfter_eq (memoryOnly_eq h) [1, 6, 5]
    rw [show cellsAfter _ [1, 6, 5] = .ok [-55/324908, 19/324908, 279/324908] by
      cases t <;> cases b <;> cases d <;> decide +kernel] at v
    injection v with v
    simp only [List.map_cons, List.map_nil, List.cons.injEq, and_true] at v
    have e := congrFun (congrFun hI.1 0) 0
    simp [Matrix.mul_apply, Fin.sum_univ_succ, packed3, voigt3, entry, v6, ← v.1, ← v.2.1, ← v.2.2, squaresQ] at e
    norm_num at e
  · rintro ⟨new, h, hI, -⟩
    have v := cellsAfter_eq h [10]
    rw [show cellsAfter _ [10] = .ok [9229] by cases t <;> cases b <;> cases d <;> decide +kernel] at v
    injection v with v
    simp only [List.map_cons, List.map_nil, List.cons.injEq, and_true] at v
    have e := congrFun hI 1
    simp [Matrix.mulVec, dotProduct, Fin.sum_univ_succ, packed2, voigt2, vectorAt, vector, entry, v3, v2, ← v, squaresQ] at e
    norm_num at e
  · rintro ⟨new, h, hI, -⟩
    have v := cellsAfter_eq h [7]
    rw [show cellsAfter _ [7] = .ok [5641] by cases t <;> cases b <;> cases d <;> decide +kernel] at v
    injection v with v
    simp only [List.map_cons, List.map_nil, List.cons.injEq, and_true] at v
    have e := congrFun (congrFun hI 1) 0
    simp [Matrix.mul_apply, Fin.sum_univ_succ, packed2, voigt2, matrixAt, square, entry, entry2, v3, m22, ← v, squaresQ] at e
    norm_num at e
  · rintro ⟨new, h, hI, -⟩
    have v := cellsAfter_eq h [2]
    rw [show cellsAfter _ [2] = .ok [52916441] by cases t <;> cases b <;> cases d <;> decide +kernel] at v
    injection v with v
    simp only [List.map_cons, List.map_nil, List.cons.injEq, and_true] at v
    have e := congrFun (congrFun hI 1) 1
    simp [Matrix.mul_apply, Fin.sum_univ_succ, packed2, voigt2, matrixAt, square, entry, entry2, v3, m22, ← v, squaresQ] at e
    norm_num at e

/-! ## Sizes -/

set_option maxRecDepth 20000 in
/-- With bounds checking a call whose arguments do not have the right sizes ends the program before anything is changed. -/
theorem C80_sizes_partial {K : Type} [Field K] {c : Cfg} (hc : c.boundsCheck = true) (m1 m2 v1 v2 v3 : Slice)
    (hm1 : m1.dims.length = 2) (hm2 : m2.dims.length = 2) (hv1 : v1.dims.length = 1) (hv2 : v2.dims.length = 1) (hv3 : v3.dims.length = 1)
    (mem : Store K) :
    (m1.dims ≠ [2, 2] → Slices.determinant2 c m1 mem = .error .abort) ∧
    (¬ (m1.dims = [2, 2] ∧ m2.dims = [2, 2]) → Slices.invert2 c m1 m2 mem = .error .abort) ∧
    (m1.dims ≠ [2, 2] → Slices.invert2InPlace c m1 mem = .error .abort) ∧
    (v1.dims ≠ [3] → Slices.symDeterminant2 c v1 mem = .error .abort) ∧
    (¬ (v1.dims = [3] ∧ v2.dims = [3]) → Slices.symInvert2 c v1 v2 mem = .error .abort) ∧
    (v1.dims ≠ [3] → Slices.symInvert2InPlace c v1 mem = .error .abort) ∧
    (¬ (v1.dims = [2] ∧ v2.dims = [3] ∧ v3.dims = [2]) → Slices.Ri_eq_symAijBj2 c v1 v2 v3 mem = .error .abort) ∧
    (¬ (v1.dims = [2] ∧ v2.dims = [3] ∧ v3.dims = [2]) → Slices.Ri_add_symAijBj2 c v1 v2 v3 mem = .error .abort) ∧
    (¬ (m1.dims = [2, 2] ∧ v1.dims = [3] ∧ m2.dims = [2, 2]) → Slices.Rij_eq_symAikBjk2 c m1 v1 m2 mem = .error .abort) ∧
    (¬ (v1.dims = [3] ∧ m1.dims = [2, 2] ∧ v2.dims = [3]) → Slices.Rij_eq_AikSymBklAjl2 c v1 m1 v2 mem = .error .abort) ∧
    (¬ (v1.dims = [3] ∧ v2.dims = [2]) → Slices.symRij_eq_AiAj2 c v1 v2 mem = .error .abort) ∧
    (¬ (v1.dims = [3] ∧ v2.dims = [2] ∧ v3.dims = [2]) → Slices.symRij_eq_AiBj_plus_AjBi2 c v1 v2 v3 mem = .error .abort) ∧
    (¬ (v1.dims = [3] ∧ m1.dims = [2, 2]) → Slices.denseToSymmetric2 c v1 m1 mem = .error .abort) ∧
    (¬ (m1.dims = [2, 2] ∧ v1.dims = [3]) → Slices.symmetricToDense2 c m1 v1 mem = .error .abort) ∧
    (m1.dims ≠ [3, 3] → Slices.determinant3 c m1 mem = .error .abort) ∧
    (¬ (m1.dims = [3, 3] ∧ m2.dims = [3, 3]) → Slices.invert3 c m1 m2 mem = .error .abort) ∧
    (v1.dims ≠ [6] → Slices.symDeterminant3 c v1 mem = .error .abort) ∧
    (¬ (v1.dims = [6] ∧ v2.dims = [6]) → Slices.symInvert3 c v1 v2 mem = .error .abort) ∧
    (v1.dims = [6] → v2.dims ≠ [6] → Slices.symInvert3InPlace c v1 v2 mem = .error .abort) ∧
    (¬ (v1.dims = [3] ∧ v2.dims = [6] ∧ v3.dims = [3]) → Slices.Ri_eq_symAijBj3 c v1 v2 v3 mem = .error .abort) ∧
    (¬ (v1.dims = [3] ∧ v2.dims = [6] ∧ v3.dims = [3]) → Slices.Ri_add_symAijBj3 c v1 v2 v3 mem = .error .abort) ∧
    (¬ (m1.dims = [3, 3] ∧ v1.dims = [6] ∧ m2.dims = [3, 3]) → Slices.Rij_eq_symAikBjk3 c m1 v1 m2 mem = .error .abort) ∧
    (¬ (v1.dims = [6] ∧ m1.dims = [3, 3] ∧ v2.dims = [6]) → Slices.Rij_eq_AikSymBklAjl3 c v1 m1 v2 mem = .error .abort) ∧
    (¬ (v1.dims = [6] ∧ v2.dims = [3]) → Slices.symRij_eq_AiAj3 c v1 v2 mem = .error .abort) ∧
    (¬ (v1.dims = [6] ∧ v2.dims = [3] ∧ v3.dims = [3]) → Slices.symRij_eq_AiBj_plus_AjBi3 c v1 v2 v3 mem = .error .abort) ∧
    (¬ (v1.dims = [6] ∧ m1.dims = [3, 3]) → Slices.denseToSymmetric3 c v1 m1 mem = .error .abort) ∧
    (¬ (m1.dims = [3, 3] ∧ v1.dims = [6]) → Slices.symmetricToDense3 c m1 v1 mem = .error .abort) := by
  refine ⟨?_, ?_, ?_, ?_, ?_, ?_, ?_, ?_, ?_, ?_, ?_, ?_, ?_, ?_, ?_, ?_, ?_, ?_, ?_, ?_, ?_, ?_, ?_, ?_, ?_, ?_, ?_⟩
  · intro h
    simp only [Slices.determinant2, Slices.sizes2_checked hc 2 2 hm1]
    rw [if_neg h, bind_err]
  · intro h
    simp only [Slices.invert2, Slices.sizes2_checked hc 2 2 hm1, Slices.sizes2_checked hc 2 2 hm2]
    by_cases h0 : m1.dims = [2, 2]
    case neg => simp only [if_neg h0, bind_ok, bind_err]
    by_cases h1 : m2.dims = [2, 2]
    case neg => simp only [if_pos h0, if_neg h1, bind_ok, bind_err]
    exact absurd ⟨h0, h1⟩ h
  · intro h
    simp only [Slices.invert2InPlace, Slices.sizes2_checked hc 2 2 hm1]
    rw [if_neg h, bind_err]
  · intro h
    simp only [Slices.symDeterminant2, Slices.sizes_checked hc 3 hv1]
    rw [if_neg h, bind_err]
  · intro h
    simp only [Slices.symInvert2, Slices.sizes_checked hc 3 hv1, Slices.sizes_checked hc 3 hv2]
    by_cases h0 : v1.dims = [3]
    case neg => simp only [if_neg h0, bind_ok, bind_err]
    by_cases h1 : v2.dims = [3]
    case neg => simp only [if_pos h0, if_neg h1, bind_ok, bind_err]
    exact absurd ⟨h0, h1⟩ h
  · intro h
    simp only [Slices.symInvert2InPlace, Slices.sizes_checked hc 3 hv1]
    rw [if_neg h, bind_err]
  · intro h
    simp only [Slices.Ri_eq_symAijBj2, Slices.sizes_checked hc 2 hv1, Slices.sizes_checked hc 3 hv2, Slices.sizes_checked hc 2 hv3]
    by_cases h0 : v1.dims = [2]
    case neg => simp only [if_neg h0, bind_ok, bind_err]
    by_cases h1 : v2.dims = [3]
    case neg => simp only [if_pos h0, if_neg h1, bind_ok, bind_err]
    by_cases h2 : v3.dims = [2]
    case neg => simp only [if_pos h0, if_pos h1, if_neg h2, bind_ok, bind_err]
    exact absurd ⟨h0, h1, h2⟩ h
  · intro h
    simp only [Slices.Ri_add_symAijBj2, Slices.sizes_checked hc 2 hv1, Slices.sizes_checked hc 3 hv2, Slices.sizes_checked hc 2 hv3]
    by_cases h0 : v1.dims = [2]
    case neg => simp only [if_neg h0, bind_ok, bind_err]
    by_cases h1 : v2.dims = [3]
    case neg => simp only [if_pos h0, if_neg h1, bind_ok, bind_err]
    by_cases h2 : v3.dims = [2]
    case neg => simp only [if_pos h0, if_pos h1, if_neg h2, bind_ok, bind_err]
    exact absurd ⟨h0, h1, h2⟩ h
  · intro h
    simp only [Slices.Rij_eq_symAikBjk2, Slices.sizes2_checked hc 2 2 hm1, Slices.sizes_checked hc 3 hv1, Slices.sizes2_checked hc 2 2 hm2]
    by_cases h0 : m1.dims = [2, 2]
    case neg => simp only [if_neg h0, bind_ok, bind_err]
    by_cases h1 : v1.dims = [3]
    case neg => simp only [if_pos h0, if_neg h1, bind_ok, bind_err]
    by_cases h2 : m2.dims = [2, 2]
    case neg => simp only [if_pos h0, if_pos h1, if_neg h2, bind_ok, bind_err]
    exact absurd ⟨h0, h1, h2⟩ h
  · intro h
    simp only [Slices.Rij_eq_AikSymBklAjl2, Slices.sizes_checked hc 3 hv1, Slices.sizes2_checked hc 2 2 hm1, Slices.sizes_checked hc 3 hv2]
    by_cases h0 : v1.dims = [3]
    case neg => simp only [if_neg h0, bind_ok, bind_err]
    by_cases h1 : m1.dims = [2, 2]
    case neg => simp only [if_pos h0, if_neg h1, bind_ok, bind_err]
    by_cases h2 : v2.dims = [3]
    case neg => simp only [if_pos h0, if_pos h1, if_neg h2, bind_ok, bind_err]
    exact absurd ⟨h0, h1, h2⟩ h
  · intro h
    simp only [Slices.symRij_eq_AiAj2, Slices.sizes_checked hc 3 hv1, Slices.sizes_checked hc 2 hv2]
    by_cases h0 : v1.dims = [3]
    case neg => simp only [if_neg h0, bind_ok, bind_err]
    by_cases h1 : v2.dims = [2]
    case neg => simp only [if_pos h0, if_neg h1, bind_ok, bind_err]
    exact absurd ⟨h0, h1⟩ h
  · intro h
    simp only [Slices.symRij_eq_AiBj_plus_AjBi2, Slices.sizes_checked hc 3 hv1, Slices.sizes_checked hc 2 hv2,
      Slices.sizes_checked hc 2 hv3]
    by_cases h0 : v1.dims = [3]
    case neg => simp only [if_neg h0, bind_ok, bind_err]
    by_cases h1 : v2.dims = [2]
    case neg => simp only [if_pos h0, if_neg h1, bind_ok, bind_err]
    by_cases h2 : v3.dims = [2]
    case neg => simp only [if_pos h0, if_pos h1, if_neg h2, bind_ok, bind_err]
    exact absurd ⟨h0, h1, h2⟩ h
  · intro h
    simp only [Slices.denseToSymmetric2, Slices.sizes_checked hc 3 hv1, Slices.sizes2_checked hc 2 2 hm1]
    by_cases h0 : v1.dims = [3]
    case neg => simp only [if_neg h0, bind_ok, bind_err]
    by_cases h1 : m1.dims = [2, 2]
    case neg => simp only [if_pos h0, if_neg h1, bind_ok, bind_err]
    exact absurd ⟨h0, h1⟩ h
  · intro h
    simp only [Slices.symmetricToDense2, Slices.sizes2_checked hc 2 2 hm1, Slices.sizes_checked hc 3 hv1]
    by_cases h0 : m1.dims = [2, 2]
    case neg => simp only [if_neg h0, bind_ok, bind_err]
    by_cases h1 : v1.dims = [3]
    case neg => simp only [if_pos h0, if_neg h1, bind_ok, bind_err]
    exact absurd ⟨h0, h1⟩ h
  · intro h
    simp only [Slices.determinant3, Slices.sizes2_checked hc 3 3 hm1]
    rw [if_neg h, bind_err]
  · intro h
    simp only [Slices.invert3, Slices.sizes2_checked hc 3 3 hm1, Slices.sizes2_checked hc 3 3 hm2]
    by_cases h0 : m1.dims = [3, 3]
    case neg => simp only [if_neg h0, bind_ok, bind_err]
    by_cases h1 : m2.dims = [3, 3]
    case neg => simp only [if_pos h0, if_neg h1, bind_ok, bind_err]
    exact absurd ⟨h0, h1⟩ h
  · intro h
    simp only [Slices.symDeterminant3, Slices.sizes_checked hc 6 hv1]
    rw [if_neg h, bind_err]
  · intro h
    simp only [Slices.symInvert3, Slices.sizes_checked hc 6 hv1, Slices.sizes_checked hc 6 hv2]
    by_cases h0 : v1.dims = [6]
    case neg => simp only [if_neg h0, bind_ok, bind_err]
    by_cases h1 : v2.dims = [6]
    case neg => simp only [if_pos h0, if_neg h1, bind_ok, bind_err]
    exact absurd ⟨h0, h1⟩ h
  · intro h0 h1
    simp only [Slices.symInvert3InPlace, Slices.symInvert3, Slices.sizes_checked hc 6 hv1, Slices.sizes_checked hc 6 hv2,
      if_pos h0, if_neg h1, bind_ok, bind_err]
  · intro h
    simp only [Slices.Ri_eq_symAijBj3, Slices.sizes_checked hc 3 hv1, Slices.sizes_checked hc 6 hv2, Slices.sizes_checked hc 3 hv3]
    by_cases h0 : v1.dims = [3]
    case neg => simp only [if_neg h0, bind_ok, bind_err]
    by_cases h1 : v2.dims = [6]
    case neg => simp only [if_pos h0, if_neg h1, bind_ok, bind_err]
    by_cases h2 : v3.dims = [3]
    case neg => simp only [if_pos h0, if_pos h1, if_neg h2, bind_ok, bind_err]
    exact absurd ⟨h0, h1, h2⟩ h
  · intro h
    simp only [Slices.Ri_add_symAijBj3, Slices.sizes_checked hc 3 hv1, Slices.sizes_checked hc 6 hv2, Slices.sizes_checked hc 3 hv3]
    by_cases h0 : v1.dims = [3]
    case neg => simp only [if_neg h0, bind_ok, bind_err]
    by_cases h1 : v2.dims = [6]
    case neg => simp only [if_pos h0, if_neg h1, bind_ok, bind_err]
    by_cases h2 : v3.dims = [3]
    case neg => simp only [if_pos h0, if_pos h1, if_neg h2, bind_ok, bind_err]
    exact absurd ⟨h0, h1, h2⟩ h
  · intro h
    simp only [Slices.Rij_eq_symAikBjk3, Slices.sizes2_checked hc 3 3 hm1, Slices.sizes_checked hc 6 hv1, Slices.sizes2_checked hc 3 3 hm2]
    by_cases h0 : m1.dims = [3, 3]
    case neg => simp only [if_neg h0, bind_ok, bind_err]
    by_cases h1 : v1.dims = [6]
    case neg => simp only [if_pos h0, if_neg h1, bind_ok, bind_err]
    by_cases h2 : m2.dims = [3, 3]
    case neg => simp only [if_pos h0, if_pos h1, if_neg h2, bind_ok, bind_err]
    exact absurd ⟨h0, h1, h2⟩ h
  · intro h
    simp only [Slices.Rij_eq_AikSymBklAjl3, Slices.sizes_checked hc 6 hv1, Slices.sizes2_checked hc 3 3 hm1, Slices.sizes_checked hc 6 hv2]
    by_cases h0 : v1.dims = [6]
    case neg => simp only [if_neg h0, bind_ok, bind_err]
    by_cases h1 : m1.dims = [3, 3]
    case neg => simp only [if_pos h0, if_neg h1, bind_ok, bind_err]
    by_cases h2 : v2.dims = [6]
    case neg => simp only [if_pos h0, if_pos h1, if_neg h2, bind_ok, bind_err]
    exact absurd ⟨h0, h1, h2⟩ h
  · intro h
    simp only [Slices.symRij_eq_AiAj3, Slices.sizes_checked hc 6 hv1, Slices.sizes_checked hc 3 hv2]
    by_cases h0 : v1.dims = [6]
    case neg => simp only [if_neg h0, bind_ok, bind_err]
    by_cases h1 : v2.dims = [3]
    case neg => simp only [if_pos h0, if_neg h1, bind_ok, bind_err]
    exact absurd ⟨h0, h1⟩ h
  · intro h
    simp only [Slices.symRij_eq_AiBj_plus_AjBi3, Slices.sizes_checked hc 6 hv1, Slices.sizes_checked hc 3 hv2,
      Slices.sizes_checked hc 3 hv3]
    by_cases h0 : v1.dims = [6]
    case neg => simp only [if_neg h0, bind_ok, bind_err]
    by_cases h1 : v2.dims = [3]
    case neg => simp only [if_pos h0, if_neg h1, bind_ok, bind_err]
    by_cases h2 : v3.dims = [3]
    case neg => simp only [if_pos h0, if_pos h1, if_neg h2, bind_ok, bind_err]
    exact absurd ⟨h0, h1, h2⟩ h
  · intro h
    simp only [Slices.denseToSymmetric3, Slices.sizes_checked hc 6 hv1, Slices.sizes2_checked hc 3 3 hm1]
    by_cases h0 : v1.dims = [6]
    case neg => simp only [if_neg h0, bind_ok, bind_err]
    by_cases h1 : m1.dims = [3, 3]
    case neg => simp only [if_pos h0, if_neg h1, bind_ok, bind_err]
    exact absurd ⟨h0, h1⟩ h
  · intro h
    simp only [Slices.symmetricToDense3, Slices.sizes2_checked hc 3 3 hm1, Slices.sizes_checked hc 6 hv1]
    by_cases h0 : m1.dims = [3, 3]
    case neg => simp only [if_neg h0, bind_ok, bind_err]
    by_cases h1 : v1.dims = [6]
    case neg => simp only [if_pos h0, if_neg h1, bind_ok, bind_err]
    exact absurd ⟨h0, h1⟩ h

/-- The exception: `invert` of a matrix of size three, in place, does not compare the sizes.  In a larger matrix the entries of the first three
rows and columns are replaced by their inverse, and the rest stays. -/
theorem C80_invert3_unchecked_witness (c : Cfg) :
    ∃ new, Slices.invert3InPlace c ⟨1, [4, 4], [4, 1], 1⟩ squaresQ = .ok new ∧ [1, 2, 3, 4, 5, 6].map new.1 = [17/16, -13/16, 1/4, 16, -59/32, 19/16] := by
  obtain ⟨t, b, d⟩ := c
  have h : cellsAfter (memoryOnly (Slices.invert3InPlace ⟨t, b, d⟩ ⟨1, [4, 4], [4, 1], 1⟩ squaresQ)) [1, 2, 3, 4, 5, 6] =
      .ok [17/16, -13/16, 1/4, 16, -59/32, 19/16] := by
    cases t <;> cases b <;> cases d <;> decide +kernel
  cases e : Slices.invert3InPlace ⟨t, b, d⟩ ⟨1, [4, 4], [4, 1], 1⟩ squaresQ with
  | error x => rw [e] at h; cases h
  | ok new =>
    rw [e] at h
    injection h with h
    exact ⟨new, rfl, h⟩

/-- With bounds checking the subscripts end the program if the matrix is too small. -/
theorem C80_invert3_small {K : Type} [Field K] {c : Cfg} (hc : c.boundsCheck = true) (m : Slice) (n l : Nat) (hm : m.dims = [n, l])
    (h : n < 3 ∨ l < 3) (mem : Store K) : Slices.invert3InPlace c m mem = .error .abort := by
  have r : ∀ i j : Nat, (∃ x, Slices.rd2 c mem m i j = .ok x ∧ i < n ∧ j < l) ∨ Slices.rd2 c mem m i j = .error .abort := by
    intro i j
    obtain ⟨data, dims, strides, usd⟩ := m
    obtain rfl : dims = [n, l] := hm
    unfold Slices.rd2
    by_cases hi : i < n
    · have e1 := Slice.checkBounds_in c ⟨data, [n, l], strides, usd⟩ (i : Int) (by simp; omega)
      by_cases hj : j < l
      · have e2 : ∀ d s u, Slice.checkBounds c ⟨d, [l], s, u⟩ (j : Int) = .ok () := fun d s u =>
          Slice.checkBounds_in c ⟨d, [l], s, u⟩ (j : Int) (by simp; omega)
        exact .inl ⟨_, by simp only [Slice.chain, Slice.at_, e1, e2, bind_ok, List.tail_cons]; rfl, hi, hj⟩
      · have e2 : ∀ d s u, Slice.checkBounds c ⟨d, [l], s, u⟩ (j : Int) = .error .abort := fun d s u =>
          Slice.checkBounds_out c hc ⟨d, [l], s, u⟩ (j : Int) (by simp; omega)
        exact .inr (by simp only [Slice.chain, Slice.at_, e1, e2, bind_ok, bind_err, List.tail_cons])
    · have e1 := Slice.checkBounds_out c hc ⟨data, [n, l], strides, usd⟩ (i : Int) (by simp; omega)
      exact .inr (by simp only [Slice.chain, Slice.at_, e1, bind_err])
  have r2 : Slices.rd2 c mem m 2 2 = .error .abort := by
    rcases r 2 2 with ⟨x, -, h1, h2⟩ | h
    · omega
    · exact h
  unfold Slices.invert3InPlace
  rcases r 1 1 with ⟨x, e, -⟩ | e
  · rw [e, bind_ok, r2, bind_err]
  · rw [e, bind_err]

/-! ## The hypotheses are met -/

/-- A matrix of size two with contiguous columns beside one with contiguous rows; two matrices of size three that are interleaved. -/
example : IsMatrix 2 2 ⟨0, [2, 2], [1, 2], 0⟩ ∧ Distinct2 2 2 ⟨0, [2, 2], [1, 2], 0⟩ ∧ IsMatrix 2 2 (m22 4) ∧ Distinct2 2 2 (m22 4) ∧
    NoneShared (Cells2 2 2 ⟨0, [2, 2], [1, 2], 0⟩) (Cells2 2 2 (m22 4)) ∧ (matrixAt 2 (m22 4) squaresQ).det ≠ 0 ∧
    IsMatrix 3 3 ⟨0, [3, 3], [6, 2], 2⟩ ∧ Distinct2 3 3 ⟨0, [3, 3], [6, 2], 2⟩ ∧ IsMatrix 3 3 ⟨1, [3, 3], [6, 2], 2⟩ ∧
    Distinct2 3 3 ⟨1, [3, 3], [6, 2], 2⟩ ∧ NoneShared (Cells2 3 3 ⟨0, [3, 3], [6, 2], 2⟩) (Cells2 3 3 ⟨1, [3, 3], [6, 2], 2⟩) ∧
    (matrixAt 3 ⟨1, [3, 3], [6, 2], 2⟩ squaresQ).det ≠ 0 := by
  refine ⟨⟨rfl, rfl, fun _ => rfl, fun h => absurd h (by decide)⟩, fun i j k l hi hj hk hl e => ?_,
    ⟨rfl, rfl, fun h => absurd h (by decide), fun _ => rfl⟩, fun i j k l hi hj hk hl e => ?_, ?_, ?_,
    ⟨rfl, rfl, fun h => absurd h (by decide), fun h => absurd h (by decide)⟩, fun i j k l hi hj hk hl e => ?_,
    ⟨rfl, rfl, fun h => absurd h (by decide), fun h => absurd h (by decide)⟩, fun i j k l hi hj hk hl e => ?_, ?_, ?_⟩
  · simp [entry2] at e; omega
  · simp [entry2, m22] at e; omega
  · rintro a ⟨i, j, hi, hj, rfl⟩ ⟨k, l, hk, hl, e⟩; simp [entry2, m22] at e; omega
  · simp only [matrixAt, ← (C41_determinant _).1]
    norm_num [determinant2, entry2, m22, squaresQ]
  · simp [entry2] at e; omega
  · simp [entry2] at e; omega
  · rintro a ⟨i, j, hi, hj, rfl⟩ ⟨k, l, hk, hl, e⟩; simp [entry2] at e; omega
  · simp only [matrixAt, ← (C41_determinant _).2]
    norm_num [determinant3, entry2, squaresQ]

/-- Packed symmetric matrices: the columns of an array with six rows. -/
example : IsVector 6 ⟨0, [6], [2], 1⟩ ∧ Distinct 6 ⟨0, [6], [2], 1⟩ ∧ IsVector 6 ⟨1, [6], [2], 1⟩ ∧
    NoneShared (Cells 6 ⟨0, [6], [2], 1⟩) (Cells 6 ⟨1, [6], [2], 1⟩) ∧ (packed3 ⟨1, [6], [2], 1⟩ squaresQ).det ≠ 0 ∧
    IsVector 3 (v3 1) ∧ Distinct 3 (v3 1) ∧ NoneShared (Cells 3 (v3 1)) (Cells 3 (v3 5)) ∧ (packed2 (v3 5) squaresQ).det ≠ 0 := by
  refine ⟨⟨rfl, rfl, fun h => absurd h (by decide)⟩, fun i j hi hj e => ?_, ⟨rfl, rfl, fun h => absurd h (by decide)⟩, ?_, ?_,
    ⟨rfl, rfl, fun _ => rfl⟩, fun i j hi hj e => ?_, ?_, ?_⟩
  · simp [entry] at e; omega
  · rintro a ⟨i, hi, rfl⟩ ⟨j, hj, e⟩; simp [entry] at e; omega
  · simp only [packed3, ← (C42_determinant _).2.1]
    norm_num [symDeterminant3, entry, squaresQ]
  · simp [entry, v3] at e; omega
  · rintro a ⟨i, hi, rfl⟩ ⟨j, hj, e⟩; simp [entry, v3] at e; omega
  · simp only [packed2, ← (C42_determinant _).1]
    norm_num [symDeterminant2, entry, v3, squaresQ]

/-- A call with a packed matrix, a vector and a matrix that share nothing. -/
example : NoneShared (Cells 2 (v2 0)) (Cells 3 (v3 2)) ∧ NoneShared (Cells2 2 2 (m22 5)) (Cells 3 (v3 2)) ∧
    cellsAfter (Slices.Ri_add_symAijBj2 ⟨true, true, false⟩ (v2 0) (v3 2) (v2 9) squaresQ) [0, 1, 2] =
      .ok [4 * 81 + 16 * 100, 1 + 16 * 81 + 9 * 100, 4] ∧
    cellsAfter (Slices.symmetricToDense2 ⟨true, true, false⟩ (m22 5) (v3 2) squaresQ) [4, 5, 6, 7, 8, 9] = .ok [16, 4, 16, 16, 9, 81] := by
  refine ⟨?_, ?_, by decide +kernel, by decide +kernel⟩
  · rintro a ⟨i, hi, rfl⟩ ⟨j, hj, e⟩; simp [entry, v2, v3] at e; omega
  · rintro a ⟨i, j, hi, hj, rfl⟩ ⟨k, hk, e⟩; simp [entry, entry2, m22, v3] at e; omega

end LvArray.Props

import Verif.TensorEigenSlices
import Verif.TensorFixedSlicesLemmas

/-!
# Eigenvalues and eigenvectors in memory follow those of vectors and matrices
-/

namespace LvArray.tensorOps.Slices

open Spec

section General

variable {K : Type}

theorem shows1_of {n : Nat} {d : Slice} {mem : Store K} {a : Vec K} (h : ∀ i, i < n → mem (entry d i) = a i) : Shows1 n d mem mem a :=
  ⟨h, fun _ _ => rfl⟩

theorem shows2_of {n m : Nat} {d : Slice} {mem : Store K} {a : Mat K} (h : ∀ i j, i < n → j < m → mem (entry2 d i j) = a i j) :
    Shows2 n m d mem mem a := ⟨h, fun _ _ => rfl⟩

/-- A loop over local variables. -/
theorem loopR_pure {σ : Type} {f : Nat → σ → R σ} {g : Nat → σ → σ} : ∀ (k lo : Nat) (s : σ),
    (∀ i s, lo ≤ i → i < lo + k → f i s = .ok (g i s)) → loopR k lo f s = .ok (loop k lo g s)
  | 0, _, _, _ => rfl
  | k + 1, lo, s, h => by
    rw [loopR, loop, h lo s (by omega) (by omega), bind_ok]
    exact loopR_pure k (lo + 1) _ (fun i s a b => h i s (by omega) (by omega))

/-- A loop that writes a vector. -/
theorem loopR_shows {n : Nat} {d : Slice} {old : Store K} {f : Nat → Store K → R (Store K)} {g : Nat → Vec K → Vec K}
    (h : ∀ i new a, i < n → Shows1 n d old new a → Ends (fun p => Shows1 n d old p (g i a)) (f i new)) : ∀ (k lo : Nat) (new : Store K)
    (a : Vec K), lo + k ≤ n → Shows1 n d old new a → Ends (fun p => Shows1 n d old p (loop k lo g a)) (loopR k lo f new)
  | 0, _, new, a, _, H => ⟨new, rfl, H⟩
  | k + 1, lo, new, a, hk, H => by
    obtain ⟨new', e, H'⟩ := h lo new a (by omega) H
    rw [loopR, loop, e, bind_ok]
    exact loopR_shows h k (lo + 1) new' (g lo a) (by omega) H'

/-- A row of a matrix is a vector. -/
theorem at_row {n m : Nat} {s : Slice} (h : IsMatrix n m s) (c : Cfg) {i : Nat} (hi : i < n) :
    ∃ r, s.at_ c (i : Int) = .ok r ∧ IsVector m r ∧ ∀ j, entry r j = entry2 s i j := by
  obtain ⟨data, dims, strides, usd⟩ := s
  obtain ⟨h1, h2, h3, h4⟩ := h
  simp only at h1 h2 h3 h4
  subst h1
  obtain ⟨t, t', rfl⟩ : ∃ t t', strides = [t, t'] := by
    match strides, h2 with
    | [t, t'], _ => exact ⟨t, t', rfl⟩
  have hb := Slice.checkBounds_in c ⟨data, [n, m], [t, t'], usd⟩ (i : Int) (by simp; omega)
  refine ⟨_, by simp only [Slice.at_, hb, bind_ok]; rfl, ⟨rfl, rfl, ?_⟩, ?_⟩
  · intro hu
    simp only [List.getD_cons_zero, List.getD_cons_succ, List.tail_cons] at hu h4 ⊢
    exact h4 (by omega)
  · intro j
    simp only [List.getD_cons_zero, List.getD_cons_succ] at h3
    simp only [entry, entry2, indexing.condMul, List.headD_cons, List.tail_cons, List.getD_cons_zero, List.getD_cons_succ]
    by_cases hu : usd = 0
    · have := h3 hu; subst hu; simp [this]
    · simp [hu]

theorem row_distinct {n m : Nat} {s r : Slice} {i : Nat} (hD : Distinct2 n m s) (hi : i < n) (he : ∀ j, entry r j = entry2 s i j) :
    Distinct m r := by
  intro j k hj hk h
  rw [he, he] at h
  exact (hD i j i k hi hj hi hk h).2

theorem rows_apart {n m : Nat} {s r t : Slice} {i k : Nat} (hD : Distinct2 n m s) (hi : i < n) (hk : k < n) (hik : i ≠ k)
    (hr : ∀ j, entry r j = entry2 s i j) (ht : ∀ j, entry t j = entry2 s k j) : NoneShared (Cells m r) (Cells m t) := by
  rintro a ⟨j, hj, rfl⟩ ⟨l, hl, h⟩
  rw [hr, ht] at h
  exact hik (hD i j k l hi hj hk hl h).1

/-- Memory shows a vector and a matrix, and the rest is as before. -/
structure ShowsBoth (n : Nat) (de dv : Slice) (old new : Store K) (e : Vec K) (V : Mat K) : Prop where
  vals : ∀ i, i < n → new (entry de i) = e i
  vecs : ∀ i j, i < n → j < n → new (entry2 dv i j) = V i j
  rest : ∀ q, ¬ Cells n de q → ¬ Cells2 n n dv q → new q = old q

section
variable {n : Nat} {de dv : Slice} {old new new' : Store K} {e e' : Vec K} {V V' : Mat K}

theorem ShowsBoth.start : ShowsBoth n de dv old old (vecAt de old) (matAt dv old) := ⟨fun _ _ => rfl, fun _ _ _ _ => rfl, fun _ _ _ => rfl⟩

theorem ShowsBoth.values (h : ShowsBoth n de dv old new e V) (hN : NoneShared (Cells n de) (Cells2 n n dv)) (hs : Shows1 n de new new' e') :
    ShowsBoth n de dv old new' e' V :=
  ⟨hs.1, fun i j hi hj => by rw [hs.2 _ (fun h => hN _ h ⟨i, j, hi, hj, rfl⟩), h.vecs i j hi hj],
    fun q h1 h2 => by rw [hs.2 q h1, h.rest q h1 h2]⟩

theorem ShowsBoth.vectors (h : ShowsBoth n de dv old new e V) (hN : NoneShared (Cells n de) (Cells2 n n dv))
    (hs : Shows2 n n dv new new' V') : ShowsBoth n de dv old new' e V' :=
  ⟨fun i hi => by rw [hs.2 _ (hN _ ⟨i, hi, rfl⟩), h.vals i hi], hs.1, fun q h1 h2 => by rw [hs.2 q h2, h.rest q h1 h2]⟩

end

end General

noncomputable section

theorem load_follows (c : Cfg) {n : Nat} {s : Slice} (hs : IsVector n s) (loc : Vec ℝ) (mem : Store ℝ) :
    load c n loc s mem = .ok (tensorOps.copy n loc (vecAt s mem)) := by
  unfold load tensorOps.copy
  rw [sizes_ok hs, bind_ok]
  refine loopR_pure n 0 loc fun i s' _ hi => ?_
  rw [rd_eq hs c mem (by omega), bind_ok]
  rfl

theorem crossProductOf_follows (c : Cfg) {d : Slice} (mem : Store ℝ) (hd : IsVector 3 d) (hD : Distinct 3 d) (a b v : Vec ℝ)
    (H : Shows1 3 d mem mem v) :
    Ends (fun p => Shows1 3 d mem p (tensorOps.crossProduct v a b)) (crossProductOf c d a b mem) := by
  simp only [crossProductOf, sizes_ok hd, bind_ok]
  refine then_wr hd hD H (by decide) fun m1 H => ?_
  refine then_wr hd hD H (by decide) fun m2 H => ?_
  refine then_wr hd hD H (by decide) fun m3 H => ?_
  exact ⟨_, rfl, H⟩

theorem crossProduct_follows (c : Cfg) {d s t : Slice} (mem : Store ℝ) (hd : IsVector 3 d) (hD : Distinct 3 d) (hs : IsVector 3 s)
    (ht : IsVector 3 t) (ps : NoneShared (Cells 3 d) (Cells 3 s)) (pt : NoneShared (Cells 3 d) (Cells 3 t)) {a b v : Vec ℝ}
    (ha : ∀ i, i < 3 → mem (entry s i) = a i) (hb : ∀ i, i < 3 → mem (entry t i) = b i) (H : Shows1 3 d mem mem v) :
    Ends (fun p => Shows1 3 d mem p (tensorOps.crossProduct v a b)) (crossProduct c d s t mem) := by
  have a0 := ha 0 (by decide)
  have a1 := ha 1 (by decide)
  have a2 := ha 2 (by decide)
  have b0 := hb 0 (by decide)
  have b1 := hb 1 (by decide)
  have b2 := hb 2 (by decide)
  simp only [crossProduct, sizes_ok hd, sizes_ok hs, sizes_ok ht, bind_ok]
  line1 [rd_apart hs c ps H.2, rd_apart ht c pt H.2]
  line1 [rd_apart hs c ps H.2, rd_apart ht c pt H.2]
  line1 [rd_apart hs c ps H.2, rd_apart ht c pt H.2]
  refine ⟨_, rfl, ?_⟩
  rw [a0, a1, a2, b0, b1, b2] at H
  exact H

theorem scaledCopyOf_follows (c : Cfg) {n : Nat} {d : Slice} (mem : Store ℝ) (hd : IsVector n d) (hD : Distinct n d) (a v : Vec ℝ) (s : ℝ)
    (H : Shows1 n d mem mem v) :
    Ends (fun p => Shows1 n d mem p (tensorOps.scaledCopy n v a s)) (scaledCopyOf c n d a s mem) := by
  simp only [scaledCopyOf, tensorOps.scaledCopy, sizes_ok hd, bind_ok]
  refine loopR_shows (fun i new a' hi H => ?_) n 0 mem v (by omega) H
  rw [wr_eq hd c new hi]
  exact ⟨_, rfl, H.put hD hi _⟩

theorem scale_follows (c : Cfg) {n : Nat} {d : Slice} (old mem : Store ℝ) (hd : IsVector n d) (hD : Distinct n d) (v : Vec ℝ) (s : ℝ)
    (H : Shows1 n d old mem v) : Ends (fun p => Shows1 n d old p (tensorOps.scale n v s)) (scale c n d s mem) := by
  simp only [scale, tensorOps.scale, sizes_ok hd, bind_ok]
  refine loopR_shows (fun i new a' hi H => ?_) n 0 mem v (by omega) H
  rw [rd_shown hd c H i hi, bind_ok, wr_eq hd c new hi]
  exact ⟨_, rfl, H.put hD hi _⟩

theorem l2NormSquared_follows (c : Cfg) {n : Nat} {d : Slice} {old mem : Store ℝ} (hn : 0 < n) (hd : IsVector n d) {v : Vec ℝ}
    (H : Shows1 n d old mem v) : l2NormSquared c n d mem = .ok (tensorOps.l2NormSquared n v) := by
  simp only [l2NormSquared, tensorOps.l2NormSquared, sizes_ok hd, bind_ok, rd_shown hd c H 0 hn]
  refine loopR_pure (n - 1) 1 _ fun i s _ hi => ?_
  rw [rd_shown hd c H i (by omega), bind_ok]
  rfl

theorem normalize_follows (c : Cfg) {n : Nat} {d : Slice} (old mem : Store ℝ) (hn : 0 < n) (hd : IsVector n d) (hD : Distinct n d)
    (v : Vec ℝ) (H : Shows1 n d old mem v) :
    Ends (fun p => Shows1 n d old p.1 (tensorOps.normalize n v).1 ∧ p.2 = (tensorOps.normalize n v).2) (normalize c n d mem) := by
  unfold normalize
  rw [sizes_ok hd, bind_ok, l2NormSquared_follows c hn hd H, bind_ok]
  obtain ⟨new, e, H'⟩ := scale_follows c old mem hd hD v (invSqrt (tensorOps.l2NormSquared n v)) H
  simp only [e, bind_ok]
  exact ⟨_, rfl, H', rfl⟩

/-! ## 2 by 2 -/

theorem eigenvaluesOfShiftedMatrix2_follows (c : Cfg) {d : Slice} (mem : Store ℝ) (hd : IsVector 2 d) (hD : Distinct 2 d) (m v : Vec ℝ)
    (H : Shows1 2 d mem mem v) :
    Ends (fun p => Shows1 2 d mem p (tensorOps.eigenvaluesOfShiftedMatrix2 v m)) (eigenvaluesOfShiftedMatrix2 c d m mem) := by
  simp only [eigenvaluesOfShiftedMatrix2]
  line1 [rd_shown hd c H]
  line1 [rd_shown hd c H]
  exact ⟨_, rfl, H⟩

theorem symEigenvalues2_follows (c : Cfg) {d s : Slice} (fp : Vec ℝ) (mem : Store ℝ) (hd : IsVector 2 d) (hD : Distinct 2 d)
    (hs : IsVector 3 s) :
    Ends (fun p => Shows1 2 d mem p (tensorOps.symEigenvalues2 fp (vecAt d mem) (vecAt s mem))) (symEigenvalues2 c fp d s mem) := by
  simp only [symEigenvalues2, sizes_ok hd, sizes_ok hs, bind_ok, load_follows c hs]
  obtain ⟨m1, e1, H⟩ := eigenvaluesOfShiftedMatrix2_follows c mem hd hD
    (tensorOps.shiftAndScale 2 (tensorOps.copy 3 fp (vecAt s mem))).1 _ (shows1_start 2 d mem)
  rw [e1, bind_ok]
  line1 [rd_shown hd c H]
  line1 [rd_shown hd c H]
  exact ⟨_, rfl, H⟩

theorem kernel2_follows (c : Cfg) {d : Slice} (mem : Store ℝ) (hd : IsMatrix 2 2 d) (hD : Distinct2 2 2 d) (f : Vec ℝ) (V : Mat ℝ)
    (H : Shows2 2 2 d mem mem V) : Ends (fun p => Shows2 2 2 d mem p (tensorOps.kernel2 V f)) (kernel2 c d f mem) := by
  unfold kernel2 tensorOps.kernel2
  by_cases h : f 0 * f 0 > f 1 * f 1
  · simp only [if_pos h]
    simp only [wr2_eq hd c _ (show 0 < 2 by decide) (show 1 < 2 by decide), wr2_eq hd c _ (show 1 < 2 by decide) (show 1 < 2 by decide), bind_ok]
    have H := (H.put hD (i := 0) (j := 1) (by decide) (by decide) (-f 2 * invSqrt (f 0 * f 0 + f 2 * f 2))).put hD (i := 1) (j := 1)
      (by decide) (by decide) (f 0 * invSqrt (f 0 * f 0 + f 2 * f 2))
    line2 [rd2_shown hd c H]
    line2 [rd2_shown hd c H]
    exact ⟨_, rfl, H⟩
  · simp only [if_neg h]
    simp only [wr2_eq hd c _ (show 0 < 2 by decide) (show 1 < 2 by decide), wr2_eq hd c _ (show 1 < 2 by decide) (show 1 < 2 by decide), bind_ok]
    have H := (H.put hD (i := 0) (j := 1) (by decide) (by decide) (-f 1 * invSqrt (f 1 * f 1 + f 2 * f 2))).put hD (i := 1) (j := 1)
      (by decide) (by decide) (f 2 * invSqrt (f 1 * f 1 + f 2 * f 2))
    line2 [rd2_shown hd c H]
    line2 [rd2_shown hd c H]
    exact ⟨_, rfl, H⟩

theorem assignIdentity2_follows (c : Cfg) {d : Slice} (mem : Store ℝ) (hd : IsMatrix 2 2 d) (hD : Distinct2 2 2 d) (V : Mat ℝ)
    (H : Shows2 2 2 d mem mem V) :
    Ends (fun p => Shows2 2 2 d mem p ((((V.put 0 0 1).put 0 1 0).put 1 0 0).put 1 1 1)) (assignIdentity2 c d mem) := by
  unfold assignIdentity2
  line2 [rd2_shown hd c H]
  line2 [rd2_shown hd c H]
  line2 [rd2_shown hd c H]
  line2 [rd2_shown hd c H]
  exact ⟨_, rfl, H⟩

theorem symEigenvectors2_follows (c : Cfg) {de dv s : Slice} (epsilon : ℝ) (fp : Vec ℝ) (mem : Store ℝ) (he : IsVector 2 de)
    (hE : Distinct 2 de) (hv : IsMatrix 2 2 dv) (hV : Distinct2 2 2 dv) (hs : IsVector 3 s)
    (hN : NoneShared (Cells 2 de) (Cells2 2 2 dv)) :
    Ends (fun p => ShowsBoth 2 de dv mem p (tensorOps.symEigenvectors2 epsilon fp (vecAt de mem) (matAt dv mem) (vecAt s mem)).1
      (tensorOps.symEigenvectors2 epsilon fp (vecAt de mem) (matAt dv mem) (vecAt s mem)).2)
      (symEigenvectors2 c epsilon fp de dv s mem) := by
  simp only [symEigenvectors2, tensorOps.symEigenvectors2, sizes_ok he, sizes_ok hs, sizes2_ok hv, bind_ok, load_follows c hs]
  generalize tensorOps.shiftAndScale 2 (tensorOps.copy 3 fp (vecAt s mem)) = S
  obtain ⟨f, shift, scl⟩ := S
  simp only
  obtain ⟨m1, e1, H⟩ := eigenvaluesOfShiftedMatrix2_follows c mem he hE f _ (shows1_start 2 de mem)
  have B := ShowsBoth.start.values hN H
  generalize tensorOps.eigenvaluesOfShiftedMatrix2 (vecAt de mem) f = E at *
  simp only [e1, bind_ok, rd_shown he c H 1 (by decide), rd_shown he c H 0 (by decide)]
  have tail : ∀ (m2 : Store ℝ) (W : Mat ℝ), ShowsBoth 2 de dv mem m2 E W →
      Ends (fun p => ShowsBoth 2 de dv mem p ((E.put 0 (E 0 * scl + shift)).put 1 (E.put 0 (E 0 * scl + shift) 1 * scl + shift)) W) (do
        let mem ← wr c m2 de 0 ((← rd c m2 de 0) * scl + shift)
        let mem ← wr c mem de 1 ((← rd c mem de 1) * scl + shift)
        .ok mem) := by
    intro m2 W B2
    have H2 := shows1_of B2.vals
    simp only [rd_shown he c H2 0 (by decide), bind_ok, wr_eq he c _ (show 0 < 2 by decide), wr_eq he c _ (show 1 < 2 by decide)]
    have H3 := H2.put hE (show 0 < 2 by decide) (E 0 * scl + shift)
    rw [rd_shown he c H3 1 (by decide), bind_ok]
    exact ⟨_, rfl, B2.values hN (H3.put hE (show 1 < 2 by decide) _)⟩
  by_cases h : E 1 - E 0 ≤ epsilon
  · simp only [if_pos h]
    obtain ⟨m2, e2, H2⟩ := assignIdentity2_follows c m1 hv hV (matAt dv mem) (shows2_of B.vecs)
    rw [e2, bind_ok]
    exact tail m2 _ (B.vectors hN H2)
  · simp only [if_neg h]
    obtain ⟨m2, e2, H2⟩ := kernel2_follows c m1 hv hV (tensorOps.symAddIdentity 2 f (-E 1)) (matAt dv mem) (shows2_of B.vecs)
    rw [e2, bind_ok]
    exact tail m2 _ (B.vectors hN H2)

/-! ## 3 by 3 -/

theorem eigenvaluesOfShiftedMatrix3_follows (c : Cfg) {d : Slice} (mem : Store ℝ) (hd : IsVector 3 d) (hD : Distinct 3 d) (m v : Vec ℝ)
    (H : Shows1 3 d mem mem v) :
    Ends (fun p => Shows1 3 d mem p (tensorOps.eigenvaluesOfShiftedMatrix3 v m)) (eigenvaluesOfShiftedMatrix3 c d m mem) := by
  simp only [eigenvaluesOfShiftedMatrix3]
  refine then_wr hd hD H (by decide) fun m1 H => ?_
  refine then_wr hd hD H (by decide) fun m2 H => ?_
  refine then_wr hd hD H (by decide) fun m3 H => ?_
  exact ⟨_, rfl, H⟩

theorem rescale3_follows (c : Cfg) {d : Slice} (old mem : Store ℝ) (hd : IsVector 3 d) (hD : Distinct 3 d) (v : Vec ℝ) (x y : ℝ)
    (H : Shows1 3 d old mem v) :
    Ends (fun p => Shows1 3 d old p
      (let v := v.put 0 (x * v 0 + y); let v := v.put 1 (x * v 1 + y); v.put 2 (x * v 2 + y))) (rescale3 c d x y mem) := by
  simp only [rescale3]
  line1 [rd_shown hd c H]
  line1 [rd_shown hd c H]
  line1 [rd_shown hd c H]
  exact ⟨_, rfl, H⟩

theorem symEigenvalues3_follows (c : Cfg) {d s : Slice} (fp : Vec ℝ) (mem : Store ℝ) (hd : IsVector 3 d) (hD : Distinct 3 d)
    (hs : IsVector 6 s) :
    Ends (fun p => Shows1 3 d mem p (tensorOps.symEigenvalues3 fp (vecAt d mem) (vecAt s mem))) (symEigenvalues3 c fp d s mem) := by
  simp only [symEigenvalues3, sizes_ok hd, sizes_ok hs, bind_ok, load_follows c hs]
  obtain ⟨m1, e1, H⟩ := eigenvaluesOfShiftedMatrix3_follows c mem hd hD
    (tensorOps.shiftAndScale 3 (tensorOps.copy 6 fp (vecAt s mem))).1 _ (shows1_start 3 d mem)
  rw [e1, bind_ok]
  exact rescale3_follows c mem m1 hd hD _ _ _ H

theorem getNullVector_follows (c : Cfg) {d : Slice} (mem : Store ℝ) (hd : IsVector 3 d) (hD : Distinct 3 d) (cand v : Vec ℝ) (M : Mat ℝ)
    (H : Shows1 3 d mem mem v) :
    Ends (fun p => Shows1 3 d mem p.1 (tensorOps.getNullVector cand v M).1 ∧ p.2 = (tensorOps.getNullVector cand v M).2)
      (getNullVector c cand d M mem) := by
  unfold getNullVector tensorOps.getNullVector
  simp only
  generalize (if |M 0 0| > |M 1 1| then if |M 0 0| > |M 2 2| then 0 else 2 else if |M 1 1| > |M 2 2| then 1 else 2) = row
  obtain ⟨m1, e1, H1⟩ := crossProductOf_follows c mem hd hD (M row) (M ((row + 1) % 3)) v H
  rw [e1, bind_ok, l2NormSquared_follows c (by decide) hd H1, bind_ok]
  generalize tensorOps.crossProduct v (M row) (M ((row + 1) % 3)) = u at *
  generalize tensorOps.crossProduct cand (M row) (M ((row + 2) % 3)) = t at *
  by_cases h : tensorOps.l2NormSquared 3 u > tensorOps.l2NormSquared 3 t
  · simp only [if_pos h]
    obtain ⟨m2, e2, H2⟩ := scale_follows c mem m1 hd hD u (invSqrt (tensorOps.l2NormSquared 3 u)) H1
    rw [e2, bind_ok]
    exact ⟨_, rfl, H2, rfl⟩
  · simp only [if_neg h]
    obtain ⟨m2, e2, H2⟩ := scaledCopyOf_follows c m1 hd hD t u (invSqrt (tensorOps.l2NormSquared 3 t)) (shows1_of H1.1)
    rw [e2, bind_ok]
    exact ⟨_, rfl, ⟨H2.1, fun q hq => (H2.2 q hq).trans (H1.2 q hq)⟩, rfl⟩

theorem assignIdentity3_follows (c : Cfg) {d : Slice} (mem : Store ℝ) (hd : IsMatrix 3 3 d) (hD : Distinct2 3 3 d) (V : Mat ℝ)
    (H : Shows2 3 3 d mem mem V) :
    Ends (fun p => Shows2 3 3 d mem p (tensorOps.assignIdentity3 V)) (assignIdentity3 c d mem) := by
  unfold assignIdentity3
  line2 [rd2_shown hd c H]
  line2 [rd2_shown hd c H]
  line2 [rd2_shown hd c H]
  line2 [rd2_shown hd c H]
  line2 [rd2_shown hd c H]
  line2 [rd2_shown hd c H]
  line2 [rd2_shown hd c H]
  line2 [rd2_shown hd c H]
  line2 [rd2_shown hd c H]
  exact ⟨_, rfl, H⟩

/-- A row was written. -/
theorem ShowsBoth.row {n : Nat} {de dv r : Slice} {old new new' : Store ℝ} {e v : Vec ℝ} {V : Mat ℝ} {i : Nat}
    (h : ShowsBoth n de dv old new e V) (hV : Distinct2 n n dv) (hN : NoneShared (Cells n de) (Cells2 n n dv)) (hi : i < n)
    (hr : ∀ j, entry r j = entry2 dv i j) (hs : Shows1 n r new new' v) : ShowsBoth n de dv old new' e (putRow V i v) := by
  have hc : ∀ q, Cells n r q → Cells2 n n dv q := by
    rintro q ⟨j, hj, rfl⟩
    exact ⟨i, j, hi, hj, hr j⟩
  refine ⟨fun k hk => ?_, fun k l hk hl => ?_, fun q h1 h2 => ?_⟩
  · rw [hs.2 _ (fun h => hN _ ⟨k, hk, rfl⟩ (hc _ h)), h.vals k hk]
  · unfold putRow
    by_cases hki : k = i
    · subst hki
      rw [if_pos rfl, ← hr, hs.1 l hl]
    · rw [if_neg hki, hs.2 _ ?_, h.vecs k l hk hl]
      rintro ⟨j, hj, h'⟩
      rw [hr] at h'
      exact hki (hV k l i j hk hl hi hj h').1
  · rw [hs.2 q (fun h => h2 (hc q h)), h.rest q h1 h2]

theorem vectors3_follows (c : Cfg) {de dv : Slice} (epsilon : ℝ) (cand fp : Vec ℝ) (old mem : Store ℝ) (he : IsVector 3 de)
    (hv : IsMatrix 3 3 dv) (hV : Distinct2 3 3 dv) (hN : NoneShared (Cells 3 de) (Cells2 3 3 dv)) (E : Vec ℝ) (V : Mat ℝ)
    (B : ShowsBoth 3 de dv old mem E V) :
    Ends (fun p => ShowsBoth 3 de dv old p E (tensorOps.vectors3 epsilon cand E V fp))
      (vectors3 c epsilon (E 2 - E 0) cand de dv fp mem) := by
  obtain ⟨r0, a0, v0, n0⟩ := at_row hv c (show 0 < 3 by decide)
  obtain ⟨r1, a1, v1, n1⟩ := at_row hv c (show 1 < 3 by decide)
  obtain ⟨r2, a2, v2, n2⟩ := at_row hv c (show 2 < 3 by decide)
  unfold vectors3 tensorOps.vectors3
  have H := shows1_of B.vals
  simp only [rd_shown he c H 0 (by decide), rd_shown he c H 1 (by decide), rd_shown he c H 2 (by decide), bind_ok]
  have hm : ∃ m, (if E 2 - E 1 > E 1 - E 0 then 2 else 0) = m ∧ m < 3 ∧ 2 - m < 3 ∧ m ≠ 1 ∧ 2 - m ≠ 1 := by
    split
    · exact ⟨2, rfl, by decide⟩
    · exact ⟨0, rfl, by decide⟩
  obtain ⟨m, hm, hm1, hm2, hm3, hm4⟩ := hm
  simp only [hm]
  obtain ⟨rm, am, vm, nm⟩ := at_row hv c hm1
  obtain ⟨rs, as, vs, ns⟩ := at_row hv c hm2
  simp only [rd_shown he c H m hm1, am, bind_ok]
  obtain ⟨⟨k1, row⟩, e1, H1, hrow⟩ := getNullVector_follows c mem vm (row_distinct hV hm1 nm) cand (V m) (shifted3 fp (E m))
    (shows1_of fun j hj => by rw [nm]; exact B.vecs m j hm1 hj)
  have B1 := B.row hV hN hm1 nm H1
  have H := shows1_of B1.vals
  simp only at hrow H1 B1 H
  simp only [e1, bind_ok, rd_shown he c H (2 - m) hm2, rd_shown he c H 1 (by decide), as, ← hrow]
  generalize putRow V m (tensorOps.getNullVector cand (V m) (shifted3 fp (E m))).1 = W at *
  have S := shows1_of (n := 3) (d := rs) (mem := k1) (a := W (2 - m)) fun j hj => by rw [ns]; exact B1.vecs _ j hm2 hj
  have tail : ∀ (k2 : Store ℝ) (X : Mat ℝ), ShowsBoth 3 de dv old k2 E X →
      Ends (fun p => ShowsBoth 3 de dv old p E
        (let X := putRow X 1 (tensorOps.crossProduct (X 1) (X 2) (X 0)); putRow X 1 (tensorOps.normalize 3 (X 1)).1)) (do
        let mem ← crossProduct c r1 r2 r0 k2
        let (mem, _) ← normalize c 3 r1 mem
        .ok mem) := by
    intro k2 X B2
    have b2 : ∀ j, j < 3 → k2 (entry r2 j) = X 2 j := fun j hj => by rw [n2]; exact B2.vecs 2 j (by decide) hj
    have b0 : ∀ j, j < 3 → k2 (entry r0 j) = X 0 j := fun j hj => by rw [n0]; exact B2.vecs 0 j (by decide) hj
    have b1 : ∀ j, j < 3 → k2 (entry r1 j) = X 1 j := fun j hj => by rw [n1]; exact B2.vecs 1 j (by decide) hj
    obtain ⟨k3, e3, H3⟩ := crossProduct_follows c k2 v1 (row_distinct hV (by decide) n1) v2 v0
      (rows_apart hV (by decide) (by decide) (by decide) n1 n2) (rows_apart hV (by decide) (by decide) (by decide) n1 n0)
      b2 b0 (shows1_of b1)
    have B3 := B2.row hV hN (show 1 < 3 by decide) n1 H3
    have b3 : ∀ j, j < 3 → k3 (entry r1 j) = (putRow X 1 (tensorOps.crossProduct (X 1) (X 2) (X 0))) 1 j :=
      fun j hj => by rw [n1]; exact B3.vecs 1 j (by decide) hj
    rw [e3, bind_ok]
    obtain ⟨⟨k4, _⟩, e4, H4, _⟩ := normalize_follows c k3 k3 (by decide) v1 (row_distinct hV (by decide) n1) _
      (shows1_of b3)
    have B4 := B3.row hV hN (show 1 < 3 by decide) n1 H4
    rw [e4, bind_ok]
    exact ⟨_, rfl, B4⟩
  have a0' : dv.at_ c 0 = .ok r0 := a0
  have a1' : dv.at_ c 1 = .ok r1 := a1
  have a2' : dv.at_ c 2 = .ok r2 := a2
  simp only [a0', a1', a2', bind_ok]
  by_cases h : |E (2 - m) - E 1| ≤ 2 * epsilon * (E 2 - E 0)
  · simp only [if_pos h]
    obtain ⟨k2, e2, H2⟩ := scaledCopyOf_follows c k1 vs (row_distinct hV hm2 ns) (shifted3 fp (E m) row) (W (2 - m))
      (invSqrt (tensorOps.l2NormSquared 3 (shifted3 fp (E m) row))) S
    rw [e2, bind_ok]
    exact tail k2 _ (B1.row hV hN hm2 ns H2)
  · simp only [if_neg h]
    obtain ⟨⟨k2, _⟩, e2, H2, _⟩ := getNullVector_follows c k1 vs (row_distinct hV hm2 ns) cand (W (2 - m))
      ((((shifted3 fp (E m)).put 0 0 (fp 0 - E (2 - m))).put 1 1 (fp 1 - E (2 - m))).put 2 2 (fp 2 - E (2 - m))) S
    rw [e2, bind_ok]
    exact tail k2 _ (B1.row hV hN hm2 ns H2)

theorem symEigenvectors3_follows (c : Cfg) {de dv s : Slice} (epsilon : ℝ) (cand fp : Vec ℝ) (mem : Store ℝ) (he : IsVector 3 de)
    (hE : Distinct 3 de) (hv : IsMatrix 3 3 dv) (hV : Distinct2 3 3 dv) (hs : IsVector 6 s)
    (hN : NoneShared (Cells 3 de) (Cells2 3 3 dv)) :
    Ends (fun p => ShowsBoth 3 de dv mem p (tensorOps.symEigenvectors3 epsilon cand fp (vecAt de mem) (matAt dv mem) (vecAt s mem)).1
      (tensorOps.symEigenvectors3 epsilon cand fp (vecAt de mem) (matAt dv mem) (vecAt s mem)).2)
      (symEigenvectors3 c epsilon cand fp de dv s mem) := by
  simp only [symEigenvectors3, tensorOps.symEigenvectors3, sizes_ok he, sizes_ok hs, sizes2_ok hv, bind_ok, load_follows c hs]
  generalize tensorOps.shiftAndScale 3 (tensorOps.copy 6 fp (vecAt s mem)) = S
  obtain ⟨f, shift, scl⟩ := S
  simp only
  obtain ⟨m1, e1, H⟩ := eigenvaluesOfShiftedMatrix3_follows c mem he hE f _ (shows1_start 3 de mem)
  have B := ShowsBoth.start.values hN H
  generalize tensorOps.eigenvaluesOfShiftedMatrix3 (vecAt de mem) f = E at *
  simp only [e1, bind_ok, rd_shown he c H 2 (by decide), rd_shown he c H 0 (by decide)]
  by_cases h : E 2 - E 0 ≤ epsilon
  · simp only [if_pos h]
    obtain ⟨m2, e2, H2⟩ := assignIdentity3_follows c m1 hv hV (matAt dv mem) (shows2_of B.vecs)
    have B2 := B.vectors hN H2
    rw [e2, bind_ok]
    obtain ⟨m3, e3, H3⟩ := rescale3_follows c m2 m2 he hE E scl shift (shows1_of B2.vals)
    exact ⟨m3, e3, B2.values hN H3⟩
  · simp only [if_neg h]
    obtain ⟨m2, e2, B2⟩ := vectors3_follows c epsilon cand f mem m1 he hv hV hN E (matAt dv mem) B
    rw [e2, bind_ok]
    obtain ⟨m3, e3, H3⟩ := rescale3_follows c m2 m2 he hE E scl shift (shows1_of B2.vals)
    exact ⟨m3, e3, B2.values hN H3⟩

end

end LvArray.tensorOps.Slices

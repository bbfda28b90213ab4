import Verif.TensorFixedSlices
import Verif.TensorSlicesLemmas

/-!
# Operations on square matrices in memory follow those on matrices
-/

namespace LvArray.tensorOps.Slices

open Spec

variable {K : Type}

/-- The call returns something with a property. -/
def Ends {β : Type} (Q : β → Prop) (r : R β) : Prop := ∃ b, r = .ok b ∧ Q b

/-- What memory holds where the entries of a vector are is that vector, and the rest is as before. -/
def Shows1 (n : Nat) (s : Slice) (old new : Store K) (a : Vec K) : Prop :=
  (∀ i, i < n → new (entry s i) = a i) ∧ ∀ q, ¬ Cells n s q → new q = old q

theorem Shows1.put {n : Nat} {s : Slice} {old new : Store K} {a : Vec K} (hD : Distinct n s) (h : Shows1 n s old new a)
    {i : Nat} (hi : i < n) (x : K) : Shows1 n s old (new.set (entry s i) x) (a.put i x) := by
  refine ⟨fun k hk => ?_, fun q hq => ?_⟩
  · unfold Vec.put
    by_cases hki : k = i
    · rw [if_pos hki, hki, set_same]
    · rw [if_neg hki, set_ne _ _ (fun e => hki (hD k i hk hi e)), h.1 k hk]
  · rw [set_ne _ _ (fun e => hq ⟨i, hi, e⟩), h.2 q hq]

theorem then_wr {β : Type} {n : Nat} {d : Slice} {old new : Store K} {a : Vec K} {Q : β → Prop} {c : Cfg} {k : Store K → R β} {i : Nat} {x : K}
    (hd : IsVector n d) (hD : Distinct n d) (H : Shows1 n d old new a) (hi : i < n)
    (hk : ∀ new', Shows1 n d old new' (a.put i x) → Ends Q (k new')) : Ends Q (wr c new d i x >>= k) := by
  rw [wr_eq hd c new hi, bind_ok]
  exact hk _ (H.put hD hi x)

theorem then_wr2 {β : Type} {n m : Nat} {d : Slice} {old new : Store K} {a : Mat K} {Q : β → Prop} {c : Cfg} {k : Store K → R β} {i j : Nat} {x : K}
    (hd : IsMatrix n m d) (hD : Distinct2 n m d) (H : Shows2 n m d old new a) (hi : i < n) (hj : j < m)
    (hk : ∀ new', Shows2 n m d old new' (a.put i j x) → Ends Q (k new')) : Ends Q (wr2 c new d i j x >>= k) := by
  rw [wr2_eq hd c new hi hj, bind_ok]
  exact hk _ (H.put hD hi hj x)

theorem rd_apart {n : Nat} {D : Int → Prop} {s : Slice} (hs : IsVector n s) (c : Cfg) (hN : NoneShared D (Cells n s)) {old new : Store K}
    (H : ∀ q, ¬ D q → new q = old q) (i : Nat) (hi : i < n) : rd c new s i = .ok (old (entry s i)) := by
  rw [rd_eq hs c new hi, H _ (fun hq => hN _ hq ⟨i, hi, rfl⟩)]

theorem rd2_apart {n m : Nat} {D : Int → Prop} {s : Slice} (hs : IsMatrix n m s) (c : Cfg) (hN : NoneShared D (Cells2 n m s))
    {old new : Store K} (H : ∀ q, ¬ D q → new q = old q) (i j : Nat) (hi : i < n) (hj : j < m) :
    rd2 c new s i j = .ok (old (entry2 s i j)) := by
  rw [rd2_eq hs c new hi hj, H _ (fun hq => hN _ hq ⟨i, j, hi, hj, rfl⟩)]

theorem rd_shown {n : Nat} {d : Slice} (hd : IsVector n d) (c : Cfg) {old new : Store K} {a : Vec K} (H : Shows1 n d old new a) (i : Nat)
    (hi : i < n) : rd c new d i = .ok (a i) := by
  rw [rd_eq hd c new hi, H.1 i hi]

theorem rd2_shown {n m : Nat} {d : Slice} (hd : IsMatrix n m d) (c : Cfg) {old new : Store K} {a : Mat K} (H : Shows2 n m d old new a)
    (i j : Nat) (hi : i < n) (hj : j < m) : rd2 c new d i j = .ok (a i j) := by
  rw [rd2_eq hd c new hi hj, H.1 i j hi hj]

/-- The vector in memory. -/
def vecAt (s : Slice) (mem : Store K) : Vec K := fun i => mem (entry s i)

/-- The matrix in memory. -/
def matAt (s : Slice) (mem : Store K) : Mat K := fun i j => mem (entry2 s i j)

theorem shows1_start (n : Nat) (s : Slice) (mem : Store K) : Shows1 n s mem mem (vecAt s mem) := ⟨fun _ _ => rfl, fun _ _ => rfl⟩

theorem shows2_start (n m : Nat) (s : Slice) (mem : Store K) : Shows2 n m s mem mem (matAt s mem) := ⟨fun _ _ _ _ => rfl, fun _ _ => rfl⟩

set_option hygiene false in
/-- One assignment to an entry of the destination, a vector; the arguments say what its right hand side reads. -/
macro "line1" "[" ts:term,* "]" : tactic => do
  `(tactic| ((try simp (disch := decide) only [$[$ts:term],*, bind_ok]); refine then_wr hd hD H (by decide) ?_; clear H; intro mem' H))

set_option hygiene false in
/-- One assignment to an entry of the destination, a matrix; the arguments say what its right hand side reads. -/
macro "line2" "[" ts:term,* "]" : tactic => do
  `(tactic| ((try simp (disch := decide) only [$[$ts:term],*, bind_ok]); refine then_wr2 hd hD H (by decide) (by decide) ?_; clear H; intro mem' H))

section Ring

variable [CommRing K]

theorem determinant2_follows (c : Cfg) {a : Slice} (mem : Store K) (ha : IsMatrix 2 2 a) :
    determinant2 c a mem = .ok (tensorOps.determinant2 (matAt a mem)) := by
  simp (disch := decide) only [determinant2, sizes2_ok ha, bind_ok, rd2_shown ha c (shows2_start 2 2 a mem)]
  rfl

theorem symDeterminant2_follows (c : Cfg) {a : Slice} (mem : Store K) (ha : IsVector 3 a) :
    symDeterminant2 c a mem = .ok (tensorOps.symDeterminant2 (vecAt a mem)) := by
  simp (disch := decide) only [symDeterminant2, sizes_ok ha, bind_ok, rd_shown ha c (shows1_start 3 a mem)]
  rfl

theorem Ri_eq_symAijBj2_follows (c : Cfg) {d a b : Slice} (mem : Store K) (hd : IsVector 2 d) (ha : IsVector 3 a) (hb : IsVector 2 b)
    (hD : Distinct 2 d) (pa : NoneShared (Cells 2 d) (Cells 3 a)) (pb : NoneShared (Cells 2 d) (Cells 2 b)) :
    Ends (fun p => Shows1 2 d mem p (tensorOps.Ri_eq_symAijBj2 (vecAt d mem) (vecAt a mem) (vecAt b mem)))
    (Ri_eq_symAijBj2 c d a b mem) := by
  have H := shows1_start 2 d mem
  simp only [Ri_eq_symAijBj2, sizes_ok hd, sizes_ok ha, sizes_ok hb, bind_ok]
  line1 [rd_apart ha c pa H.2, rd_apart hb c pb H.2, rd_shown hd c H]
  line1 [rd_apart ha c pa H.2, rd_apart hb c pb H.2, rd_shown hd c H]
  exact ⟨_, rfl, H⟩

theorem Ri_add_symAijBj2_follows (c : Cfg) {d a b : Slice} (mem : Store K) (hd : IsVector 2 d) (ha : IsVector 3 a) (hb : IsVector 2 b)
    (hD : Distinct 2 d) (pa : NoneShared (Cells 2 d) (Cells 3 a)) (pb : NoneShared (Cells 2 d) (Cells 2 b)) :
    Ends (fun p => Shows1 2 d mem p (tensorOps.Ri_add_symAijBj2 (vecAt d mem) (vecAt a mem) (vecAt b mem)))
    (Ri_add_symAijBj2 c d a b mem) := by
  have H := shows1_start 2 d mem
  simp only [Ri_add_symAijBj2, sizes_ok hd, sizes_ok ha, sizes_ok hb, bind_ok]
  line1 [rd_apart ha c pa H.2, rd_apart hb c pb H.2, rd_shown hd c H]
  line1 [rd_apart ha c pa H.2, rd_apart hb c pb H.2, rd_shown hd c H]
  exact ⟨_, rfl, H⟩

theorem Rij_eq_symAikBjk2_follows (c : Cfg) {d a b : Slice} (mem : Store K) (hd : IsMatrix 2 2 d) (ha : IsVector 3 a)
    (hb : IsMatrix 2 2 b) (hD : Distinct2 2 2 d) (pa : NoneShared (Cells2 2 2 d) (Cells 3 a)) (pb : NoneShared (Cells2 2 2 d)
    (Cells2 2 2 b)) :
    Ends (fun p => Shows2 2 2 d mem p (tensorOps.Rij_eq_symAikBjk2 (matAt d mem) (vecAt a mem) (matAt b mem)))
    (Rij_eq_symAikBjk2 c d a b mem) := by
  have H := shows2_start 2 2 d mem
  simp only [Rij_eq_symAikBjk2, sizes2_ok hd, sizes_ok ha, sizes2_ok hb, bind_ok]
  line2 [rd_apart ha c pa H.2, rd2_apart hb c pb H.2, rd2_shown hd c H]
  line2 [rd_apart ha c pa H.2, rd2_apart hb c pb H.2, rd2_shown hd c H]
  line2 [rd_apart ha c pa H.2, rd2_apart hb c pb H.2, rd2_shown hd c H]
  line2 [rd_apart ha c pa H.2, rd2_apart hb c pb H.2, rd2_shown hd c H]
  exact ⟨_, rfl, H⟩

theorem Rij_eq_AikSymBklAjl2_follows (c : Cfg) {d a b : Slice} (mem : Store K) (hd : IsVector 3 d) (ha : IsMatrix 2 2 a)
    (hb : IsVector 3 b) (hD : Distinct 3 d) (pa : NoneShared (Cells 3 d) (Cells2 2 2 a)) (pb : NoneShared (Cells 3 d) (Cells 3 b)) :
    Ends (fun p => Shows1 3 d mem p (tensorOps.Rij_eq_AikSymBklAjl2 (vecAt d mem) (matAt a mem) (vecAt b mem)))
    (Rij_eq_AikSymBklAjl2 c d a b mem) := by
  have H := shows1_start 3 d mem
  simp only [Rij_eq_AikSymBklAjl2, sizes_ok hd, sizes2_ok ha, sizes_ok hb, bind_ok]
  line1 [rd2_apart ha c pa H.2, rd_apart hb c pb H.2, rd_shown hd c H]
  line1 [rd2_apart ha c pa H.2, rd_apart hb c pb H.2, rd_shown hd c H]
  line1 [rd2_apart ha c pa H.2, rd_apart hb c pb H.2, rd_shown hd c H]
  exact ⟨_, rfl, H⟩

theorem symRij_eq_AiAj2_follows (c : Cfg) {d a : Slice} (mem : Store K) (hd : IsVector 3 d) (ha : IsVector 2 a) (hD : Distinct 3 d)
    (pa : NoneShared (Cells 3 d) (Cells 2 a)) :
    Ends (fun p => Shows1 3 d mem p (tensorOps.symRij_eq_AiAj2 (vecAt d mem) (vecAt a mem))) (symRij_eq_AiAj2 c d a mem) := by
  have H := shows1_start 3 d mem
  simp only [symRij_eq_AiAj2, sizes_ok hd, sizes_ok ha, bind_ok]
  line1 [rd_apart ha c pa H.2, rd_shown hd c H]
  line1 [rd_apart ha c pa H.2, rd_shown hd c H]
  line1 [rd_apart ha c pa H.2, rd_shown hd c H]
  exact ⟨_, rfl, H⟩

theorem symRij_eq_AiBj_plus_AjBi2_follows (c : Cfg) {d a b : Slice} (mem : Store K) (hd : IsVector 3 d) (ha : IsVector 2 a)
    (hb : IsVector 2 b) (hD : Distinct 3 d) (pa : NoneShared (Cells 3 d) (Cells 2 a)) (pb : NoneShared (Cells 3 d) (Cells 2 b)) :
    Ends (fun p => Shows1 3 d mem p (tensorOps.symRij_eq_AiBj_plus_AjBi2 (vecAt d mem) (vecAt a mem) (vecAt b mem)))
    (symRij_eq_AiBj_plus_AjBi2 c d a b mem) := by
  have H := shows1_start 3 d mem
  simp only [symRij_eq_AiBj_plus_AjBi2, sizes_ok hd, sizes_ok ha, sizes_ok hb, bind_ok]
  line1 [rd_apart ha c pa H.2, rd_apart hb c pb H.2, rd_shown hd c H]
  line1 [rd_apart ha c pa H.2, rd_apart hb c pb H.2, rd_shown hd c H]
  line1 [rd_apart ha c pa H.2, rd_apart hb c pb H.2, rd_shown hd c H]
  exact ⟨_, rfl, H⟩

omit [CommRing K] in
theorem denseToSymmetric2_follows (c : Cfg) {d a : Slice} (mem : Store K) (hd : IsVector 3 d) (ha : IsMatrix 2 2 a) (hD : Distinct 3 d)
    (pa : NoneShared (Cells 3 d) (Cells2 2 2 a)) :
    Ends (fun p => Shows1 3 d mem p (tensorOps.denseToSymmetric2 (vecAt d mem) (matAt a mem))) (denseToSymmetric2 c d a mem) := by
  have H := shows1_start 3 d mem
  simp only [denseToSymmetric2, sizes_ok hd, sizes2_ok ha, bind_ok]
  line1 [rd2_apart ha c pa H.2, rd_shown hd c H]
  line1 [rd2_apart ha c pa H.2, rd_shown hd c H]
  line1 [rd2_apart ha c pa H.2, rd_shown hd c H]
  exact ⟨_, rfl, H⟩

omit [CommRing K] in
theorem symmetricToDense2_follows (c : Cfg) {d a : Slice} (mem : Store K) (hd : IsMatrix 2 2 d) (ha : IsVector 3 a)
    (hD : Distinct2 2 2 d) (pa : NoneShared (Cells2 2 2 d) (Cells 3 a)) :
    Ends (fun p => Shows2 2 2 d mem p (tensorOps.symmetricToDense2 (matAt d mem) (vecAt a mem))) (symmetricToDense2 c d a mem) := by
  have H := shows2_start 2 2 d mem
  simp only [symmetricToDense2, sizes2_ok hd, sizes_ok ha, bind_ok]
  line2 [rd_apart ha c pa H.2, rd2_shown hd c H]
  line2 [rd_apart ha c pa H.2, rd2_shown hd c H]
  line2 [rd_apart ha c pa H.2, rd2_shown hd c H]
  line2 [rd_apart ha c pa H.2, rd2_shown hd c H]
  exact ⟨_, rfl, H⟩

theorem determinant3_follows (c : Cfg) {a : Slice} (mem : Store K) (ha : IsMatrix 3 3 a) :
    determinant3 c a mem = .ok (tensorOps.determinant3 (matAt a mem)) := by
  simp (disch := decide) only [determinant3, sizes2_ok ha, bind_ok, rd2_shown ha c (shows2_start 3 3 a mem)]
  rfl

theorem symDeterminant3_follows (c : Cfg) {a : Slice} (mem : Store K) (ha : IsVector 6 a) :
    symDeterminant3 c a mem = .ok (tensorOps.symDeterminant3 (vecAt a mem)) := by
  simp (disch := decide) only [symDeterminant3, sizes_ok ha, bind_ok, rd_shown ha c (shows1_start 6 a mem)]
  rfl

theorem Ri_eq_symAijBj3_follows (c : Cfg) {d a b : Slice} (mem : Store K) (hd : IsVector 3 d) (ha : IsVector 6 a) (hb : IsVector 3 b)
    (hD : Distinct 3 d) (pa : NoneShared (Cells 3 d) (Cells 6 a)) (pb : NoneShared (Cells 3 d) (Cells 3 b)) :
    Ends (fun p => Shows1 3 d mem p (tensorOps.Ri_eq_symAijBj3 (vecAt d mem) (vecAt a mem) (vecAt b mem)))
    (Ri_eq_symAijBj3 c d a b mem) := by
  have H := shows1_start 3 d mem
  simp only [Ri_eq_symAijBj3, sizes_ok hd, sizes_ok ha, sizes_ok hb, bind_ok]
  line1 [rd_apart ha c pa H.2, rd_apart hb c pb H.2, rd_shown hd c H]
  line1 [rd_apart ha c pa H.2, rd_apart hb c pb H.2, rd_shown hd c H]
  line1 [rd_apart ha c pa H.2, rd_apart hb c pb H.2, rd_shown hd c H]
  exact ⟨_, rfl, H⟩

theorem Ri_add_symAijBj3_follows (c : Cfg) {d a b : Slice} (mem : Store K) (hd : IsVector 3 d) (ha : IsVector 6 a) (hb : IsVector 3 b)
    (hD : Distinct 3 d) (pa : NoneShared (Cells 3 d) (Cells 6 a)) (pb : NoneShared (Cells 3 d) (Cells 3 b)) :
    Ends (fun p => Shows1 3 d mem p (tensorOps.Ri_add_symAijBj3 (vecAt d mem) (vecAt a mem) (vecAt b mem)))
    (Ri_add_symAijBj3 c d a b mem) := by
  have H := shows1_start 3 d mem
  simp only [Ri_add_symAijBj3, sizes_ok hd, sizes_ok ha, sizes_ok hb, bind_ok]
  line1 [rd_apart ha c pa H.2, rd_apart hb c pb H.2, rd_shown hd c H]
  line1 [rd_apart ha c pa H.2, rd_apart hb c pb H.2, rd_shown hd c H]
  line1 [rd_apart ha c pa H.2, rd_apart hb c pb H.2, rd_shown hd c H]
  exact ⟨_, rfl, H⟩

theorem Rij_eq_symAikBjk3_follows (c : Cfg) {d a b : Slice} (mem : Store K) (hd : IsMatrix 3 3 d) (ha : IsVector 6 a)
    (hb : IsMatrix 3 3 b) (hD : Distinct2 3 3 d) (pa : NoneShared (Cells2 3 3 d) (Cells 6 a)) (pb : NoneShared (Cells2 3 3 d)
    (Cells2 3 3 b)) :
    Ends (fun p => Shows2 3 3 d mem p (tensorOps.Rij_eq_symAikBjk3 (matAt d mem) (vecAt a mem) (matAt b mem)))
    (Rij_eq_symAikBjk3 c d a b mem) := by
  have H := shows2_start 3 3 d mem
  simp only [Rij_eq_symAikBjk3, sizes2_ok hd, sizes_ok ha, sizes2_ok hb, bind_ok]
  line2 [rd_apart ha c pa H.2, rd2_apart hb c pb H.2, rd2_shown hd c H]
  line2 [rd_apart ha c pa H.2, rd2_apart hb c pb H.2, rd2_shown hd c H]
  line2 [rd_apart ha c pa H.2, rd2_apart hb c pb H.2, rd2_shown hd c H]
  line2 [rd_apart ha c pa H.2, rd2_apart hb c pb H.2, rd2_shown hd c H]
  line2 [rd_apart ha c pa H.2, rd2_apart hb c pb H.2, rd2_shown hd c H]
  line2 [rd_apart ha c pa H.2, rd2_apart hb c pb H.2, rd2_shown hd c H]
  line2 [rd_apart ha c pa H.2, rd2_apart hb c pb H.2, rd2_shown hd c H]
  line2 [rd_apart ha c pa H.2, rd2_apart hb c pb H.2, rd2_shown hd c H]
  line2 [rd_apart ha c pa H.2, rd2_apart hb c pb H.2, rd2_shown hd c H]
  exact ⟨_, rfl, H⟩

set_option maxRecDepth 20000 in
theorem Rij_eq_AikSymBklAjl3_follows (c : Cfg) {d a b : Slice} (mem : Store K) (hd : IsVector 6 d) (ha : IsMatrix 3 3 a)
    (hb : IsVector 6 b) (hD : Distinct 6 d) (pa : NoneShared (Cells 6 d) (Cells2 3 3 a)) (pb : NoneShared (Cells 6 d) (Cells 6 b)) :
    Ends (fun p => Shows1 6 d mem p (tensorOps.Rij_eq_AikSymBklAjl3 (vecAt d mem) (matAt a mem) (vecAt b mem)))
    (Rij_eq_AikSymBklAjl3 c d a b mem) := by
  have H := shows1_start 6 d mem
  simp only [Rij_eq_AikSymBklAjl3, sizes_ok hd, sizes2_ok ha, sizes_ok hb, bind_ok]
  line1 [rd2_apart ha c pa H.2, rd_apart hb c pb H.2, rd_shown hd c H]
  line1 [rd2_apart ha c pa H.2, rd_apart hb c pb H.2, rd_shown hd c H]
  line1 [rd2_apart ha c pa H.2, rd_apart hb c pb H.2, rd_shown hd c H]
  line1 [rd2_apart ha c pa H.2, rd_apart hb c pb H.2, rd_shown hd c H]
  line1 [rd2_apart ha c pa H.2, rd_apart hb c pb H.2, rd_shown hd c H]
  line1 [rd2_apart ha c pa H.2, rd_apart hb c pb H.2, rd_shown hd c H]
  exact ⟨_, rfl, H⟩

theorem symRij_eq_AiAj3_follows (c : Cfg) {d a : Slice} (mem : Store K) (hd : IsVector 6 d) (ha : IsVector 3 a) (hD : Distinct 6 d)
    (pa : NoneShared (Cells 6 d) (Cells 3 a)) :
    Ends (fun p => Shows1 6 d mem p (tensorOps.symRij_eq_AiAj3 (vecAt d mem) (vecAt a mem))) (symRij_eq_AiAj3 c d a mem) := by
  have H := shows1_start 6 d mem
  simp only [symRij_eq_AiAj3, sizes_ok hd, sizes_ok ha, bind_ok]
  line1 [rd_apart ha c pa H.2, rd_shown hd c H]
  line1 [rd_apart ha c pa H.2, rd_shown hd c H]
  line1 [rd_apart ha c pa H.2, rd_shown hd c H]
  line1 [rd_apart ha c pa H.2, rd_shown hd c H]
  line1 [rd_apart ha c pa H.2, rd_shown hd c H]
  line1 [rd_apart ha c pa H.2, rd_shown hd c H]
  exact ⟨_, rfl, H⟩

theorem symRij_eq_AiBj_plus_AjBi3_follows (c : Cfg) {d a b : Slice} (mem : Store K) (hd : IsVector 6 d) (ha : IsVector 3 a)
    (hb : IsVector 3 b) (hD : Distinct 6 d) (pa : NoneShared (Cells 6 d) (Cells 3 a)) (pb : NoneShared (Cells 6 d) (Cells 3 b)) :
    Ends (fun p => Shows1 6 d mem p (tensorOps.symRij_eq_AiBj_plus_AjBi3 (vecAt d mem) (vecAt a mem) (vecAt b mem)))
    (symRij_eq_AiBj_plus_AjBi3 c d a b mem) := by
  have H := shows1_start 6 d mem
  simp only [symRij_eq_AiBj_plus_AjBi3, sizes_ok hd, sizes_ok ha, sizes_ok hb, bind_ok]
  line1 [rd_apart ha c pa H.2, rd_apart hb c pb H.2, rd_shown hd c H]
  line1 [rd_apart ha c pa H.2, rd_apart hb c pb H.2, rd_shown hd c H]
  line1 [rd_apart ha c pa H.2, rd_apart hb c pb H.2, rd_shown hd c H]
  line1 [rd_apart ha c pa H.2, rd_apart hb c pb H.2, rd_shown hd c H]
  line1 [rd_apart ha c pa H.2, rd_apart hb c pb H.2, rd_shown hd c H]
  line1 [rd_apart ha c pa H.2, rd_apart hb c pb H.2, rd_shown hd c H]
  exact ⟨_, rfl, H⟩

omit [CommRing K] in
theorem denseToSymmetric3_follows (c : Cfg) {d a : Slice} (mem : Store K) (hd : IsVector 6 d) (ha : IsMatrix 3 3 a) (hD : Distinct 6 d)
    (pa : NoneShared (Cells 6 d) (Cells2 3 3 a)) :
    Ends (fun p => Shows1 6 d mem p (tensorOps.denseToSymmetric3 (vecAt d mem) (matAt a mem))) (denseToSymmetric3 c d a mem) := by
  have H := shows1_start 6 d mem
  simp only [denseToSymmetric3, sizes_ok hd, sizes2_ok ha, bind_ok]
  line1 [rd2_apart ha c pa H.2, rd_shown hd c H]
  line1 [rd2_apart ha c pa H.2, rd_shown hd c H]
  line1 [rd2_apart ha c pa H.2, rd_shown hd c H]
  line1 [rd2_apart ha c pa H.2, rd_shown hd c H]
  line1 [rd2_apart ha c pa H.2, rd_shown hd c H]
  line1 [rd2_apart ha c pa H.2, rd_shown hd c H]
  exact ⟨_, rfl, H⟩

omit [CommRing K] in
theorem symmetricToDense3_follows (c : Cfg) {d a : Slice} (mem : Store K) (hd : IsMatrix 3 3 d) (ha : IsVector 6 a)
    (hD : Distinct2 3 3 d) (pa : NoneShared (Cells2 3 3 d) (Cells 6 a)) :
    Ends (fun p => Shows2 3 3 d mem p (tensorOps.symmetricToDense3 (matAt d mem) (vecAt a mem))) (symmetricToDense3 c d a mem) := by
  have H := shows2_start 3 3 d mem
  simp only [symmetricToDense3, sizes2_ok hd, sizes_ok ha, bind_ok]
  line2 [rd_apart ha c pa H.2, rd2_shown hd c H]
  line2 [rd_apart ha c pa H.2, rd2_shown hd c H]
  line2 [rd_apart ha c pa H.2, rd2_shown hd c H]
  line2 [rd_apart ha c pa H.2, rd2_shown hd c H]
  line2 [rd_apart ha c pa H.2, rd2_shown hd c H]
  line2 [rd_apart ha c pa H.2, rd2_shown hd c H]
  line2 [rd_apart ha c pa H.2, rd2_shown hd c H]
  line2 [rd_apart ha c pa H.2, rd2_shown hd c H]
  line2 [rd_apart ha c pa H.2, rd2_shown hd c H]
  exact ⟨_, rfl, H⟩

end Ring

section Field

variable [Field K]

theorem invert2_follows (c : Cfg) {d a : Slice} (mem : Store K) (hd : IsMatrix 2 2 d) (ha : IsMatrix 2 2 a) (hD : Distinct2 2 2 d)
    (pa : NoneShared (Cells2 2 2 d) (Cells2 2 2 a)) :
    Ends (fun p => Shows2 2 2 d mem p.1 (tensorOps.invert2 (matAt d mem) (matAt a mem)).1 ∧ p.2 = (tensorOps.invert2 (matAt d mem)
    (matAt a mem)).2) (invert2 c d a mem) := by
  have H := shows2_start 2 2 d mem
  simp only [invert2, sizes2_ok hd, sizes2_ok ha, determinant2_follows c mem ha, bind_ok]
  line2 [rd2_apart ha c pa H.2, rd2_shown hd c H]
  line2 [rd2_apart ha c pa H.2, rd2_shown hd c H]
  line2 [rd2_apart ha c pa H.2, rd2_shown hd c H]
  line2 [rd2_apart ha c pa H.2, rd2_shown hd c H]
  exact ⟨_, rfl, H, rfl⟩

theorem invert2InPlace_follows (c : Cfg) {d : Slice} (mem : Store K) (hd : IsMatrix 2 2 d) (hD : Distinct2 2 2 d) :
    Ends (fun p => Shows2 2 2 d mem p.1 (tensorOps.invert2InPlace (matAt d mem)).1 ∧ p.2 = (tensorOps.invert2InPlace (matAt d mem)).2)
    (invert2InPlace c d mem) := by
  have H := shows2_start 2 2 d mem
  simp only [invert2InPlace, sizes2_ok hd, determinant2_follows c mem hd, bind_ok]
  line2 [rd2_shown hd c H]
  line2 [rd2_shown hd c H]
  line2 [rd2_shown hd c H]
  line2 [rd2_shown hd c H]
  exact ⟨_, rfl, H, rfl⟩

theorem symInvert2_follows (c : Cfg) {d a : Slice} (mem : Store K) (hd : IsVector 3 d) (ha : IsVector 3 a) (hD : Distinct 3 d)
    (pa : NoneShared (Cells 3 d) (Cells 3 a)) :
    Ends (fun p => Shows1 3 d mem p.1 (tensorOps.symInvert2 (vecAt d mem) (vecAt a mem)).1 ∧ p.2 = (tensorOps.symInvert2 (vecAt d mem)
    (vecAt a mem)).2) (symInvert2 c d a mem) := by
  have H := shows1_start 3 d mem
  simp only [symInvert2, sizes_ok hd, sizes_ok ha, symDeterminant2_follows c mem ha, bind_ok]
  line1 [rd_apart ha c pa H.2, rd_shown hd c H]
  line1 [rd_apart ha c pa H.2, rd_shown hd c H]
  line1 [rd_apart ha c pa H.2, rd_shown hd c H]
  exact ⟨_, rfl, H, rfl⟩

theorem symInvert2InPlace_follows (c : Cfg) {d : Slice} (mem : Store K) (hd : IsVector 3 d) (hD : Distinct 3 d) :
    Ends (fun p => Shows1 3 d mem p.1 (tensorOps.symInvert2InPlace (vecAt d mem)).1 ∧ p.2 = (tensorOps.symInvert2InPlace
    (vecAt d mem)).2) (symInvert2InPlace c d mem) := by
  have H := shows1_start 3 d mem
  simp only [symInvert2InPlace, sizes_ok hd, symDeterminant2_follows c mem hd, bind_ok]
  line1 [rd_shown hd c H]
  line1 [rd_shown hd c H]
  line1 [rd_shown hd c H]
  exact ⟨_, rfl, H, rfl⟩

theorem invert3_follows (c : Cfg) {d a : Slice} (mem : Store K) (hd : IsMatrix 3 3 d) (ha : IsMatrix 3 3 a) (hD : Distinct2 3 3 d)
    (pa : NoneShared (Cells2 3 3 d) (Cells2 3 3 a)) :
    Ends (fun p => Shows2 3 3 d mem p.1 (tensorOps.invert3 (matAt d mem) (matAt a mem)).1 ∧ p.2 = (tensorOps.invert3 (matAt d mem)
    (matAt a mem)).2) (invert3 c d a mem) := by
  have H := shows2_start 3 3 d mem
  simp only [invert3, sizes2_ok hd, sizes2_ok ha, bind_ok]
  line2 [rd2_apart ha c pa H.2, rd2_shown hd c H]
  line2 [rd2_apart ha c pa H.2, rd2_shown hd c H]
  line2 [rd2_apart ha c pa H.2, rd2_shown hd c H]
  line2 [rd2_apart ha c pa H.2, rd2_shown hd c H]
  line2 [rd2_apart ha c pa H.2, rd2_shown hd c H]
  line2 [rd2_apart ha c pa H.2, rd2_shown hd c H]
  line2 [rd2_apart ha c pa H.2, rd2_shown hd c H]
  line2 [rd2_apart ha c pa H.2, rd2_shown hd c H]
  line2 [rd2_apart ha c pa H.2, rd2_shown hd c H]
  line2 [rd2_apart ha c pa H.2, rd2_shown hd c H]
  line2 [rd2_apart ha c pa H.2, rd2_shown hd c H]
  line2 [rd2_apart ha c pa H.2, rd2_shown hd c H]
  exact ⟨_, rfl, H, rfl⟩

theorem symInvert3_follows (c : Cfg) {d a : Slice} (mem : Store K) (hd : IsVector 6 d) (ha : IsVector 6 a) (hD : Distinct 6 d)
    (pa : NoneShared (Cells 6 d) (Cells 6 a)) :
    Ends (fun p => Shows1 6 d mem p.1 (tensorOps.symInvert3 (vecAt d mem) (vecAt a mem)).1 ∧ p.2 = (tensorOps.symInvert3 (vecAt d mem)
    (vecAt a mem)).2) (symInvert3 c d a mem) := by
  have H := shows1_start 6 d mem
  simp only [symInvert3, sizes_ok hd, sizes_ok ha, bind_ok]
  line1 [rd_apart ha c pa H.2, rd_shown hd c H]
  line1 [rd_apart ha c pa H.2, rd_shown hd c H]
  line1 [rd_apart ha c pa H.2, rd_shown hd c H]
  line1 [rd_apart ha c pa H.2, rd_shown hd c H]
  line1 [rd_apart ha c pa H.2, rd_shown hd c H]
  line1 [rd_apart ha c pa H.2, rd_shown hd c H]
  line1 [rd_apart ha c pa H.2, rd_shown hd c H]
  line1 [rd_apart ha c pa H.2, rd_shown hd c H]
  line1 [rd_apart ha c pa H.2, rd_shown hd c H]
  exact ⟨_, rfl, H, rfl⟩

theorem then_all2 {β : Type} {n m : Nat} {d : Slice} {mem : Store K} {Q : β → Prop} {c : Cfg} {k : Store K → R β} {t : Mat K} {x : K}
    (hd : IsMatrix n m d) (hD : Distinct2 n m d)
    (hk : ∀ new, Shows2 n m d mem new (loop n 0 (fun i a => loop m 0 (fun j a => a.put i j (t i j * x)) a) (matAt d mem)) → Ends Q (k new)) :
    Ends Q (loopR n 0 (fun i mem' => loopR m 0 (fun j mem' => wr2 c mem' d i j (t i j * x)) mem') mem >>= k) := by
  obtain ⟨new, e, H⟩ := loopR_follows (Shows2 n m d mem)
    (fun i mem' => loopR m 0 (fun j mem' => wr2 c mem' d i j (t i j * x)) mem')
    (fun i a => loop m 0 (fun j a => a.put i j (t i j * x)) a) n 0 mem (matAt d mem)
    (fun i m1 m2 _ hi h => loopR_follows (Shows2 n m d mem) _ (fun j a => a.put i j (t i j * x)) m 0 m1 m2
      (fun j n1 n2 _ hj h => ⟨_, wr2_eq hd c n1 (by omega) (by omega) _, h.put hD (by omega) (by omega) _⟩) h) (shows2_start n m d mem)
  rw [e, bind_ok]
  exact hk _ H

theorem invert3InPlace_follows (c : Cfg) {d : Slice} (mem : Store K) (hd : IsMatrix 3 3 d) (hD : Distinct2 3 3 d) :
    Ends (fun p => Shows2 3 3 d mem p.1 (tensorOps.invert3InPlace (matAt d mem)).1 ∧ p.2 = (tensorOps.invert3InPlace (matAt d mem)).2)
      (invert3InPlace c d mem) := by
  simp (disch := decide) only [invert3InPlace, bind_ok, rd2_shown hd c (shows2_start 3 3 d mem)]
  refine then_all2 hd hD fun new H => ?_
  exact ⟨_, rfl, H, rfl⟩

theorem symInvert3InPlace_follows (c : Cfg) {t d : Slice} (mem : Store K) (ht : IsVector 6 t) (hd : IsVector 6 d) (hT : Distinct 6 t)
    (hD : Distinct 6 d) (p : NoneShared (Cells 6 t) (Cells 6 d)) :
    Ends (fun p => (∀ i, i < 6 → p.1 (entry d i) = (tensorOps.symInvert3InPlace (vecAt t mem) (vecAt d mem)).1 i) ∧
      (∀ q, ¬ Cells 6 d q → ¬ Cells 6 t q → p.1 q = mem q) ∧ p.2 = (tensorOps.symInvert3InPlace (vecAt t mem) (vecAt d mem)).2)
      (symInvert3InPlace c t d mem) := by
  obtain ⟨⟨m1, det⟩, e, H, hdet⟩ := symInvert3_follows c mem ht hd hT p
  simp only at H hdet
  subst hdet
  simp only [symInvert3InPlace, e, bind_ok, copy, sizes_ok ht, sizes_ok hd]
  obtain ⟨new, e, H2⟩ := loopR_follows (Shows1 6 d m1)
    (fun i mem' => do wr c mem' d i (← rd c mem' t i))
    (fun i dst => dst.put i ((tensorOps.symInvert3 (vecAt t mem) (vecAt d mem)).1 i)) 6 0 m1 (vecAt d mem)
    (fun i n1 n2 _ hi h => by
      refine ⟨_, ?_, h.put hD (show i < 6 by omega) _⟩
      rw [rd_eq ht c n1 (show i < 6 by omega), bind_ok, wr_eq hd c n1 (show i < 6 by omega),
        h.2 _ (fun hq => p _ ⟨i, by omega, rfl⟩ hq), H.1 i (by omega)])
    ⟨fun i hi => H.2 _ (fun hq => p _ hq ⟨i, hi, rfl⟩), fun _ _ => rfl⟩
  rw [e, bind_ok]
  exact ⟨_, rfl, H2.1, fun q h1 h2 => (H2.2 q h1).trans (H.2 q h2), rfl⟩


end Field

end LvArray.tensorOps.Slices

import Verif.TensorSlicesLemmas
import Verif.Props.TensorOps
import Verif.Props.Indexing

/-!
# C78: `tensorOps` on vectors and matrices in one memory
-/

namespace LvArray.Props

open LvArray.tensorOps Spec Finset

/-! ## When the arguments are apart, or the same -/

theorem C78_read_first (n m : Nat) (dst src : Slice) :
    (NoneShared (Cells n dst) (Cells n src) → ReadFirst n dst src) ∧
    (Distinct n dst → ReadFirst n dst dst) ∧
    (NoneShared (Cells2 n m dst) (Cells2 n m src) → ReadFirst2 n m dst src) ∧
    (Distinct2 n m dst → ReadFirst2 n m dst dst) := by
  refine ⟨fun h k i hk hi e => h _ ⟨k, by omega, rfl⟩ ⟨i, hi, e⟩, fun h k i hk hi e => ?_,
    fun h k l i j hi hj hl ho e => h _ ⟨k, l, by omega, hl, rfl⟩ ⟨i, j, hi, hj, e⟩, fun h k l i j hi hj hl ho e => ?_⟩
  · have := h k i (by omega) hi e; omega
  · have := h k l i j (by omega) hl hi hj e; omega

/-- The operations on the entries of a vector do what they say whatever the arithmetic, also if the arguments are the same vector, or
overlap so that no entry is overwritten before it is read. -/
theorem C78_vector {K : Type} [Add K] [Sub K] [Mul K] (c : Cfg) {n : Nat} {dst src other : Slice} (mem : Store K) (x : K)
    (hd : IsVector n dst) (hD : Distinct n dst) (hs : IsVector n src) (ho : IsVector n other)
    (fs : ReadFirst n dst src) (fo : ReadFirst n dst other) :
    SetsVector n dst mem (fun _ => x) (Slices.fill c n dst x mem) ∧
    SetsVector n dst mem (fun i => mem (entry src i)) (Slices.copy c n dst src mem) ∧
    SetsVector n dst mem (fun i => mem (entry dst i) * x) (Slices.scale c n dst x mem) ∧
    SetsVector n dst mem (fun i => x * mem (entry src i)) (Slices.scaledCopy c n dst src x mem) ∧
    SetsVector n dst mem (fun i => mem (entry dst i) + x) (Slices.addScalar c n dst x mem) ∧
    SetsVector n dst mem (fun i => mem (entry dst i) + mem (entry src i)) (Slices.add c n dst src mem) ∧
    SetsVector n dst mem (fun i => mem (entry dst i) - mem (entry src i)) (Slices.subtract c n dst src mem) ∧
    SetsVector n dst mem (fun i => mem (entry dst i) + x * mem (entry src i)) (Slices.scaledAdd c n dst src x mem) ∧
    SetsVector n dst mem (fun i => mem (entry src i) * mem (entry other i)) (Slices.hadamardProduct c n dst src other mem) := by
  refine ⟨?_, ?_, ?_, ?_, ?_, ?_, ?_, ?_, ?_⟩
  all_goals
    simp only [Slices.fill, Slices.copy, Slices.scale, Slices.scaledCopy, Slices.addScalar, Slices.add, Slices.subtract,
      Slices.scaledAdd, Slices.hadamardProduct, Slices.sizes_ok hd c, Slices.sizes_ok hs c, Slices.sizes_ok ho c, bind_ok]
    refine Slices.each (entry dst) n hD _ _ mem fun i mem' hi h => ?_
    have ed : mem' (entry dst i) = mem (entry dst i) := h _ fun k hk e => by
      have := hD i k hi (by omega) e; omega
    have es : mem' (entry src i) = mem (entry src i) := h _ fun k hk e => fs k i hk hi e.symm
    have eo : mem' (entry other i) = mem (entry other i) := h _ fun k hk e => fo k i hk hi e.symm
    simp only [Slices.rd_eq hd c mem' hi, Slices.rd_eq hs c mem' hi, Slices.rd_eq ho c mem' hi, bind_ok, Slices.wr_eq hd c mem' hi,
      ed, es, eo]

/-- The operations on the entries of a matrix. -/
theorem C78_matrix {K : Type} [Add K] [Sub K] [Mul K] (c : Cfg) {n m : Nat} {dst src : Slice} (mem : Store K) (x : K)
    (hd : IsMatrix n m dst) (hD : Distinct2 n m dst) (hs : IsMatrix n m src) (fs : ReadFirst2 n m dst src) :
    SetsMatrix n m dst mem (fun _ _ => x) (Slices.fillMat c n m dst x mem) ∧
    SetsMatrix n m dst mem (fun i j => mem (entry2 src i j)) (Slices.copyMat c n m dst src mem) ∧
    SetsMatrix n m dst mem (fun i j => mem (entry2 dst i j) * x) (Slices.scaleMat c n m dst x mem) ∧
    SetsMatrix n m dst mem (fun i j => x * mem (entry2 src i j)) (Slices.scaledCopyMat c n m dst src x mem) ∧
    SetsMatrix n m dst mem (fun i j => mem (entry2 dst i j) + mem (entry2 src i j)) (Slices.addMat c n m dst src mem) ∧
    SetsMatrix n m dst mem (fun i j => mem (entry2 dst i j) + x * mem (entry2 src i j)) (Slices.scaledAddMat c n m dst src x mem) := by
  refine ⟨?_, ?_, ?_, ?_, ?_, ?_⟩
  all_goals
    simp only [Slices.fillMat, Slices.copyMat, Slices.scaleMat, Slices.scaledCopyMat, Slices.addMat, Slices.scaledAddMat,
      Slices.sizes2_ok hd c, Slices.sizes2_ok hs c, bind_ok]
    refine Slices.each2 (entry2 dst) n m hD _ _ mem fun i j mem' hi hj h => ?_
    have ed : mem' (entry2 dst i j) = mem (entry2 dst i j) := h _ fun k l hl ho e => by
      have := hD i j k l hi hj (by omega) hl e; omega
    have es : mem' (entry2 src i j) = mem (entry2 src i j) := h _ fun k l hl ho e => fs k l i j hi hj hl ho e.symm
    simp only [Slices.rd2_eq hd c mem' hi hj, Slices.rd2_eq hs c mem' hi hj, bind_ok, Slices.wr2_eq hd c mem' hi hj, ed, es]

/-! ## When the destination is apart from the other arguments -/

section Ring

variable {K : Type} [CommRing K]

/-- Inner products read two vectors, which may overlap. -/
theorem C78_inner (c : Cfg) {n : Nat} (hn : 0 < n) {a b : Slice} (mem : Store K) (ha : IsVector n a) (hb : IsVector n b) :
    Slices.AiBi c n a b mem = .ok (∑ i ∈ range n, mem (entry a i) * mem (entry b i)) := by
  have key : ∀ (k lo : Nat) (x : K), lo + k ≤ n →
      Slices.loopR k lo (fun i result => do .ok (result + (← Slices.rd c mem a i) * (← Slices.rd c mem b i))) x =
        .ok (loop k lo (fun i s => s + mem (entry a i) * mem (entry b i)) x) := by
    intro k
    induction k with
    | zero => intro lo x _; rfl
    | succ k ih =>
      intro lo x h
      rw [Slices.loopR, Slices.rd_eq ha c mem (show lo < n by omega), Slices.rd_eq hb c mem (show lo < n by omega)]
      simp only [bind_ok]
      rw [ih (lo + 1) _ (by omega), loop]
  simp only [Slices.AiBi, Slices.sizes_ok ha c, Slices.sizes_ok hb c, Slices.rd_eq ha c mem hn, Slices.rd_eq hb c mem hn, bind_ok]
  rw [key (n - 1) 1 _ (by omega), loop_sum (fun i => mem (entry a i) * mem (entry b i)),
    head_sum (fun i => mem (entry a i) * mem (entry b i)) hn]

/-- The cross product. -/
theorem C78_cross (c : Cfg) {dst a b : Slice} (mem : Store K) (hd : IsVector 3 dst) (hD : Distinct 3 dst)
    (ha : IsVector 3 a) (hb : IsVector 3 b) (pa : NoneShared (Cells 3 dst) (Cells 3 a)) (pb : NoneShared (Cells 3 dst) (Cells 3 b)) :
    SetsVector 3 dst mem
      (fun i => mem (entry a ((i + 1) % 3)) * mem (entry b ((i + 2) % 3)) - mem (entry a ((i + 2) % 3)) * mem (entry b ((i + 1) % 3)))
      (Slices.crossProduct c dst a b mem) := by
  have na : ∀ k i, k < 3 → i < 3 → entry a i ≠ entry dst k := fun k i hk hi e => pa _ ⟨k, hk, rfl⟩ ⟨i, hi, e.symm⟩
  have nb : ∀ k i, k < 3 → i < 3 → entry b i ≠ entry dst k := fun k i hk hi e => pb _ ⟨k, hk, rfl⟩ ⟨i, hi, e.symm⟩
  have n01 : entry dst 0 ≠ entry dst 1 := fun e => by have := hD 0 1 (by omega) (by omega) e; omega
  have n02 : entry dst 0 ≠ entry dst 2 := fun e => by have := hD 0 2 (by omega) (by omega) e; omega
  have n12 : entry dst 1 ≠ entry dst 2 := fun e => by have := hD 1 2 (by omega) (by omega) e; omega
  have l0 : 0 < 3 := by omega
  have l1 : 1 < 3 := by omega
  have l2 : 2 < 3 := by omega
  simp only [Slices.crossProduct, Slices.sizes_ok hd c, Slices.sizes_ok ha c, Slices.sizes_ok hb c, bind_ok,
    fun mem : Store K => Slices.rd_eq ha c mem l0, fun mem : Store K => Slices.rd_eq ha c mem l1,
    fun mem : Store K => Slices.rd_eq ha c mem l2, fun mem : Store K => Slices.rd_eq hb c mem l0,
    fun mem : Store K => Slices.rd_eq hb c mem l1, fun mem : Store K => Slices.rd_eq hb c mem l2,
    fun (mem : Store K) x => Slices.wr_eq hd c mem l0 x, fun (mem : Store K) x => Slices.wr_eq hd c mem l1 x,
    fun (mem : Store K) x => Slices.wr_eq hd c mem l2 x]
  refine ⟨_, rfl, fun i hi => ?_, fun q hq => ?_⟩
  · obtain rfl | rfl | rfl : i = 0 ∨ i = 1 ∨ i = 2 := by omega
    · rw [Slices.set_ne _ _ n02, Slices.set_ne _ _ n01, Slices.set_same]
    · rw [Slices.set_ne _ _ n12, Slices.set_same]
      simp only [Slices.set_ne _ _ (na 0 _ l0 l2), Slices.set_ne _ _ (na 0 _ l0 l0), Slices.set_ne _ _ (nb 0 _ l0 l2),
        Slices.set_ne _ _ (nb 0 _ l0 l0)]
    · rw [Slices.set_same]
      simp only [Slices.set_ne _ _ (na 1 _ l1 l1), Slices.set_ne _ _ (na 1 _ l1 l0), Slices.set_ne _ _ (nb 1 _ l1 l1),
        Slices.set_ne _ _ (nb 1 _ l1 l0), Slices.set_ne _ _ (na 0 _ l0 l1), Slices.set_ne _ _ (na 0 _ l0 l0),
        Slices.set_ne _ _ (nb 0 _ l0 l1), Slices.set_ne _ _ (nb 0 _ l0 l0)]
  · rw [Slices.set_ne _ _ (fun e => hq ⟨2, l2, e⟩), Slices.set_ne _ _ (fun e => hq ⟨1, l1, e⟩),
      Slices.set_ne _ _ (fun e => hq ⟨0, l0, e⟩)]

/-- Outer products. -/
theorem C78_outer (c : Cfg) {n m : Nat} {dst a b : Slice} (mem : Store K) (hd : IsMatrix n m dst) (hD : Distinct2 n m dst)
    (ha : IsVector n a) (hb : IsVector m b) (pa : NoneShared (Cells2 n m dst) (Cells n a)) (pb : NoneShared (Cells2 n m dst) (Cells m b)) :
    SetsMatrix n m dst mem (fun i j => mem (entry a i) * mem (entry b j)) (Slices.Rij_eq_AiBj c n m dst a b mem) ∧
    SetsMatrix n m dst mem (fun i j => mem (entry2 dst i j) + mem (entry a i) * mem (entry b j))
      (Slices.Rij_add_AiBj c n m dst a b mem) := by
  refine ⟨?_, ?_⟩
  all_goals
    simp only [Slices.Rij_eq_AiBj, Slices.Rij_add_AiBj, Slices.sizes2_ok hd c, Slices.sizes_ok ha c, Slices.sizes_ok hb c, bind_ok]
    refine Slices.each2 (entry2 dst) n m hD _ _ mem fun i j mem' hi hj h => ?_
    have ed : mem' (entry2 dst i j) = mem (entry2 dst i j) := h _ fun k l hl ho e => by
      have := hD i j k l hi hj (by omega) hl e; omega
    have ea : mem' (entry a i) = mem (entry a i) := h _ fun k l hl ho e => pa _ ⟨k, l, by omega, hl, rfl⟩ ⟨i, hi, e.symm⟩
    have eb : mem' (entry b j) = mem (entry b j) := h _ fun k l hl ho e => pb _ ⟨k, l, by omega, hl, rfl⟩ ⟨j, hj, e.symm⟩
    simp only [Slices.rd2_eq hd c mem' hi hj, Slices.rd_eq ha c mem' hi, Slices.rd_eq hb c mem' hj, bind_ok,
      Slices.wr2_eq hd c mem' hi hj, ed, ea, eb]

/-- Products of a matrix and a vector. -/
theorem C78_matrix_vector (c : Cfg) {n m : Nat} (hm : 0 < m) {dst a a' b : Slice} (mem : Store K) (hd : IsVector n dst)
    (hD : Distinct n dst) (ha : IsMatrix n m a) (ha' : IsMatrix m n a') (hb : IsVector m b)
    (pa : NoneShared (Cells n dst) (Cells2 n m a)) (pa' : NoneShared (Cells n dst) (Cells2 m n a')) (pb : NoneShared (Cells n dst) (Cells m b)) :
    SetsVector n dst mem (fun i => ∑ j ∈ range m, mem (entry2 a i j) * mem (entry b j)) (Slices.Ri_eq_AijBj c n m dst a b mem) ∧
    SetsVector n dst mem (fun i => mem (entry dst i) + ∑ j ∈ range m, mem (entry2 a i j) * mem (entry b j))
      (Slices.Ri_add_AijBj c n m dst a b mem) ∧
    SetsVector n dst mem (fun i => ∑ j ∈ range m, mem (entry2 a' j i) * mem (entry b j)) (Slices.Ri_eq_AjiBj c n m dst a' b mem) ∧
    SetsVector n dst mem (fun i => mem (entry dst i) + ∑ j ∈ range m, mem (entry2 a' j i) * mem (entry b j))
      (Slices.Ri_add_AjiBj c n m dst a' b mem) := by
  have ea : ∀ {i j k}, i < n → j < m → k < n → entry2 a i j ≠ entry dst k := fun hi hj hk e =>
    pa _ ⟨_, hk, rfl⟩ ⟨_, _, hi, hj, e.symm⟩
  have ea' : ∀ {i j k}, i < n → j < m → k < n → entry2 a' j i ≠ entry dst k := fun hi hj hk e =>
    pa' _ ⟨_, hk, rfl⟩ ⟨_, _, hj, hi, e.symm⟩
  have eb : ∀ {j k}, j < m → k < n → entry b j ≠ entry dst k := fun hj hk e => pb _ ⟨_, hk, rfl⟩ ⟨_, hj, e.symm⟩
  have same : ∀ {i} {mem' : Store K}, i < n → (∀ q, (∀ k, k < i → q ≠ entry dst k) → mem' q = mem q) →
      (∀ j, j < m → mem' (entry2 a i j) = mem (entry2 a i j)) ∧ (∀ j, j < m → mem' (entry2 a' j i) = mem (entry2 a' j i)) ∧
      (∀ j, j < m → mem' (entry b j) = mem (entry b j)) ∧ mem' (entry dst i) = mem (entry dst i) := fun {i mem'} hi h =>
    ⟨fun j hj => h _ fun k hk => ea hi hj (by omega), fun j hj => h _ fun k hk => ea' hi hj (by omega),
      fun j hj => h _ fun k hk => eb hj (by omega), h _ fun k hk e => by have := hD i k hi (by omega) e; omega⟩
  refine ⟨?_, ?_, ?_, ?_⟩
  · simp only [Slices.Ri_eq_AijBj, Slices.sizes_ok hd c, Slices.sizes2_ok ha c, Slices.sizes_ok hb c, bind_ok]
    refine Slices.each (entry dst) n hD _ _ mem fun i mem' hi h => ?_
    obtain ⟨s1, s2, s3, s4⟩ := same hi h
    simp only [Slices.rd2_eq ha c mem' hi hm, Slices.rd_eq hb c mem' hm, bind_ok, Slices.wr_eq hd c mem' hi, s1 0 hm, s3 0 hm]
    rw [Slices.accumulate (entry dst i) (fun j x => x + mem (entry2 a i j) * mem (entry b j)), loop_sum
      (fun j => mem (entry2 a i j) * mem (entry b j)), head_sum (fun j => mem (entry2 a i j) * mem (entry b j)) hm]
    intro j x _ hj
    have hj' : j < m := by omega
    rw [Slices.rd_eq hd c _ hi, Slices.rd2_eq ha c _ hi hj', Slices.rd_eq hb c _ hj']
    simp only [bind_ok]
    rw [Slices.wr_eq hd c _ hi, Slices.set_set, Slices.set_same, Slices.set_ne _ _ (ea hi hj' hi), Slices.set_ne _ _ (eb hj' hi),
      s1 j hj', s3 j hj']
  · simp only [Slices.Ri_add_AijBj, Slices.sizes_ok hd c, Slices.sizes2_ok ha c, Slices.sizes_ok hb c, bind_ok]
    refine Slices.each (entry dst) n hD _ _ mem fun i mem' hi h => ?_
    obtain ⟨s1, s2, s3, s4⟩ := same hi h
    rw [← Slices.set_self mem' (entry dst i), Slices.accumulate (entry dst i) (fun j x => x + mem (entry2 a i j) * mem (entry b j)),
      loop_sum (fun j => mem (entry2 a i j) * mem (entry b j)), Slices.set_self, s4]
    · simp only [Nat.zero_add]
    intro j x _ hj
    have hj' : j < m := by omega
    rw [Slices.rd_eq hd c _ hi, Slices.rd2_eq ha c _ hi hj', Slices.rd_eq hb c _ hj']
    simp only [bind_ok]
    rw [Slices.wr_eq hd c _ hi, Slices.set_set, Slices.set_same, Slices.set_ne _ _ (ea hi hj' hi), Slices.set_ne _ _ (eb hj' hi),
      s1 j hj', s3 j hj']
  · simp only [Slices.Ri_eq_AjiBj, Slices.sizes_ok hd c, Slices.sizes2_ok ha' c, Slices.sizes_ok hb c, bind_ok]
    refine Slices.each (entry dst) n hD _ _ mem fun i mem' hi h => ?_
    obtain ⟨s1, s2, s3, s4⟩ := same hi h
    simp only [Slices.rd2_eq ha' c mem' hm hi, Slices.rd_eq hb c mem' hm, bind_ok, Slices.wr_eq hd c mem' hi, s2 0 hm, s3 0 hm]
    rw [Slices.accumulate (entry dst i) (fun j x => x + mem (entry2 a' j i) * mem (entry b j)), loop_sum
      (fun j => mem (entry2 a' j i) * mem (entry b j)), head_sum (fun j => mem (entry2 a' j i) * mem (entry b j)) hm]
    intro j x _ hj
    have hj' : j < m := by omega
    rw [Slices.rd_eq hd c _ hi, Slices.rd2_eq ha' c _ hj' hi, Slices.rd_eq hb c _ hj']
    simp only [bind_ok]
    rw [Slices.wr_eq hd c _ hi, Slices.set_set, Slices.set_same, Slices.set_ne _ _ (ea' hi hj' hi), Slices.set_ne _ _ (eb hj' hi),
      s2 j hj', s3 j hj']
  · simp only [Slices.Ri_add_AjiBj, Slices.sizes_ok hd c, Slices.sizes2_ok ha' c, Slices.sizes_ok hb c, bind_ok]
    refine Slices.each (entry dst) n hD _ _ mem fun i mem' hi h => ?_
    obtain ⟨s1, s2, s3, s4⟩ := same hi h
    rw [← Slices.set_self mem' (entry dst i), Slices.accumulate (entry dst i) (fun j x => x + mem (entry2 a' j i) * mem (entry b j)),
      loop_sum (fun j => mem (entry2 a' j i) * mem (entry b j)), Slices.set_self, s4]
    · simp only [Nat.zero_add]
    intro j x _ hj
    have hj' : j < m := by omega
    rw [Slices.rd_eq hd c _ hi, Slices.rd2_eq ha' c _ hj' hi, Slices.rd_eq hb c _ hj']
    simp only [bind_ok]
    rw [Slices.wr_eq hd c _ hi, Slices.set_set, Slices.set_same, Slices.set_ne _ _ (ea' hi hj' hi), Slices.set_ne _ _ (eb hj' hi),
      s2 j hj', s3 j hj']

/-- Products of matrices. -/
theorem C78_matrix_matrix (c : Cfg) {n m l : Nat} (hl : 0 < l) {dst a a' b b' : Slice} (mem : Store K) (hd : IsMatrix n m dst)
    (hD : Distinct2 n m dst) (ha : IsMatrix n l a) (ha' : IsMatrix l n a') (hb : IsMatrix l m b) (hb' : IsMatrix m l b')
    (pa : NoneShared (Cells2 n m dst) (Cells2 n l a)) (pa' : NoneShared (Cells2 n m dst) (Cells2 l n a'))
    (pb : NoneShared (Cells2 n m dst) (Cells2 l m b)) (pb' : NoneShared (Cells2 n m dst) (Cells2 m l b')) :
    SetsMatrix n m dst mem (fun i j => ∑ k ∈ range l, mem (entry2 a i k) * mem (entry2 b k j))
      (Slices.Rij_eq_AikBkj c n m l dst a b mem) ∧
    SetsMatrix n m dst mem (fun i j => mem (entry2 dst i j) + ∑ k ∈ range l, mem (entry2 a i k) * mem (entry2 b k j))
      (Slices.Rij_add_AikBkj c n m l dst a b mem) ∧
    SetsMatrix n m dst mem (fun i j => ∑ k ∈ range l, mem (entry2 a i k) * mem (entry2 b' j k))
      (Slices.Rij_eq_AikBjk c n m l dst a b' mem) ∧
    SetsMatrix n m dst mem (fun i j => mem (entry2 dst i j) + ∑ k ∈ range l, mem (entry2 a i k) * mem (entry2 b' j k))
      (Slices.Rij_add_AikBjk c n m l dst a b' mem) ∧
    SetsMatrix n m dst mem (fun i j => ∑ k ∈ range l, mem (entry2 a' k i) * mem (entry2 b k j))
      (Slices.Rij_eq_AkiBkj c n m l dst a' b mem) ∧
    SetsMatrix n m dst mem (fun i j => mem (entry2 dst i j) + ∑ k ∈ range l, mem (entry2 a' k i) * mem (entry2 b k j))
      (Slices.Rij_add_AkiBkj c n m l dst a' b mem) := by
  refine ⟨?_, ?_, ?_, ?_, ?_, ?_⟩
  · simp only [Slices.Rij_eq_AikBkj, Slices.sizes2_ok hd c, Slices.sizes2_ok ha c, Slices.sizes2_ok hb c, bind_ok]
    exact Slices.product_eq c hl mem hd hD (fun i j k => entry2 a i k) (fun i j k => entry2 b k j)
      (fun i j k mem => Slices.rd2 c mem a i k) (fun i j k mem => Slices.rd2 c mem b k j)
      (fun _ _ _ mem' hi hj hk => ⟨Slices.rd2_eq ha c mem' hi hk, fun e => pa _ e ⟨_, _, hi, hk, rfl⟩⟩)
      (fun _ _ _ mem' hi hj hk => ⟨Slices.rd2_eq hb c mem' hk hj, fun e => pb _ e ⟨_, _, hk, hj, rfl⟩⟩)
  · simp only [Slices.Rij_add_AikBkj, Slices.sizes2_ok hd c, Slices.sizes2_ok ha c, Slices.sizes2_ok hb c, bind_ok]
    exact Slices.product_add c l mem hd hD (fun i j k => entry2 a i k) (fun i j k => entry2 b k j)
      (fun i j k mem => Slices.rd2 c mem a i k) (fun i j k mem => Slices.rd2 c mem b k j)
      (fun _ _ _ mem' hi hj hk => ⟨Slices.rd2_eq ha c mem' hi hk, fun e => pa _ e ⟨_, _, hi, hk, rfl⟩⟩)
      (fun _ _ _ mem' hi hj hk => ⟨Slices.rd2_eq hb c mem' hk hj, fun e => pb _ e ⟨_, _, hk, hj, rfl⟩⟩)
  · simp only [Slices.Rij_eq_AikBjk, Slices.sizes2_ok hd c, Slices.sizes2_ok ha c, Slices.sizes2_ok hb' c, bind_ok]
    exact Slices.product_eq c hl mem hd hD (fun i j k => entry2 a i k) (fun i j k => entry2 b' j k)
      (fun i j k mem => Slices.rd2 c mem a i k) (fun i j k mem => Slices.rd2 c mem b' j k)
      (fun _ _ _ mem' hi hj hk => ⟨Slices.rd2_eq ha c mem' hi hk, fun e => pa _ e ⟨_, _, hi, hk, rfl⟩⟩)
      (fun _ _ _ mem' hi hj hk => ⟨Slices.rd2_eq hb' c mem' hj hk, fun e => pb' _ e ⟨_, _, hj, hk, rfl⟩⟩)
  · simp only [Slices.Rij_add_AikBjk, Slices.sizes2_ok hd c, Slices.sizes2_ok ha c, Slices.sizes2_ok hb' c, bind_ok]
    exact Slices.product_add c l mem hd hD (fun i j k => entry2 a i k) (fun i j k => entry2 b' j k)
      (fun i j k mem => Slices.rd2 c mem a i k) (fun i j k mem => Slices.rd2 c mem b' j k)
      (fun _ _ _ mem' hi hj hk => ⟨Slices.rd2_eq ha c mem' hi hk, fun e => pa _ e ⟨_, _, hi, hk, rfl⟩⟩)
      (fun _ _ _ mem' hi hj hk => ⟨Slices.rd2_eq hb' c mem' hj hk, fun e => pb' _ e ⟨_, _, hj, hk, rfl⟩⟩)
  · simp only [Slices.Rij_eq_AkiBkj, Slices.sizes2_ok hd c, Slices.sizes2_ok ha' c, Slices.sizes2_ok hb c, bind_ok]
    exact Slices.product_eq c hl mem hd hD (fun i j k => entry2 a' k i) (fun i j k => entry2 b k j)
      (fun i j k mem => Slices.rd2 c mem a' k i) (fun i j k mem => Slices.rd2 c mem b k j)
      (fun _ _ _ mem' hi hj hk => ⟨Slices.rd2_eq ha' c mem' hk hi, fun e => pa' _ e ⟨_, _, hk, hi, rfl⟩⟩)
      (fun _ _ _ mem' hi hj hk => ⟨Slices.rd2_eq hb c mem' hk hj, fun e => pb _ e ⟨_, _, hk, hj, rfl⟩⟩)
  · simp only [Slices.Rij_add_AkiBkj, Slices.sizes2_ok hd c, Slices.sizes2_ok ha' c, Slices.sizes2_ok hb c, bind_ok]
    exact Slices.product_add c l mem hd hD (fun i j k => entry2 a' k i) (fun i j k => entry2 b k j)
      (fun i j k mem => Slices.rd2 c mem a' k i) (fun i j k mem => Slices.rd2 c mem b k j)
      (fun _ _ _ mem' hi hj hk => ⟨Slices.rd2_eq ha' c mem' hk hi, fun e => pa' _ e ⟨_, _, hk, hi, rfl⟩⟩)
      (fun _ _ _ mem' hi hj hk => ⟨Slices.rd2_eq hb c mem' hk hj, fun e => pb _ e ⟨_, _, hk, hj, rfl⟩⟩)

/-- Products of a matrix and its transpose. -/
theorem C78_matrix_transposed (c : Cfg) {n l : Nat} (hl : 0 < l) {dst a a' : Slice} (mem : Store K) (hd : IsMatrix n n dst)
    (hD : Distinct2 n n dst) (ha : IsMatrix n l a) (ha' : IsMatrix l n a')
    (pa : NoneShared (Cells2 n n dst) (Cells2 n l a)) (pa' : NoneShared (Cells2 n n dst) (Cells2 l n a')) :
    SetsMatrix n n dst mem (fun i j => mem (entry2 dst i j) + ∑ k ∈ range l, mem (entry2 a i k) * mem (entry2 a j k))
      (Slices.Rij_add_AikAjk c n l dst a mem) ∧
    SetsMatrix n n dst mem (fun i j => ∑ k ∈ range l, mem (entry2 a' k i) * mem (entry2 a' k j))
      (Slices.Rij_eq_AkiAkj c n l dst a' mem) := by
  refine ⟨?_, ?_⟩
  · simp only [Slices.Rij_add_AikAjk, Slices.sizes2_ok hd c, Slices.sizes2_ok ha c, bind_ok]
    exact Slices.product_add c l mem hd hD (fun i j k => entry2 a i k) (fun i j k => entry2 a j k)
      (fun i j k mem => Slices.rd2 c mem a i k) (fun i j k mem => Slices.rd2 c mem a j k)
      (fun _ _ _ mem' hi hj hk => ⟨Slices.rd2_eq ha c mem' hi hk, fun e => pa _ e ⟨_, _, hi, hk, rfl⟩⟩)
      (fun _ _ _ mem' hi hj hk => ⟨Slices.rd2_eq ha c mem' hj hk, fun e => pa _ e ⟨_, _, hj, hk, rfl⟩⟩)
  · simp only [Slices.Rij_eq_AkiAkj, Slices.sizes2_ok hd c, Slices.sizes2_ok ha' c, bind_ok]
    exact Slices.product_eq c hl mem hd hD (fun i j k => entry2 a' k i) (fun i j k => entry2 a' k j)
      (fun i j k mem => Slices.rd2 c mem a' k i) (fun i j k mem => Slices.rd2 c mem a' k j)
      (fun _ _ _ mem' hi hj hk => ⟨Slices.rd2_eq ha' c mem' hk hi, fun e => pa' _ e ⟨_, _, hk, hi, rfl⟩⟩)
      (fun _ _ _ mem' hi hj hk => ⟨Slices.rd2_eq ha' c mem' hk hj, fun e => pa' _ e ⟨_, _, hk, hj, rfl⟩⟩)

/-- Adding a multiple of the identity to a matrix, also to a symmetric one. -/
theorem C78_diagonal (c : Cfg) {n : Nat} {dst sym : Slice} (mem : Store K) (x : K) (hd : IsMatrix n n dst) (hD : Distinct2 n n dst)
    (hs : IsVector (symSize n) sym) (hS : Distinct (symSize n) sym) :
    SetsMatrix n n dst mem (fun i j => mem (entry2 dst i j) + if i = j then x else 0) (Slices.addIdentity c n dst x mem) ∧
    SetsVector (symSize n) sym mem (fun i => mem (entry sym i) + if i < n then x else 0) (Slices.symAddIdentity c n sym x mem) := by
  refine ⟨?_, ?_⟩
  · simp only [Slices.addIdentity, Slices.sizes2_ok hd c, bind_ok]
    obtain ⟨new, e, h1, h2⟩ := Slices.each (fun i => entry2 dst i i) n (fun i j hi hj e => (hD i i j j hi hi hj hj e).1)
      (fun i => mem (entry2 dst i i) + x) (fun i mem => do Slices.wr2 c mem dst i i ((← Slices.rd2 c mem dst i i) + x)) mem
      (fun i mem' hi h => by
        rw [Slices.rd2_eq hd c _ hi hi]
        simp only [bind_ok]
        rw [Slices.wr2_eq hd c _ hi hi, h _ fun k hk e => by have := (hD i i k k hi hi (by omega) (by omega) e).1; omega])
    refine ⟨new, e, fun i j hi hj => ?_, fun q hq => h2 q fun ⟨i, hi, e⟩ => hq ⟨i, i, hi, hi, e⟩⟩
    show _ = mem (entry2 dst i j) + if i = j then x else 0
    by_cases hij : i = j
    · subst hij; rw [h1 i hi, if_pos rfl]
    · rw [h2 _ (fun ⟨k, hk, e⟩ => by have := hD i j k k hi hj hk hk e; omega), if_neg hij, add_zero]
  · have hn : n ≤ symSize n := by
      unfold symSize
      rw [Nat.le_div_iff_mul_le (by omega)]
      rcases Nat.eq_zero_or_pos n with h | h
      · simp [h]
      · exact Nat.mul_le_mul_left n (by omega)
    simp only [Slices.symAddIdentity, Slices.sizes_ok hs c, bind_ok]
    obtain ⟨new, e, h1, h2⟩ := Slices.each (entry sym) n (fun i j hi hj e => hS i j (by omega) (by omega) e)
      (fun i => mem (entry sym i) + x) (fun i mem => do Slices.wr c mem sym i ((← Slices.rd c mem sym i) + x)) mem
      (fun i mem' hi h => by
        have hi' : i < symSize n := by omega
        rw [Slices.rd_eq hs c _ hi']
        simp only [bind_ok]
        rw [Slices.wr_eq hs c _ hi', h _ fun k hk e => by have := hS i k hi' (by omega) e; omega])
    refine ⟨new, e, fun i hi => ?_, fun q hq => h2 q fun ⟨i, hi, e⟩ => hq ⟨i, by omega, e⟩⟩
    show _ = mem (entry sym i) + if i < n then x else 0
    by_cases hin : i < n
    · rw [h1 i hin, if_pos hin]
    · rw [h2 _ (fun ⟨k, hk, e⟩ => by have := hS i k hi (by omega) e; omega), if_neg hin, add_zero]

end Ring

/-- Both forms of `transpose`: the one with two arguments needs them to be apart. -/
theorem C78_transpose {K : Type} (c : Cfg) {n m : Nat} {dst src a : Slice} (mem : Store K) (hd : IsMatrix n m dst)
    (hD : Distinct2 n m dst) (hs : IsMatrix m n src) (ps : NoneShared (Cells2 n m dst) (Cells2 m n src)) (ha : IsMatrix n n a)
    (hA : Distinct2 n n a) :
    SetsMatrix n m dst mem (fun i j => mem (entry2 src j i)) (Slices.transpose c n m dst src mem) ∧
    SetsMatrix n n a mem (fun i j => mem (entry2 a j i)) (Slices.transposeInPlace c n a mem) := by
  refine ⟨?_, ?_⟩
  · simp only [Slices.transpose, Slices.sizes2_ok hd c, Slices.sizes2_ok hs c, bind_ok]
    obtain ⟨new, e, h1, h2⟩ := Slices.each2 (fun i j => entry2 dst j i) m n
      (fun i j k l hi hj hk hl e => (hD j i l k hj hi hl hk e).symm) (fun i j => mem (entry2 src i j))
      (fun i j mem => do Slices.wr2 c mem dst j i (← Slices.rd2 c mem src i j)) mem
      (fun i j mem' hi hj h => by
        rw [Slices.rd2_eq hs c _ hi hj]
        simp only [bind_ok]
        rw [Slices.wr2_eq hd c _ hj hi, h _ fun k l hl ho e => ps _ ⟨l, k, hl, by omega, rfl⟩ ⟨i, j, hi, hj, e.symm⟩])
    exact ⟨new, e, fun i j hi hj => h1 j i hj hi, fun q hq => h2 q fun ⟨i, j, hi, hj, e⟩ => hq ⟨j, i, hj, hi, e⟩⟩
  · simp only [Slices.transposeInPlace, Slices.sizes2_ok ha c, bind_ok]
    obtain ⟨new, e, h1, h2⟩ := Slices.loopR_follows (Slices.Shows2 n n a mem)
      (fun i mem => Slices.loopR (n - (i + 1)) (i + 1) (fun j mem => do
        let temp ← Slices.rd2 c mem a i j
        let mem ← Slices.wr2 c mem a i j (← Slices.rd2 c mem a j i)
        Slices.wr2 c mem a j i temp) mem)
      (fun i a => loop (n - (i + 1)) (i + 1) (fun j a => (a.put i j (a j i)).put j i (a i j)) a) n 0 mem
      (fun i j => mem (entry2 a i j))
      (fun i s t _ hi h => Slices.loopR_follows (Slices.Shows2 n n a mem) _ (fun j a => (a.put i j (a j i)).put j i (a i j)) _ _ s t
        (fun j s t hj hj' h => by
          have hi' : i < n := by omega
          have hj'' : j < n := by omega
          rw [Slices.rd2_eq ha c _ hi' hj'', bind_ok, Slices.rd2_eq ha c _ hj'' hi', bind_ok, Slices.wr2_eq ha c _ hi' hj'', bind_ok,
            Slices.wr2_eq ha c _ hj'' hi', h.1 i j hi' hj'', h.1 j i hj'' hi']
          exact ⟨_, rfl, (h.put hA hi' hj'' _).put hA hj'' hi' _⟩) h)
      ⟨fun i j _ _ => rfl, fun _ _ => rfl⟩
    refine ⟨new, e, fun i j hi hj => ?_, h2⟩
    rw [h1 i j hi hj]
    exact (C40_transpose n n (fun i j => mem (entry2 a i j)) (fun i j => mem (entry2 a i j))).2.1 i j hi hj

/-! ## The sizes of the arguments -/

/-- Operations on vectors of the wrong size end the program in builds with bounds checking. -/
theorem C78_sizes_vectors {K : Type} [Add K] [Sub K] [Mul K] {c : Cfg} (hc : c.boundsCheck = true) (n : Nat)
    (v1 v2 v3 : Slice) (hv1 : v1.dims.length = 1) (hv2 : v2.dims.length = 1) (hv3 : v3.dims.length = 1)
    (mem : Store K) (x : K) :
    (v1.dims ≠ [n] → Slices.fill c n v1 x mem = .error .abort) ∧
    (¬ (v1.dims = [n] ∧ v2.dims = [n]) → Slices.copy c n v1 v2 mem = .error .abort) ∧
    (v1.dims ≠ [n] → Slices.scale c n v1 x mem = .error .abort) ∧
    (¬ (v1.dims = [n] ∧ v2.dims = [n]) → Slices.scaledCopy c n v1 v2 x mem = .error .abort) ∧
    (v1.dims ≠ [n] → Slices.addScalar c n v1 x mem = .error .abort) ∧
    (¬ (v1.dims = [n] ∧ v2.dims = [n]) → Slices.add c n v1 v2 mem = .error .abort) ∧
    (¬ (v1.dims = [n] ∧ v2.dims = [n]) → Slices.subtract c n v1 v2 mem = .error .abort) ∧
    (¬ (v1.dims = [n] ∧ v2.dims = [n]) → Slices.scaledAdd c n v1 v2 x mem = .error .abort) ∧
    (¬ (v1.dims = [n] ∧ v2.dims = [n] ∧ v3.dims = [n]) → Slices.hadamardProduct c n v1 v2 v3 mem = .error .abort) ∧
    (¬ (v1.dims = [3] ∧ v2.dims = [3] ∧ v3.dims = [3]) → Slices.crossProduct c v1 v2 v3 mem = .error .abort) ∧
    (v1.dims ≠ [symSize n] → Slices.symAddIdentity c n v1 x mem = .error .abort) := by
  refine ⟨?_, ?_, ?_, ?_, ?_, ?_, ?_, ?_, ?_, ?_, ?_⟩
  · intro h
    simp only [Slices.fill, Slices.sizes_checked hc (n) hv1]
    rw [if_neg h, bind_err]
  · intro h
    simp only [Slices.copy, Slices.sizes_checked hc (n) hv1, Slices.sizes_checked hc (n) hv2]
    by_cases h0 : v1.dims = [n]
    case neg => simp only [if_neg h0, bind_ok, bind_err]
    by_cases h1 : v2.dims = [n]
    case neg => simp only [if_pos h0, if_neg h1, bind_ok, bind_err]
    exact absurd ⟨h0, h1⟩ h
  · intro h
    simp only [Slices.scale, Slices.sizes_checked hc (n) hv1]
    rw [if_neg h, bind_err]
  · intro h
    simp only [Slices.scaledCopy, Slices.sizes_checked hc (n) hv1, Slices.sizes_checked hc (n) hv2]
    by_cases h0 : v1.dims = [n]
    case neg => simp only [if_neg h0, bind_ok, bind_err]
    by_cases h1 : v2.dims = [n]
    case neg => simp only [if_pos h0, if_neg h1, bind_ok, bind_err]
    exact absurd ⟨h0, h1⟩ h
  · intro h
    simp only [Slices.addScalar, Slices.sizes_checked hc (n) hv1]
    rw [if_neg h, bind_err]
  · intro h
    simp only [Slices.add, Slices.sizes_checked hc (n) hv1, Slices.sizes_checked hc (n) hv2]
    by_cases h0 : v1.dims = [n]
    case neg => simp only [if_neg h0, bind_ok, bind_err]
    by_cases h1 : v2.dims = [n]
    case neg => simp only [if_pos h0, if_neg h1, bind_ok, bind_err]
    exact absurd ⟨h0, h1⟩ h
  · intro h
    simp only [Slices.subtract, Slices.sizes_checked hc (n) hv1, Slices.sizes_checked hc (n) hv2]
    by_cases h0 : v1.dims = [n]
    case neg => simp only [if_neg h0, bind_ok, bind_err]
    by_cases h1 : v2.dims = [n]
    case neg => simp only [if_pos h0, if_neg h1, bind_ok, bind_err]
    exact absurd ⟨h0, h1⟩ h
  · intro h
    simp only [Slices.scaledAdd, Slices.sizes_checked hc (n) hv1, Slices.sizes_checked hc (n) hv2]
    by_cases h0 : v1.dims = [n]
    case neg => simp only [if_neg h0, bind_ok, bind_err]
    by_cases h1 : v2.dims = [n]
    case neg => simp only [if_pos h0, if_neg h1, bind_ok, bind_err]
    exact absurd ⟨h0, h1⟩ h
  · intro h
    simp only [Slices.hadamardProduct, Slices.sizes_checked hc (n) hv1, Slices.sizes_checked hc (n) hv2, Slices.sizes_checked hc (n) hv3]
    by_cases h0 : v1.dims = [n]
    case neg => simp only [if_neg h0, bind_ok, bind_err]
    by_cases h1 : v2.dims = [n]
    case neg => simp only [if_pos h0, if_neg h1, bind_ok, bind_err]
    by_cases h2 : v3.dims = [n]
    case neg => simp only [if_pos h0, if_pos h1, if_neg h2, bind_ok, bind_err]
    exact absurd ⟨h0, h1, h2⟩ h
  · intro h
    simp only [Slices.crossProduct, Slices.sizes_checked hc (3) hv1, Slices.sizes_checked hc (3) hv2, Slices.sizes_checked hc (3) hv3]
    by_cases h0 : v1.dims = [3]
    case neg => simp only [if_neg h0, bind_ok, bind_err]
    by_cases h1 : v2.dims = [3]
    case neg => simp only [if_pos h0, if_neg h1, bind_ok, bind_err]
    by_cases h2 : v3.dims = [3]
    case neg => simp only [if_pos h0, if_pos h1, if_neg h2, bind_ok, bind_err]
    exact absurd ⟨h0, h1, h2⟩ h
  · intro h
    simp only [Slices.symAddIdentity, Slices.sizes_checked hc (symSize n) hv1]
    rw [if_neg h, bind_err]

/-- Operations on matrices of the wrong sizes end the program in builds with bounds checking. -/
theorem C78_sizes_matrices {K : Type} [Add K] [Sub K] [Mul K] {c : Cfg} (hc : c.boundsCheck = true) (n m l : Nat)
    (m1 m2 m3 : Slice) (hm1 : m1.dims.length = 2) (hm2 : m2.dims.length = 2) (hm3 : m3.dims.length = 2)
    (mem : Store K) (x : K) :
    (m1.dims ≠ [n, m] → Slices.fillMat c n m m1 x mem = .error .abort) ∧
    (¬ (m1.dims = [n, m] ∧ m2.dims = [n, m]) → Slices.copyMat c n m m1 m2 mem = .error .abort) ∧
    (m1.dims ≠ [n, m] → Slices.scaleMat c n m m1 x mem = .error .abort) ∧
    (¬ (m1.dims = [n, m] ∧ m2.dims = [n, m]) → Slices.scaledCopyMat c n m m1 m2 x mem = .error .abort) ∧
    (¬ (m1.dims = [n, m] ∧ m2.dims = [n, m]) → Slices.addMat c n m m1 m2 mem = .error .abort) ∧
    (¬ (m1.dims = [n, m] ∧ m2.dims = [n, m]) → Slices.scaledAddMat c n m m1 m2 x mem = .error .abort) ∧
    (¬ (m1.dims = [n, m] ∧ m2.dims = [n, l] ∧ m3.dims = [l, m]) → Slices.Rij_eq_AikBkj c n m l m1 m2 m3 mem = .error .abort) ∧
    (¬ (m1.dims = [n, m] ∧ m2.dims = [n, l] ∧ m3.dims = [l, m]) → Slices.Rij_add_AikBkj c n m l m1 m2 m3 mem = .error .abort) ∧
    (¬ (m1.dims = [n, m] ∧ m2.dims = [n, l] ∧ m3.dims = [m, l]) → Slices.Rij_eq_AikBjk c n m l m1 m2 m3 mem = .error .abort) ∧
    (¬ (m1.dims = [n, m] ∧ m2.dims = [n, l] ∧ m3.dims = [m, l]) → Slices.Rij_add_AikBjk c n m l m1 m2 m3 mem = .error .abort) ∧
    (¬ (m1.dims = [n, m] ∧ m2.dims = [l, n] ∧ m3.dims = [l, m]) → Slices.Rij_eq_AkiBkj c n m l m1 m2 m3 mem = .error .abort) ∧
    (¬ (m1.dims = [n, m] ∧ m2.dims = [l, n] ∧ m3.dims = [l, m]) → Slices.Rij_add_AkiBkj c n m l m1 m2 m3 mem = .error .abort) ∧
    (¬ (m1.dims = [n, n] ∧ m2.dims = [n, l]) → Slices.Rij_add_AikAjk c n l m1 m2 mem = .error .abort) ∧
    (¬ (m1.dims = [n, n] ∧ m2.dims = [l, n]) → Slices.Rij_eq_AkiAkj c n l m1 m2 mem = .error .abort) ∧
    (¬ (m1.dims = [n, m] ∧ m2.dims = [m, n]) → Slices.transpose c n m m1 m2 mem = .error .abort) ∧
    (m1.dims ≠ [n, n] → Slices.transposeInPlace c n m1 mem = .error .abort) ∧
    (m1.dims ≠ [n, n] → Slices.addIdentity c n m1 x mem = .error .abort) := by
  refine ⟨?_, ?_, ?_, ?_, ?_, ?_, ?_, ?_, ?_, ?_, ?_, ?_, ?_, ?_, ?_, ?_, ?_⟩
  · intro h
    simp only [Slices.fillMat, Slices.sizes2_checked hc n m hm1]
    rw [if_neg h, bind_err]
  · intro h
    simp only [Slices.copyMat, Slices.sizes2_checked hc n m hm1, Slices.sizes2_checked hc n m hm2]
    by_cases h0 : m1.dims = [n, m]
    case neg => simp only [if_neg h0, bind_ok, bind_err]
    by_cases h1 : m2.dims = [n, m]
    case neg => simp only [if_pos h0, if_neg h1, bind_ok, bind_err]
    exact absurd ⟨h0, h1⟩ h
  · intro h
    simp only [Slices.scaleMat, Slices.sizes2_checked hc n m hm1]
    rw [if_neg h, bind_err]
  · intro h
    simp only [Slices.scaledCopyMat, Slices.sizes2_checked hc n m hm1, Slices.sizes2_checked hc n m hm2]
    by_cases h0 : m1.dims = [n, m]
    case neg => simp only [if_neg h0, bind_ok, bind_err]
    by_cases h1 : m2.dims = [n, m]
    case neg => simp only [if_pos h0, if_neg h1, bind_ok, bind_err]
    exact absurd ⟨h0, h1⟩ h
  · intro h
    simp only [Slices.addMat, Slices.sizes2_checked hc n m hm1, Slices.sizes2_checked hc n m hm2]
    by_cases h0 : m1.dims = [n, m]
    case neg => simp only [if_neg h0, bind_ok, bind_err]
    by_cases h1 : m2.dims = [n, m]
    case neg => simp only [if_pos h0, if_neg h1, bind_ok, bind_err]
    exact absurd ⟨h0, h1⟩ h
  · intro h
    simp only [Slices.scaledAddMat, Slices.sizes2_checked hc n m hm1, Slices.sizes2_checked hc n m hm2]
    by_cases h0 : m1.dims = [n, m]
    case neg => simp only [if_neg h0, bind_ok, bind_err]
    by_cases h1 : m2.dims = [n, m]
    case neg => simp only [if_pos h0, if_neg h1, bind_ok, bind_err]
    exact absurd ⟨h0, h1⟩ h
  · intro h
    simp only [Slices.Rij_eq_AikBkj, Slices.sizes2_checked hc n m hm1, Slices.sizes2_checked hc n l hm2, Slices.sizes2_checked hc l m hm3]
    by_cases h0 : m1.dims = [n, m]
    case neg => simp only [if_neg h0, bind_ok, bind_err]
    by_cases h1 : m2.dims = [n, l]
    case neg => simp only [if_pos h0, if_neg h1, bind_ok, bind_err]
    by_cases h2 : m3.dims = [l, m]
    case neg => simp only [if_pos h0, if_pos h1, if_neg h2, bind_ok, bind_err]
    exact absurd ⟨h0, h1, h2⟩ h
  · intro h
    simp only [Slices.Rij_add_AikBkj, Slices.sizes2_checked hc n m hm1, Slices.sizes2_checked hc n l hm2, Slices.sizes2_checked hc l m hm3]
    by_cases h0 : m1.dims = [n, m]
    case neg => simp only [if_neg h0, bind_ok, bind_err]
    by_cases h1 : m2.dims = [n, l]
    case neg => simp only [if_pos h0, if_neg h1, bind_ok, bind_err]
    by_cases h2 : m3.dims = [l, m]
    case neg => simp only [if_pos h0, if_pos h1, if_neg h2, bind_ok, bind_err]
    exact absurd ⟨h0, h1, h2⟩ h
  · intro h
    simp only [Slices.Rij_eq_AikBjk, Slices.sizes2_checked hc n m hm1, Slices.sizes2_checked hc n l hm2, Slices.sizes2_checked hc m l hm3]
    by_cases h0 : m1.dims = [n, m]
    case neg => simp only [if_neg h0, bind_ok, bind_err]
    by_cases h1 : m2.dims = [n, l]
    case neg => simp only [if_pos h0, if_neg h1, bind_ok, bind_err]
    by_cases h2 : m3.dims = [m, l]
    case neg => simp only [if_pos h0, if_pos h1, if_neg h2, bind_ok, bind_err]
    exact absurd ⟨h0, h1, h2⟩ h
  · intro h
    simp only [Slices.Rij_add_AikBjk, Slices.sizes2_checked hc n m hm1, Slices.sizes2_checked hc n l hm2, Slices.sizes2_checked hc m l hm3]
    by_cases h0 : m1.dims = [n, m]
    case neg => simp only [if_neg h0, bind_ok, bind_err]
    by_cases h1 : m2.dims = [n, l]
    case neg => simp only [if_pos h0, if_neg h1, bind_ok, bind_err]
    by_cases h2 : m3.dims = [m, l]
    case neg => simp only [if_pos h0, if_pos h1, if_neg h2, bind_ok, bind_err]
    exact absurd ⟨h0, h1, h2⟩ h
  · intro h
    simp only [Slices.Rij_eq_AkiBkj, Slices.sizes2_checked hc n m hm1, Slices.sizes2_checked hc l n hm2, Slices.sizes2_checked hc l m hm3]
    by_cases h0 : m1.dims = [n, m]
    case neg => simp only [if_neg h0, bind_ok, bind_err]
    by_cases h1 : m2.dims = [l, n]
    case neg => simp only [if_pos h0, if_neg h1, bind_ok, bind_err]
    by_cases h2 : m3.dims = [l, m]
    case neg => simp only [if_pos h0, if_pos h1, if_neg h2, bind_ok, bind_err]
    exact absurd ⟨h0, h1, h2⟩ h
  · intro h
    simp only [Slices.Rij_add_AkiBkj, Slices.sizes2_checked hc n m hm1, Slices.sizes2_checked hc l n hm2, Slices.sizes2_checked hc l m hm3]
    by_cases h0 : m1.dims = [n, m]
    case neg => simp only [if_neg h0, bind_ok, bind_err]
    by_cases h1 : m2.dims = [l, n]
    case neg => simp only [if_pos h0, if_neg h1, bind_ok, bind_err]
    by_cases h2 : m3.dims = [l, m]
    case neg => simp only [if_pos h0, if_pos h1, if_neg h2, bind_ok, bind_err]
    exact absurd ⟨h0, h1, h2⟩ h
  · intro h
    simp only [Slices.Rij_add_AikAjk, Slices.sizes2_checked hc n n hm1, Slices.sizes2_checked hc n l hm2]
    by_cases h0 : m1.dims = [n, n]
    case neg => simp only [if_neg h0, bind_ok, bind_err]
    by_cases h1 : m2.dims = [n, l]
    case neg => simp only [if_pos h0, if_neg h1, bind_ok, bind_err]
    exact absurd ⟨h0, h1⟩ h
  · intro h
    simp only [Slices.Rij_eq_AkiAkj, Slices.sizes2_checked hc n n hm1, Slices.sizes2_checked hc l n hm2]
    by_cases h0 : m1.dims = [n, n]
    case neg => simp only [if_neg h0, bind_ok, bind_err]
    by_cases h1 : m2.dims = [l, n]
    case neg => simp only [if_pos h0, if_neg h1, bind_ok, bind_err]
    exact absurd ⟨h0, h1⟩ h
  · intro h
    simp only [Slices.transpose, Slices.sizes2_checked hc n m hm1, Slices.sizes2_checked hc m n hm2]
    by_cases h0 : m1.dims = [n, m]
    case neg => simp only [if_neg h0, bind_ok, bind_err]
    by_cases h1 : m2.dims = [m, n]
    case neg => simp only [if_pos h0, if_neg h1, bind_ok, bind_err]
    exact absurd ⟨h0, h1⟩ h
  · intro h
    simp only [Slices.transposeInPlace, Slices.sizes2_checked hc n n hm1]
    rw [if_neg h, bind_err]
  · intro h
    simp only [Slices.addIdentity, Slices.sizes2_checked hc n n hm1]
    rw [if_neg h, bind_err]

/-- So do those on a matrix and vectors. -/
theorem C78_sizes_products {K : Type} [Add K] [Sub K] [Mul K] {c : Cfg} (hc : c.boundsCheck = true) (n m : Nat)
    (m1 v1 v2 : Slice) (hm1 : m1.dims.length = 2) (hv1 : v1.dims.length = 1) (hv2 : v2.dims.length = 1)
    (mem : Store K) :
    (¬ (m1.dims = [n, m] ∧ v1.dims = [n] ∧ v2.dims = [m]) → Slices.Rij_eq_AiBj c n m m1 v1 v2 mem = .error .abort) ∧
    (¬ (m1.dims = [n, m] ∧ v1.dims = [n] ∧ v2.dims = [m]) → Slices.Rij_add_AiBj c n m m1 v1 v2 mem = .error .abort) ∧
    (¬ (v1.dims = [n] ∧ m1.dims = [n, m] ∧ v2.dims = [m]) → Slices.Ri_eq_AijBj c n m v1 m1 v2 mem = .error .abort) ∧
    (¬ (v1.dims = [n] ∧ m1.dims = [n, m] ∧ v2.dims = [m]) → Slices.Ri_add_AijBj c n m v1 m1 v2 mem = .error .abort) ∧
    (¬ (v1.dims = [n] ∧ m1.dims = [m, n] ∧ v2.dims = [m]) → Slices.Ri_eq_AjiBj c n m v1 m1 v2 mem = .error .abort) ∧
    (¬ (v1.dims = [n] ∧ m1.dims = [m, n] ∧ v2.dims = [m]) → Slices.Ri_add_AjiBj c n m v1 m1 v2 mem = .error .abort) := by
  refine ⟨?_, ?_, ?_, ?_, ?_, ?_⟩
  · intro h
    simp only [Slices.Rij_eq_AiBj, Slices.sizes2_checked hc n m hm1, Slices.sizes_checked hc (n) hv1, Slices.sizes_checked hc (m) hv2]
    by_cases h0 : m1.dims = [n, m]
    case neg => simp only [if_neg h0, bind_ok, bind_err]
    by_cases h1 : v1.dims = [n]
    case neg => simp only [if_pos h0, if_neg h1, bind_ok, bind_err]
    by_cases h2 : v2.dims = [m]
    case neg => simp only [if_pos h0, if_pos h1, if_neg h2, bind_ok, bind_err]
    exact absurd ⟨h0, h1, h2⟩ h
  · intro h
    simp only [Slices.Rij_add_AiBj, Slices.sizes2_checked hc n m hm1, Slices.sizes_checked hc (n) hv1, Slices.sizes_checked hc (m) hv2]
    by_cases h0 : m1.dims = [n, m]
    case neg => simp only [if_neg h0, bind_ok, bind_err]
    by_cases h1 : v1.dims = [n]
    case neg => simp only [if_pos h0, if_neg h1, bind_ok, bind_err]
    by_cases h2 : v2.dims = [m]
    case neg => simp only [if_pos h0, if_pos h1, if_neg h2, bind_ok, bind_err]
    exact absurd ⟨h0, h1, h2⟩ h
  · intro h
    simp only [Slices.Ri_eq_AijBj, Slices.sizes_checked hc (n) hv1, Slices.sizes2_checked hc n m hm1, Slices.sizes_checked hc (m) hv2]
    by_cases h0 : v1.dims = [n]
    case neg => simp only [if_neg h0, bind_ok, bind_err]
    by_cases h1 : m1.dims = [n, m]
    case neg => simp only [if_pos h0, if_neg h1, bind_ok, bind_err]
    by_cases h2 : v2.dims = [m]
    case neg => simp only [if_pos h0, if_pos h1, if_neg h2, bind_ok, bind_err]
    exact absurd ⟨h0, h1, h2⟩ h
  · intro h
    simp only [Slices.Ri_add_AijBj, Slices.sizes_checked hc (n) hv1, Slices.sizes2_checked hc n m hm1, Slices.sizes_checked hc (m) hv2]
    by_cases h0 : v1.dims = [n]
    case neg => simp only [if_neg h0, bind_ok, bind_err]
    by_cases h1 : m1.dims = [n, m]
    case neg => simp only [if_pos h0, if_neg h1, bind_ok, bind_err]
    by_cases h2 : v2.dims = [m]
    case neg => simp only [if_pos h0, if_pos h1, if_neg h2, bind_ok, bind_err]
    exact absurd ⟨h0, h1, h2⟩ h
  · intro h
    simp only [Slices.Ri_eq_AjiBj, Slices.sizes_checked hc (n) hv1, Slices.sizes2_checked hc m n hm1, Slices.sizes_checked hc (m) hv2]
    by_cases h0 : v1.dims = [n]
    case neg => simp only [if_neg h0, bind_ok, bind_err]
    by_cases h1 : m1.dims = [m, n]
    case neg => simp only [if_pos h0, if_neg h1, bind_ok, bind_err]
    by_cases h2 : v2.dims = [m]
    case neg => simp only [if_pos h0, if_pos h1, if_neg h2, bind_ok, bind_err]
    exact absurd ⟨h0, h1, h2⟩ h
  · intro h
    simp only [Slices.Ri_add_AjiBj, Slices.sizes_checked hc (n) hv1, Slices.sizes2_checked hc m n hm1, Slices.sizes_checked hc (m) hv2]
    by_cases h0 : v1.dims = [n]
    case neg => simp only [if_neg h0, bind_ok, bind_err]
    by_cases h1 : m1.dims = [m, n]
    case neg => simp only [if_pos h0, if_neg h1, bind_ok, bind_err]
    by_cases h2 : v2.dims = [m]
    case neg => simp only [if_pos h0, if_pos h1, if_neg h2, bind_ok, bind_err]
    exact absurd ⟨h0, h1, h2⟩ h

/-! ## Slices of arrays are such vectors and matrices -/

/-- Fixing all indices of an array but the last, whatever its layout and wherever it is in memory, gives a vector of distinct entries;
its entry `i` is the element of the array at these indices and `i`. -/
theorem C78_vectors_of_arrays (c : Cfg) (p dims : List Nat) (hv : typeManipulation.isValidPermutation p = true)
    (hl : p.length = dims.length) (base : Int) {pre : List Int} {n : Nat} (hn : dims.drop pre.length = [n])
    (hpre : InBounds (dims.take pre.length) pre) :
    ∃ s, ({ layout p dims with data := base } : Slice).chain c pre = .ok s ∧ IsVector n s ∧ Distinct n s ∧
      ∀ i : Nat, i < n → (layout p dims).call c (pre ++ [(i : Int)]) = .ok (entry s i - base) := by
  have hp := isPermutation_of_valid hv hl
  have hlen : pre.length + 1 = dims.length := by
    have := congrArg List.length hn; simp at this; omega
  obtain ⟨t, ht⟩ := Slice.chain_ok (c := c) (s := layout p dims) hpre
  obtain ⟨h1, h2, h3⟩ := Slice.chain_shape ht
  have hvec : IsVector n t := by
    refine ⟨h1.trans hn, by rw [h2]; show ((indexing.calculateStrides p dims).drop _).length = 1
                            rw [List.length_drop, (calculateStrides_spec hp).1]; omega, fun hu => ?_⟩
    rw [h2]
    refine slice_usd hp (by omega) 0 ?_ ?_
    · rw [List.length_drop, (calculateStrides_spec hp).1]; omega
    · rw [h3] at hu; exact hu.symm
  have haddr : ∀ i : Nat, i < n → (layout p dims).call c (pre ++ [(i : Int)]) = .ok (entry t i) := fun i hi => by
    rw [← (C03_chained_subscript c p dims hv hl pre [(i : Int)] (by simpa using hlen)).1, ht, bind_ok, Slices.call_entry hvec c hi]
  have hin : ∀ i : Nat, i < n → InBounds dims (pre ++ [(i : Int)]) := fun i hi => by
    have := LvArray.InBounds.append (b := [n]) (y := [(i : Int)]) hpre ⟨⟨by omega, by omega⟩, trivial⟩
    rwa [← hn, List.take_append_drop] at this
  have he : ∀ i, entry ({ t with data := base + t.data } : Slice) i = base + entry t i := fun i => by simp only [entry]; omega
  refine ⟨_, by have := Slices.chain_moved c base pre _ _ ht; rwa [show base + (layout p dims).data = base by simp [layout]] at this,
    Slices.vector_moved base hvec, fun i j hi hj e => ?_, fun i hi => ?_⟩
  · rw [he, he] at e
    have := (C01_bijection c p dims hv hl).2.2.1 _ _ (hin i hi) (hin j hj) (by rw [haddr i hi, haddr j hj]; congr 1; omega)
    have := List.append_cancel_left this
    simp at this; exact this
  · rw [haddr i hi, he]; congr 1; omega

/-- Fixing all indices of an array but the last two gives a matrix of distinct entries. -/
theorem C78_matrices_of_arrays (c : Cfg) (p dims : List Nat) (hv : typeManipulation.isValidPermutation p = true)
    (hl : p.length = dims.length) (base : Int) {pre : List Int} {n m : Nat} (hn : dims.drop pre.length = [n, m])
    (hpre : InBounds (dims.take pre.length) pre) :
    ∃ s, ({ layout p dims with data := base } : Slice).chain c pre = .ok s ∧ IsMatrix n m s ∧ Distinct2 n m s ∧
      ∀ i j : Nat, i < n → j < m → (layout p dims).call c (pre ++ [(i : Int), (j : Int)]) = .ok (entry2 s i j - base) := by
  have hp := isPermutation_of_valid hv hl
  have hlen : pre.length + 2 = dims.length := by
    have := congrArg List.length hn; simp at this; omega
  obtain ⟨t, ht⟩ := Slice.chain_ok (c := c) (s := layout p dims) hpre
  obtain ⟨h1, h2, h3⟩ := Slice.chain_shape ht
  have hsl : ((indexing.calculateStrides p dims).drop pre.length).length = 2 := by
    rw [List.length_drop, (calculateStrides_spec hp).1]; omega
  have hmat : IsMatrix n m t := by
    refine ⟨h1.trans hn, by rw [h2]; exact hsl, fun hu => ?_, fun hu => ?_⟩
    · rw [h2]
      refine slice_usd hp (by omega) 0 (by omega) ?_
      rw [h3] at hu; exact hu.symm
    · rw [h2]
      refine slice_usd hp (by omega) 1 (by omega) ?_
      rw [h3] at hu; exact hu.symm
  have haddr : ∀ i j : Nat, i < n → j < m → (layout p dims).call c (pre ++ [(i : Int), (j : Int)]) = .ok (entry2 t i j) :=
    fun i j hi hj => by
      rw [← (C03_chained_subscript c p dims hv hl pre [(i : Int), (j : Int)] (by simpa using hlen)).1, ht, bind_ok,
        Slices.call_entry2 hmat c hi hj]
  have hin : ∀ i j : Nat, i < n → j < m → InBounds dims (pre ++ [(i : Int), (j : Int)]) := fun i j hi hj => by
    have := LvArray.InBounds.append (b := [n, m]) (y := [(i : Int), (j : Int)]) hpre ⟨⟨by omega, by omega⟩, ⟨by omega, by omega⟩, trivial⟩
    rwa [← hn, List.take_append_drop] at this
  have he : ∀ i j, entry2 ({ t with data := base + t.data } : Slice) i j = base + entry2 t i j := fun i j => by
    simp only [entry2]; omega
  refine ⟨_, by have := Slices.chain_moved c base pre _ _ ht; rwa [show base + (layout p dims).data = base by simp [layout]] at this,
    Slices.matrix_moved base hmat, fun i j k l hi hj hk hl' e => ?_, fun i j hi hj => ?_⟩
  · rw [he, he] at e
    have := (C01_bijection c p dims hv hl).2.2.1 _ _ (hin i j hi hj) (hin k l hk hl')
      (by rw [haddr i j hi hj, haddr k l hk hl']; congr 1; omega)
    have := List.append_cancel_left this
    simp at this; exact this
  · rw [haddr i j hi hj, he]; congr 1; omega

/-- Vectors, and matrices, at different indices of one array are apart. -/
theorem C78_slices_apart (c : Cfg) (p dims : List Nat) (hv : typeManipulation.isValidPermutation p = true)
    (hl : p.length = dims.length) (base : Int) {pre pre' : List Int} (hlen : pre.length = pre'.length) (hne : pre ≠ pre')
    (hpre : InBounds (dims.take pre.length) pre) (hpre' : InBounds (dims.take pre.length) pre') {s s' : Slice}
    (hs : ({ layout p dims with data := base } : Slice).chain c pre = .ok s)
    (hs' : ({ layout p dims with data := base } : Slice).chain c pre' = .ok s') :
    (∀ n, dims.drop pre.length = [n] → NoneShared (Cells n s) (Cells n s')) ∧
    (∀ n m, dims.drop pre.length = [n, m] → NoneShared (Cells2 n m s) (Cells2 n m s')) := by
  refine ⟨fun n hn => ?_, fun n m hn => ?_⟩
  · obtain ⟨t, h1, _, _, h4⟩ := C78_vectors_of_arrays c p dims hv hl base hn hpre
    obtain ⟨t', h1', _, _, h4'⟩ := C78_vectors_of_arrays c p dims hv hl base (hlen ▸ hn) (hlen ▸ hpre')
    rw [hs] at h1; rw [hs'] at h1'
    injection h1 with h1; injection h1' with h1'
    subst h1; subst h1'
    rintro a ⟨i, hi, rfl⟩ ⟨j, hj, e⟩
    have hin := LvArray.InBounds.append (b := [n]) (y := [(i : Int)]) hpre ⟨⟨by omega, by omega⟩, trivial⟩
    have hin' := LvArray.InBounds.append (b := [n]) (y := [(j : Int)]) hpre' ⟨⟨by omega, by omega⟩, trivial⟩
    rw [← hn, List.take_append_drop] at hin hin'
    have := (C01_bijection c p dims hv hl).2.2.1 _ _ hin hin' (by rw [h4 i hi, h4' j hj, e])
    exact hne (List.append_inj this hlen).1
  · obtain ⟨t, h1, _, _, h4⟩ := C78_matrices_of_arrays c p dims hv hl base hn hpre
    obtain ⟨t', h1', _, _, h4'⟩ := C78_matrices_of_arrays c p dims hv hl base (hlen ▸ hn) (hlen ▸ hpre')
    rw [hs] at h1; rw [hs'] at h1'
    injection h1 with h1; injection h1' with h1'
    subst h1; subst h1'
    rintro a ⟨i, j, hi, hj, rfl⟩ ⟨k, l, hk, hl', e⟩
    have hin := LvArray.InBounds.append (b := [n, m]) (y := [(i : Int), (j : Int)]) hpre ⟨⟨by omega, by omega⟩, ⟨by omega, by omega⟩, trivial⟩
    have hin' := LvArray.InBounds.append (b := [n, m]) (y := [(k : Int), (l : Int)]) hpre' ⟨⟨by omega, by omega⟩, ⟨by omega, by omega⟩, trivial⟩
    rw [← hn, List.take_append_drop] at hin hin'
    have := (C01_bijection c p dims hv hl).2.2.1 _ _ hin hin' (by rw [h4 i j hi hj, h4' k l hk hl', e])
    exact hne (List.append_inj this hlen).1

/-! ## What goes wrong otherwise -/

/-- Two vectors of size three and two matrices of sizes two and two, one after the other, in a memory that holds the squares. -/
def v3 (data : Int) : Slice := ⟨data, [3], [1], 0⟩

def m22 (data : Int) : Slice := ⟨data, [2, 2], [2, 1], 1⟩

def squares : Store Int := fun a => a * a

/-- The entry of the destination at address `a` after the call. -/
def after (r : R (Store Int)) (a : Int) : R Int := r >>= fun mem => .ok (mem a)

theorem after_eq {r : R (Store Int)} {mem : Store Int} (h : r = .ok mem) (a : Int) : after r a = .ok (mem a) := by
  rw [after, h, bind_ok]

/-- If the destination is also an argument of a cross product, of a product or of a transposition, or lies ahead of the source of a copy,
then entries are used after they have been overwritten. -/
theorem C78_overlap_witness (c : Cfg) (hc : c.boundsCheck = true) :
    ¬ SetsVector 3 (v3 1) squares (fun i => squares (entry (v3 1) ((i + 1) % 3)) * squares (entry (v3 5) ((i + 2) % 3)) -
        squares (entry (v3 1) ((i + 2) % 3)) * squares (entry (v3 5) ((i + 1) % 3))) (Slices.crossProduct c (v3 1) (v3 1) (v3 5) squares) ∧
    ¬ SetsVector 2 ⟨9, [2], [1], 0⟩ squares (fun i => ∑ j ∈ range 2, squares (entry2 (m22 1) i j) * squares (entry ⟨9, [2], [1], 0⟩ j))
        (Slices.Ri_eq_AijBj c 2 2 ⟨9, [2], [1], 0⟩ (m22 1) ⟨9, [2], [1], 0⟩ squares) ∧
    ¬ SetsMatrix 2 2 (m22 1) squares (fun i j => ∑ k ∈ range 2, squares (entry2 (m22 1) i k) * squares (entry2 (m22 5) k j))
        (Slices.Rij_eq_AikBkj c 2 2 2 (m22 1) (m22 1) (m22 5) squares) ∧
    ¬ SetsMatrix 2 2 (m22 1) squares (fun i j => squares (entry2 (m22 1) j i)) (Slices.transpose c 2 2 (m22 1) (m22 1) squares) ∧
    ¬ SetsVector 3 (v3 2) squares (fun i => squares (entry (v3 1) i)) (Slices.copy c 3 (v3 2) (v3 1) squares) := by
  obtain ⟨t, b, d⟩ := c
  obtain rfl : b = true := hc
  refine ⟨?_, ?_, ?_, ?_, ?_⟩
  · rintro ⟨new, h, f, -⟩
    have := after_eq h 2
    rw [show new 2 = _ from f 1 (by omega)] at this
    revert this; cases t <;> cases d <;> decide +kernel
  · rintro ⟨new, h, f, -⟩
    have := after_eq h 10
    rw [show new 10 = _ from f 1 (by omega)] at this
    revert this; cases t <;> cases d <;> decide +kernel
  · rintro ⟨new, h, f, -⟩
    have := after_eq h 2
    rw [show new 2 = _ from f 0 1 (by omega) (by omega)] at this
    revert this; cases t <;> cases d <;> decide +kernel
  · rintro ⟨new, h, f, -⟩
    have := after_eq h 2
    rw [show new 2 = _ from f 0 1 (by omega) (by omega)] at this
    revert this; cases t <;> cases d <;> decide +kernel
  · rintro ⟨new, h, f, -⟩
    have := after_eq h 3
    rw [show new 3 = _ from f 1 (by omega)] at this
    revert this; cases t <;> cases d <;> decide +kernel

/-- Without bounds checking a vector that is too short is not noticed, and the cells behind it are changed. -/
theorem C78_sizes_unchecked_witness (c : Cfg) (hc : c.boundsCheck = false) :
    ∃ new, Slices.fill c 3 ⟨1, [2], [1], 0⟩ (7 : Int) squares = .ok new ∧ new 3 = 7 ∧ ¬ Cells 2 ⟨1, [2], [1], 0⟩ 3 := by
  obtain ⟨t, b, d⟩ := c
  obtain rfl : b = false := hc
  refine ⟨_, rfl, ?_, ?_⟩
  · decide
  · rintro ⟨i, hi, e⟩
    simp [entry] at e
    omega

/-! ## The hypotheses are met -/

/-- The rows and columns of a matrix and its two halves, in the layouts of `[ 0, 1 ]` and `[ 1, 0 ]`. -/
example : IsVector 3 (v3 1) ∧ Distinct 3 (v3 1) ∧ NoneShared (Cells 3 (v3 1)) (Cells 3 (v3 5)) ∧ ReadFirst 3 (v3 1) (v3 2) ∧
    ¬ ReadFirst 3 (v3 2) (v3 1) := by
  refine ⟨⟨rfl, rfl, fun _ => rfl⟩, fun i j hi hj e => ?_, ?_, fun k i hk hi e => ?_, fun h => ?_⟩
  · simp [entry, v3] at e; omega
  · rintro a ⟨i, hi, rfl⟩ ⟨j, hj, e⟩; simp [entry, v3] at e; omega
  · simp [entry, v3] at e; omega
  · exact h 0 1 (by omega) (by omega) (by decide)

example : IsMatrix 2 2 (m22 1) ∧ Distinct2 2 2 (m22 1) ∧ NoneShared (Cells2 2 2 (m22 1)) (Cells2 2 2 (m22 5)) := by
  refine ⟨⟨rfl, rfl, fun h => absurd h (by decide), fun _ => rfl⟩, fun i j k l hi hj hk hl e => ?_, ?_⟩
  · simp [entry2, m22] at e; omega
  · rintro a ⟨i, j, hi, hj, rfl⟩ ⟨k, l, hk, hl, e⟩; simp [entry2, m22] at e; omega

example : after (Slices.Rij_add_AikBkj ⟨true, true, false⟩ 2 2 2 (m22 1) (m22 5) (m22 9) squares) 2 = .ok (4 + 25 * 100 + 36 * 144) := by
  decide +kernel

/-- A matrix whose columns are contiguous: the slice at the second index of an array in the layout `[ 0, 2, 1 ]`. -/
example : ∃ s, ({ layout [0, 2, 1] [4, 3, 2] with data := 100 } : Slice).chain ⟨true, true, false⟩ [1] = .ok s ∧ s = ⟨106, [3, 2], [1, 3], 0⟩ ∧
    after (Slices.transpose ⟨true, true, false⟩ 2 3 ⟨0, [2, 3], [3, 1], 1⟩ s squares) 1 = .ok (107 * 107) :=
  ⟨_, rfl, by decide, by decide +kernel⟩

end LvArray.Props

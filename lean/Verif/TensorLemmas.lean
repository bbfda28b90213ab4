import Verif.TensorOps
import Mathlib.Algebra.BigOperators.Group.Finset.Basic
import Mathlib.Algebra.BigOperators.Intervals
import Mathlib.Tactic.Ring

/-!
# What the loops of `tensorOps` compute
-/

namespace LvArray.tensorOps

open Finset

variable {K : Type}

theorem Vec.put_same (v : Vec K) (i : Nat) (x : K) : v.put i x i = x := by simp [Vec.put]

theorem Vec.put_ne (v : Vec K) {i k : Nat} (x : K) (h : k ≠ i) : v.put i x k = v k := by simp [Vec.put, h]

theorem Vec.put_put (v : Vec K) (i : Nat) (x y : K) : (v.put i x).put i y = v.put i y := by
  funext k; simp only [Vec.put]; split <;> rfl

theorem Vec.put_self (v : Vec K) (i : Nat) : v.put i (v i) = v := by
  funext k; simp only [Vec.put]; split
  · next h => rw [h]
  · rfl

theorem Mat.put_same (m : Mat K) (i j : Nat) (x : K) : m.put i j x i j = x := by simp [Mat.put]

theorem Mat.put_put (m : Mat K) (i j : Nat) (x y : K) : (m.put i j x).put i j y = m.put i j y := by
  funext k l; simp only [Mat.put]; split <;> rfl

theorem Mat.put_self (m : Mat K) (i j : Nat) : m.put i j (m i j) = m := by
  funext k l; simp only [Mat.put]; split
  · next h => rw [h.1, h.2]
  · rfl

/-- A loop whose pass `i` gives entry `i` the value `g i ( entry i )`. -/
theorem loop_vec (g : Nat → K → K) (f : Nat → Vec K → Vec K) (hf : ∀ i v, f i v = v.put i (g i (v i))) :
    ∀ (n lo : Nat) (v : Vec K), loop n lo f v = fun k => if lo ≤ k ∧ k < lo + n then g k (v k) else v k
  | 0, lo, v => by funext k; simp only [loop]; rw [if_neg (by omega)]
  | n + 1, lo, v => by
    rw [loop, loop_vec g f hf n (lo + 1), hf]
    funext k
    by_cases h : k = lo
    · subst h
      rw [if_neg (by omega), if_pos (by omega), Vec.put_same]
    · rw [Vec.put_ne _ _ h]
      by_cases h2 : lo ≤ k ∧ k < lo + (n + 1)
      · rw [if_pos (by omega), if_pos h2]
      · rw [if_neg (by omega), if_neg h2]

/-- A loop whose pass `i` gives every entry of a set `S i` its final value, where the sets do not overlap. -/
theorem loop_mat (S : Nat → Nat → Nat → Prop) [∀ i k l, Decidable (S i k l)] (g : Nat → Nat → K → K) (f : Nat → Mat K → Mat K)
    (hd : ∀ i i' k l, S i k l → S i' k l → i = i')
    (hf : ∀ i a, f i a = fun k l => if S i k l then g k l (a k l) else a k l) :
    ∀ (n lo : Nat) (a : Mat K) (k l : Nat),
      ((∃ i, lo ≤ i ∧ i < lo + n ∧ S i k l) → loop n lo f a k l = g k l (a k l)) ∧
      ((¬ ∃ i, lo ≤ i ∧ i < lo + n ∧ S i k l) → loop n lo f a k l = a k l)
  | 0, lo, a, k, l => ⟨fun ⟨i, h, h', _⟩ => by omega, fun _ => rfl⟩
  | n + 1, lo, a, k, l => by
    obtain ⟨h1, h2⟩ := loop_mat S g f hd hf n (lo + 1) (f lo a) k l
    rw [loop]
    by_cases hs : S lo k l
    · have hno : ¬ ∃ i, lo + 1 ≤ i ∧ i < lo + 1 + n ∧ S i k l := by
        rintro ⟨i, ha, hb, hc⟩
        have := hd _ _ _ _ hs hc; omega
      refine ⟨fun _ => ?_, fun h => absurd ⟨lo, by omega, by omega, hs⟩ h⟩
      rw [h2 hno, hf]; exact if_pos hs
    · have hfl : f lo a k l = a k l := by rw [hf]; exact if_neg hs
      rw [hfl] at h1 h2
      constructor
      · rintro ⟨i, ha, hb, hc⟩
        have : i ≠ lo := fun h => hs (h ▸ hc)
        exact h1 ⟨i, by omega, by omega, hc⟩
      · intro h
        exact h2 fun ⟨i, ha, hb, hc⟩ => h ⟨i, by omega, by omega, hc⟩

/-- The inner loop over the columns of row `i`. -/
theorem loop_row (i : Nat) (g : Nat → Nat → K → K) (f : Nat → Mat K → Mat K) (hf : ∀ j a, f j a = a.put i j (g i j (a i j)))
    (n lo : Nat) (a : Mat K) :
    loop n lo f a = fun k l => if k = i ∧ lo ≤ l ∧ l < lo + n then g k l (a k l) else a k l := by
  funext k l
  obtain ⟨h1, h2⟩ := loop_mat (fun j k l => k = i ∧ l = j) g f (fun _ _ _ _ h h' => h.2.symm.trans h'.2)
    (fun j a => by
      rw [hf]; funext k l; simp only [Mat.put]
      by_cases h : k = i ∧ l = j
      · rw [if_pos h, if_pos h, h.1, h.2]
      · rw [if_neg h, if_neg h]) n lo a k l
  by_cases h : k = i ∧ lo ≤ l ∧ l < lo + n
  · rw [if_pos h]; exact h1 ⟨l, h.2.1, h.2.2, h.1, rfl⟩
  · rw [if_neg h]; exact h2 fun ⟨j, ha, hb, hc, hd⟩ => h ⟨hc, by omega, by omega⟩

/-- Two loops over the rows and columns, each pass giving one entry its value. -/
theorem loop_loop (g : Nat → Nat → K → K) (f : Nat → Nat → Mat K → Mat K) (hf : ∀ i j a, f i j a = a.put i j (g i j (a i j)))
    (n m : Nat) (a : Mat K) :
    loop n 0 (fun i a => loop m 0 (f i) a) a = fun k l => if k < n ∧ l < m then g k l (a k l) else a k l := by
  funext k l
  obtain ⟨h1, h2⟩ := loop_mat (fun i k l => k = i ∧ 0 ≤ l ∧ l < 0 + m) g (fun i a => loop m 0 (f i) a)
    (fun _ _ _ _ h h' => h.1.symm.trans h'.1) (fun i a => loop_row i g (f i) (hf i) m 0 a) n 0 a k l
  by_cases h : k < n ∧ l < m
  · rw [if_pos h]; exact h1 ⟨k, by omega, by omega, rfl, by omega, by omega⟩
  · rw [if_neg h]; exact h2 fun ⟨j, ha, hb, hc, hd⟩ => h ⟨by omega, by omega⟩

/-- The inner loop over the rows of column `i`. -/
theorem loop_col (i : Nat) (g : Nat → Nat → K → K) (f : Nat → Mat K → Mat K) (hf : ∀ j a, f j a = a.put j i (g j i (a j i)))
    (n lo : Nat) (a : Mat K) :
    loop n lo f a = fun k l => if l = i ∧ lo ≤ k ∧ k < lo + n then g k l (a k l) else a k l := by
  funext k l
  obtain ⟨h1, h2⟩ := loop_mat (fun j k l => k = j ∧ l = i) g f (fun _ _ _ _ h h' => h.1.symm.trans h'.1)
    (fun j a => by
      rw [hf]; funext k l; simp only [Mat.put]
      by_cases h : k = j ∧ l = i
      · rw [if_pos h, if_pos h, h.1, h.2]
      · rw [if_neg h, if_neg h]) n lo a k l
  by_cases h : l = i ∧ lo ≤ k ∧ k < lo + n
  · rw [if_pos h]; exact h1 ⟨k, h.2.1, h.2.2, rfl, h.1⟩
  · rw [if_neg h]; exact h2 fun ⟨j, ha, hb, hc, hd⟩ => h ⟨hd, by omega, by omega⟩

/-- The inner loop of the transposition in place exchanges the rest of row `i` and of column `i`. -/
theorem loop_swap (i : Nat) : ∀ (n lo : Nat) (a : Mat K), i < lo →
    loop n lo (fun j a => (a.put i j (a j i)).put j i (a i j)) a = fun k l =>
      if (k = i ∧ lo ≤ l ∧ l < lo + n) ∨ (l = i ∧ lo ≤ k ∧ k < lo + n) then a l k else a k l
  | 0, lo, a, h => by funext k l; simp only [loop]; rw [if_neg (by omega)]
  | n + 1, lo, a, h => by
    rw [loop, loop_swap i n (lo + 1) _ (by omega)]
    funext k l
    simp only [Mat.put]
    grind

/-- The outer loop of the transposition in place. -/
theorem loop_transpose (m : Nat) : ∀ (n lo : Nat) (a : Mat K), lo + n = m →
    loop n lo (fun i a => loop (m - (i + 1)) (i + 1) (fun j a => (a.put i j (a j i)).put j i (a i j)) a) a = fun k l =>
      if lo ≤ k ∧ k < m ∧ lo ≤ l ∧ l < m then a l k else a k l
  | 0, lo, a, h => by funext k l; simp only [loop]; rw [if_neg (by omega)]
  | n + 1, lo, a, h => by
    rw [loop, loop_transpose m n (lo + 1) _ (by omega), loop_swap lo _ _ a (by omega)]
    funext k l
    grind

/-- The largest of a number and of the values of `g`. -/
theorem loop_max [LinearOrder K] (g : Nat → K) : ∀ (n lo : Nat) (x : K),
    (loop n lo (fun i m => max m (g i)) x = x ∨ ∃ i, lo ≤ i ∧ i < lo + n ∧ loop n lo (fun i m => max m (g i)) x = g i) ∧
    x ≤ loop n lo (fun i m => max m (g i)) x ∧ ∀ i, lo ≤ i → i < lo + n → g i ≤ loop n lo (fun i m => max m (g i)) x
  | 0, lo, x => ⟨Or.inl rfl, le_rfl, fun i h h' => by omega⟩
  | n + 1, lo, x => by
    rw [loop]
    obtain ⟨h1, h2, h3⟩ := loop_max g n (lo + 1) (max x (g lo))
    refine ⟨?_, le_trans (le_max_left _ _) h2, fun i hi hi' => ?_⟩
    · rcases h1 with h1 | ⟨i, ha, hb, hc⟩
      · rcases max_choice x (g lo) with h | h
        · exact Or.inl (h1.trans h)
        · exact Or.inr ⟨lo, by omega, by omega, h1.trans h⟩
      · exact Or.inr ⟨i, by omega, by omega, hc⟩
    · rcases Nat.eq_or_lt_of_le hi with h | h
      · subst h; exact le_trans (le_max_right _ _) h2
      · exact h3 i (by omega) (by omega)

section Sums

variable [CommRing K]

/-- Accumulation in one number. -/
theorem loop_sum (g : Nat → K) : ∀ (n lo : Nat) (s : K), loop n lo (fun k s => s + g k) s = s + ∑ k ∈ range n, g (lo + k)
  | 0, lo, s => by simp [loop]
  | n + 1, lo, s => by
    rw [loop, loop_sum g n (lo + 1), sum_range_succ', Nat.add_zero]
    have : ∀ k, g (lo + 1 + k) = g (lo + (k + 1)) := fun k => by congr 1; omega
    simp only [this]; ring

/-- The term for zero followed by the others. -/
theorem head_sum (g : Nat → K) {n : Nat} (h : 0 < n) : g 0 + ∑ k ∈ range (n - 1), g (1 + k) = ∑ k ∈ range n, g k := by
  obtain ⟨n, rfl⟩ : ∃ k, n = k + 1 := ⟨n - 1, by omega⟩
  rw [sum_range_succ', add_comm]
  simp only [Nat.add_sub_cancel, Nat.add_comm]

/-- Accumulation in one entry of a vector. -/
theorem loop_vec_sum (i : Nat) (g : Nat → K) : ∀ (n lo : Nat) (v : Vec K),
    loop n lo (fun k v => v.put i (v i + g k)) v = v.put i (v i + ∑ k ∈ range n, g (lo + k))
  | 0, lo, v => by simp [loop, Vec.put_self]
  | n + 1, lo, v => by
    rw [loop, loop_vec_sum i g n (lo + 1), Vec.put_put, Vec.put_same, sum_range_succ', Nat.add_zero]
    have : ∀ k, g (lo + 1 + k) = g (lo + (k + 1)) := fun k => by congr 1; omega
    simp only [this]; congr 1; ring

/-- Accumulation in one entry of a matrix. -/
theorem loop_mat_sum (i j : Nat) (g : Nat → K) : ∀ (n lo : Nat) (a : Mat K),
    loop n lo (fun k a => a.put i j (a i j + g k)) a = a.put i j (a i j + ∑ k ∈ range n, g (lo + k))
  | 0, lo, a => by simp [loop, Mat.put_self]
  | n + 1, lo, a => by
    rw [loop, loop_mat_sum i j g n (lo + 1), Mat.put_put, Mat.put_same, sum_range_succ', Nat.add_zero]
    have : ∀ k, g (lo + 1 + k) = g (lo + (k + 1)) := fun k => by congr 1; omega
    simp only [this]; congr 1; ring

/-- A product that starts with the term for zero. -/
theorem eq_product (g : Nat → Nat → Nat → K) {n m l : Nat} (hl : 0 < l) (dst : Mat K) :
    loop n 0 (fun i dst => loop m 0 (fun j dst =>
      loop (l - 1) 1 (fun k dst => dst.put i j (dst i j + g i j k)) (dst.put i j (g i j 0))) dst) dst =
    fun i j => if i < n ∧ j < m then ∑ k ∈ range l, g i j k else dst i j := by
  refine loop_loop (fun i j _ => ∑ k ∈ range l, g i j k) _ (fun i j a => ?_) n m dst
  rw [loop_mat_sum, Mat.put_put, Mat.put_same, head_sum _ hl]

/-- A product that is added to what the destination holds. -/
theorem add_product (g : Nat → Nat → Nat → K) (n m l : Nat) (dst : Mat K) :
    loop n 0 (fun i dst => loop m 0 (fun j dst => loop l 0 (fun k dst => dst.put i j (dst i j + g i j k)) dst) dst) dst =
    fun i j => if i < n ∧ j < m then dst i j + ∑ k ∈ range l, g i j k else dst i j := by
  refine loop_loop (fun i j x => x + ∑ k ∈ range l, g i j k) _ (fun i j a => ?_) n m dst
  rw [loop_mat_sum]; simp only [Nat.zero_add]

end Sums

end LvArray.tensorOps

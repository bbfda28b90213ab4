import Verif.TensorSlices
import Verif.Spec.TensorSlices
import Verif.TensorLemmas
import Verif.SliceLemmas

/-!
# Loops over the entries of slices in memory
-/

namespace LvArray.tensorOps.Slices

open Spec indexing

variable {K : Type}

theorem set_same (mem : Store K) (a : Int) (x : K) : mem.set a x a = x := by simp [Store.set]

theorem set_ne (mem : Store K) {a b : Int} (x : K) (h : b ≠ a) : mem.set a x b = mem b := by simp [Store.set, h]

theorem set_set (mem : Store K) (a : Int) (x y : K) : (mem.set a x).set a y = mem.set a y := by
  funext b; simp only [Store.set]; split <;> rfl

theorem chain_entry {n : Nat} {s : Slice} (h : IsVector n s) (c : Cfg) {i : Nat} (hi : i < n) :
    ∃ t, s.chain c [(i : Int)] = .ok t ∧ t.data = entry s i := by
  obtain ⟨data, dims, strides, usd⟩ := s
  obtain ⟨h1, h2, h3⟩ := h
  simp only at h1 h2 h3
  subst h1
  have hb := Slice.checkBounds_in c ⟨data, [n], strides, usd⟩ (i : Int) (by simp; omega)
  refine ⟨_, by simp only [Slice.chain, Slice.at_, hb, bind_ok]; rfl, ?_⟩
  simp only [entry, condMul]
  obtain _ | ⟨t, _⟩ := strides
  · simp at h2
  · by_cases hu : usd = 0
    · have := h3 hu; simp at this; simp [hu, this]
    · simp [hu]

theorem chain_entry2 {n m : Nat} {s : Slice} (h : IsMatrix n m s) (c : Cfg) {i j : Nat} (hi : i < n) (hj : j < m) :
    ∃ t, s.chain c [(i : Int), (j : Int)] = .ok t ∧ t.data = entry2 s i j := by
  obtain ⟨data, dims, strides, usd⟩ := s
  obtain ⟨h1, h2, h3, h4⟩ := h
  simp only at h1 h2 h3 h4
  subst h1
  obtain ⟨t, t', rfl⟩ : ∃ t t', strides = [t, t'] := by
    match strides, h2 with
    | [t, t'], _ => exact ⟨t, t', rfl⟩
  have hb := Slice.checkBounds_in c ⟨data, [n, m], [t, t'], usd⟩ (i : Int) (by simp; omega)
  have hb' : ∀ d u, Slice.checkBounds c ⟨d, [m], [t'], u⟩ (j : Int) = .ok () := fun d u =>
    Slice.checkBounds_in c ⟨d, [m], [t'], u⟩ (j : Int) (by simp; omega)
  refine ⟨_, by simp only [Slice.chain, Slice.at_, hb, hb', bind_ok, List.tail_cons]; rfl, ?_⟩
  simp only [List.getD_cons_zero, List.getD_cons_succ] at h3 h4
  simp only [entry2, condMul, List.headD_cons, List.getD_cons_zero, List.getD_cons_succ]
  have e : (usd - 1 == 0) = decide (usd = 1) := by
    rw [Bool.eq_iff_iff]; simp; omega
  rw [e]
  by_cases hu : usd = 0
  · have := h3 hu; subst hu; simp [this]
  · by_cases hv : usd = 1
    · have := h4 hv; subst hv; simp [this]
    · simp [hu, hv]

theorem rd_eq {n : Nat} {s : Slice} (h : IsVector n s) (c : Cfg) (mem : Store K) {i : Nat} (hi : i < n) :
    rd c mem s i = .ok (mem (entry s i)) := by
  obtain ⟨t, h1, h2⟩ := chain_entry h c hi
  simp only [rd, h1, bind_ok, h2]

theorem wr_eq {n : Nat} {s : Slice} (h : IsVector n s) (c : Cfg) (mem : Store K) {i : Nat} (hi : i < n) (x : K) :
    wr c mem s i x = .ok (mem.set (entry s i) x) := by
  obtain ⟨t, h1, h2⟩ := chain_entry h c hi
  simp only [wr, h1, bind_ok, h2]

theorem rd2_eq {n m : Nat} {s : Slice} (h : IsMatrix n m s) (c : Cfg) (mem : Store K) {i j : Nat} (hi : i < n) (hj : j < m) :
    rd2 c mem s i j = .ok (mem (entry2 s i j)) := by
  obtain ⟨t, h1, h2⟩ := chain_entry2 h c hi hj
  simp only [rd2, h1, bind_ok, h2]

theorem wr2_eq {n m : Nat} {s : Slice} (h : IsMatrix n m s) (c : Cfg) (mem : Store K) {i j : Nat} (hi : i < n) (hj : j < m) (x : K) :
    wr2 c mem s i j x = .ok (mem.set (entry2 s i j) x) := by
  obtain ⟨t, h1, h2⟩ := chain_entry2 h c hi hj
  simp only [wr2, h1, bind_ok, h2]

theorem sizes_ok {n : Nat} {s : Slice} (h : IsVector n s) (c : Cfg) : checkSizes c n s = .ok () := by
  unfold checkSizes; split
  · simp [h.dims, errorIf]
  · rfl

theorem sizes2_ok {n m : Nat} {s : Slice} (h : IsMatrix n m s) (c : Cfg) : checkSizes2 c n m s = .ok () := by
  unfold checkSizes2; split
  · simp [h.dims, errorIf, bind_ok]
  · rfl

/-- A loop keeps an invariant. -/
theorem loopR_inv {σ : Type} (P : Nat → σ → Prop) (f : Nat → σ → R σ) : ∀ (n lo : Nat) (s : σ),
    (∀ i s, lo ≤ i → i < lo + n → P i s → ∃ s', f i s = .ok s' ∧ P (i + 1) s') → P lo s →
      ∃ s', loopR n lo f s = .ok s' ∧ P (lo + n) s'
  | 0, lo, s, _, hs => ⟨s, rfl, hs⟩
  | n + 1, lo, s, h, hs => by
    obtain ⟨s1, e1, h1⟩ := h lo s (by omega) (by omega) hs
    obtain ⟨s2, e2, h2⟩ := loopR_inv P f n (lo + 1) s1 (fun i s a b => h i s (by omega) (by omega)) h1
    refine ⟨s2, by rw [loopR, e1, bind_ok, e2], by rwa [show lo + (n + 1) = lo + 1 + n by omega]⟩

/-- A loop of which pass `i` gives entry `i` its final value, which may depend on everything not yet overwritten. -/
theorem each (D : Nat → Int) (n : Nat) (hD : ∀ i j, i < n → j < n → D i = D j → i = j) (f : Nat → K)
    (body : Nat → Store K → R (Store K)) (mem : Store K)
    (hb : ∀ i mem', i < n → (∀ a, (∀ k, k < i → a ≠ D k) → mem' a = mem a) → body i mem' = .ok (mem'.set (D i) (f i))) :
    ∃ new, loopR n 0 body mem = .ok new ∧ (∀ i, i < n → new (D i) = f i) ∧ ∀ a, (¬ ∃ i, i < n ∧ a = D i) → new a = mem a := by
  obtain ⟨new, e, h1, h2⟩ := loopR_inv
    (fun k mem' => (∀ i, i < k → mem' (D i) = f i) ∧ ∀ a, (∀ i, i < k → a ≠ D i) → mem' a = mem a) body n 0 mem
    (fun i mem' _ hi ⟨h1, h2⟩ => by
      refine ⟨_, hb i mem' (by omega) h2, fun k hk => ?_, fun a ha => ?_⟩
      · by_cases hki : k = i
        · rw [hki, set_same]
        · rw [set_ne _ _ (fun h => hki (hD _ _ (by omega) (by omega) h)), h1 k (by omega)]
      · rw [set_ne _ _ (ha i (by omega)), h2 a fun k hk => ha k (by omega)])
    ⟨fun i h => absurd h (by omega), fun a _ => rfl⟩
  rw [Nat.zero_add] at h1 h2
  exact ⟨new, e, h1, fun a ha => h2 a fun i hi h => ha ⟨i, hi, h⟩⟩

/-- Two loops of which pass `( i, j )` gives entry `( i, j )` its final value, which may depend on everything not yet overwritten. -/
theorem each2 (D : Nat → Nat → Int) (n m : Nat)
    (hD : ∀ i j k l, i < n → j < m → k < n → l < m → D i j = D k l → i = k ∧ j = l) (f : Nat → Nat → K)
    (body : Nat → Nat → Store K → R (Store K)) (mem : Store K)
    (hb : ∀ i j mem', i < n → j < m →
      (∀ a, (∀ k l, l < m → (k < i ∨ k = i ∧ l < j) → a ≠ D k l) → mem' a = mem a) →
      body i j mem' = .ok (mem'.set (D i j) (f i j))) :
    ∃ new, loopR n 0 (fun i mem => loopR m 0 (body i) mem) mem = .ok new ∧
      (∀ i j, i < n → j < m → new (D i j) = f i j) ∧ ∀ a, (¬ ∃ i j, i < n ∧ j < m ∧ a = D i j) → new a = mem a := by
  obtain ⟨new, e, h1, h2⟩ := loopR_inv
    (fun k mem' => (∀ i j, i < k → j < m → mem' (D i j) = f i j) ∧ ∀ a, (∀ i j, i < k → j < m → a ≠ D i j) → mem' a = mem a)
    (fun i mem => loopR m 0 (body i) mem) n 0 mem
    (fun i mem' _ hi ⟨h1, h2⟩ => by
      have hi' : i < n := by omega
      obtain ⟨mem2, e2, h3, h4⟩ := each (D i) m (fun j l hj hl h => (hD i j i l hi' hj hi' hl h).2) (f i) (body i) mem'
        (fun j mem3 hj h => hb i j mem3 hi' hj fun a ha => by
          rw [h a fun l hl => ha i l (by omega) (Or.inr ⟨rfl, hl⟩), h2 a fun k l hk hl => ha k l hl (Or.inl hk)])
      refine ⟨mem2, e2, fun k l hk hl => ?_, fun a ha => ?_⟩
      · by_cases hki : k = i
        · rw [hki]; exact h3 l hl
        · rw [h4 _ (fun ⟨j, hj, h⟩ => hki (hD k l i j (by omega) hl hi' hj h).1), h1 k l (by omega) hl]
      · rw [h4 a (fun ⟨j, hj, h⟩ => ha i j (by omega) hj h), h2 a fun k l hk hl => ha k l (by omega) hl])
    ⟨fun i j h => absurd h (by omega), fun a _ => rfl⟩
  rw [Nat.zero_add] at h1 h2
  exact ⟨new, e, h1, fun a ha => h2 a fun i j hi hj h => ha ⟨i, j, hi, hj, h⟩⟩

/-- A loop that changes only one cell. -/
theorem accumulate (A : Int) (g : Nat → K → K) (body : Nat → Store K → R (Store K)) (mem : Store K) : ∀ (n lo : Nat) (x : K),
    (∀ k x, lo ≤ k → k < lo + n → body k (mem.set A x) = .ok (mem.set A (g k x))) →
      loopR n lo body (mem.set A x) = .ok (mem.set A (loop n lo g x))
  | 0, lo, x, _ => rfl
  | n + 1, lo, x, h => by
    rw [loopR, h lo x (by omega) (by omega), bind_ok, accumulate A g body mem n (lo + 1) (g lo x) fun k x a b => h k x (by omega) (by omega),
      loop]

/-- Nothing is written to the cells of the sources. -/
theorem set_self (mem : Store K) (a : Int) : mem.set a (mem a) = mem := by
  funext b; simp only [Store.set]; split
  · next h => rw [h]
  · rfl

section Products

open Finset

variable [CommRing K]

/-- Two loops that first assign to every entry a product and then add others. -/
theorem product_eq (c : Cfg) {n m l : Nat} (hl : 0 < l) {dst : Slice} (mem : Store K) (hd : IsMatrix n m dst) (hD : Distinct2 n m dst)
    (A B : Nat → Nat → Nat → Int) (rA rB : Nat → Nat → Nat → Store K → R K)
    (hA : ∀ i j k mem', i < n → j < m → k < l → rA i j k mem' = .ok (mem' (A i j k)) ∧ ¬ Cells2 n m dst (A i j k))
    (hB : ∀ i j k mem', i < n → j < m → k < l → rB i j k mem' = .ok (mem' (B i j k)) ∧ ¬ Cells2 n m dst (B i j k)) :
    SetsMatrix n m dst mem (fun i j => ∑ k ∈ range l, mem (A i j k) * mem (B i j k))
      (loopR n 0 (fun i mem => loopR m 0 (fun j mem => do
        let mem ← wr2 c mem dst i j ((← rA i j 0 mem) * (← rB i j 0 mem))
        loopR (l - 1) 1 (fun k mem => do wr2 c mem dst i j ((← rd2 c mem dst i j) + (← rA i j k mem) * (← rB i j k mem))) mem)
          mem) mem) := by
  refine each2 (entry2 dst) n m hD _ _ mem fun i j mem' hi hj h => ?_
  have sA : ∀ k, k < l → mem' (A i j k) = mem (A i j k) := fun k hk => h _ fun p q hq ho e =>
    (hA i j k mem' hi hj hk).2 ⟨p, q, by omega, hq, e⟩
  have sB : ∀ k, k < l → mem' (B i j k) = mem (B i j k) := fun k hk => h _ fun p q hq ho e =>
    (hB i j k mem' hi hj hk).2 ⟨p, q, by omega, hq, e⟩
  simp only [(hA i j 0 mem' hi hj hl).1, (hB i j 0 mem' hi hj hl).1, bind_ok, wr2_eq hd c mem' hi hj, sA 0 hl, sB 0 hl]
  rw [accumulate (entry2 dst i j) (fun k x => x + mem (A i j k) * mem (B i j k)), loop_sum (fun k => mem (A i j k) * mem (B i j k)),
    head_sum (fun k => mem (A i j k) * mem (B i j k)) hl]
  intro k x _ hk
  have hk' : k < l := by omega
  rw [rd2_eq hd c _ hi hj, (hA i j k _ hi hj hk').1, (hB i j k _ hi hj hk').1]
  simp only [bind_ok]
  rw [wr2_eq hd c _ hi hj, set_set, set_same, set_ne _ _ (fun e => (hA i j k mem' hi hj hk').2 ⟨i, j, hi, hj, e⟩),
    set_ne _ _ (fun e => (hB i j k mem' hi hj hk').2 ⟨i, j, hi, hj, e⟩), sA k hk', sB k hk']

/-- Two loops that add products to every entry. -/
theorem product_add (c : Cfg) {n m : Nat} (l : Nat) {dst : Slice} (mem : Store K) (hd : IsMatrix n m dst) (hD : Distinct2 n m dst)
    (A B : Nat → Nat → Nat → Int) (rA rB : Nat → Nat → Nat → Store K → R K)
    (hA : ∀ i j k mem', i < n → j < m → k < l → rA i j k mem' = .ok (mem' (A i j k)) ∧ ¬ Cells2 n m dst (A i j k))
    (hB : ∀ i j k mem', i < n → j < m → k < l → rB i j k mem' = .ok (mem' (B i j k)) ∧ ¬ Cells2 n m dst (B i j k)) :
    SetsMatrix n m dst mem (fun i j => mem (entry2 dst i j) + ∑ k ∈ range l, mem (A i j k) * mem (B i j k))
      (loopR n 0 (fun i mem => loopR m 0 (fun j mem =>
        loopR l 0 (fun k mem => do wr2 c mem dst i j ((← rd2 c mem dst i j) + (← rA i j k mem) * (← rB i j k mem))) mem) mem) mem) := by
  refine each2 (entry2 dst) n m hD _ _ mem fun i j mem' hi hj h => ?_
  have sA : ∀ k, k < l → mem' (A i j k) = mem (A i j k) := fun k hk => h _ fun p q hq ho e =>
    (hA i j k mem' hi hj hk).2 ⟨p, q, by omega, hq, e⟩
  have sB : ∀ k, k < l → mem' (B i j k) = mem (B i j k) := fun k hk => h _ fun p q hq ho e =>
    (hB i j k mem' hi hj hk).2 ⟨p, q, by omega, hq, e⟩
  have sd : mem' (entry2 dst i j) = mem (entry2 dst i j) := h _ fun k l hl ho e => by
    have := hD i j k l hi hj (by omega) hl e; omega
  rw [← set_self mem' (entry2 dst i j), accumulate (entry2 dst i j) (fun k x => x + mem (A i j k) * mem (B i j k)),
    loop_sum (fun k => mem (A i j k) * mem (B i j k)), set_self, sd]
  · simp only [Nat.zero_add]
  intro k x _ hk
  have hk' : k < l := by omega
  rw [rd2_eq hd c _ hi hj, (hA i j k _ hi hj hk').1, (hB i j k _ hi hj hk').1]
  simp only [bind_ok]
  rw [wr2_eq hd c _ hi hj, set_set, set_same, set_ne _ _ (fun e => (hA i j k mem' hi hj hk').2 ⟨i, j, hi, hj, e⟩),
    set_ne _ _ (fun e => (hB i j k mem' hi hj hk').2 ⟨i, j, hi, hj, e⟩), sA k hk', sB k hk']

end Products

/-- What memory holds where the entries of a matrix are is that matrix, and the rest is as before. -/
def Shows2 (n m : Nat) (s : Slice) (old new : Store K) (a : Mat K) : Prop :=
  (∀ i j, i < n → j < m → new (entry2 s i j) = a i j) ∧ ∀ q, ¬ Cells2 n m s q → new q = old q

theorem Shows2.put {n m : Nat} {s : Slice} {old new : Store K} {a : Mat K} (hD : Distinct2 n m s) (h : Shows2 n m s old new a)
    {i j : Nat} (hi : i < n) (hj : j < m) (x : K) : Shows2 n m s old (new.set (entry2 s i j) x) (a.put i j x) := by
  refine ⟨fun k l hk hl => ?_, fun q hq => ?_⟩
  · unfold Mat.put
    by_cases hkl : k = i ∧ l = j
    · rw [if_pos hkl, hkl.1, hkl.2, set_same]
    · rw [if_neg hkl, set_ne _ _ (fun e => hkl (hD k l i j hk hl hi hj e)), h.1 k l hk hl]
  · rw [set_ne _ _ (fun e => hq ⟨i, j, hi, hj, e⟩), h.2 q hq]

/-- A loop on memory follows a loop on matrices. -/
theorem loopR_follows {σ τ : Type} (P : σ → τ → Prop) (f : Nat → σ → R σ) (g : Nat → τ → τ) : ∀ (n lo : Nat) (s : σ) (t : τ),
    (∀ i s t, lo ≤ i → i < lo + n → P s t → ∃ s', f i s = .ok s' ∧ P s' (g i t)) → P s t →
      ∃ s', loopR n lo f s = .ok s' ∧ P s' (loop n lo g t)
  | 0, lo, s, t, _, hs => ⟨s, rfl, hs⟩
  | n + 1, lo, s, t, h, hs => by
    obtain ⟨s1, e1, h1⟩ := h lo s t (by omega) (by omega) hs
    obtain ⟨s2, e2, h2⟩ := loopR_follows P f g n (lo + 1) s1 _ (fun i s t a b => h i s t (by omega) (by omega)) h1
    exact ⟨s2, by rw [loopR, e1, bind_ok, e2], h2⟩

theorem sizes_checked {c : Cfg} (hc : c.boundsCheck = true) (n : Nat) {s : Slice} (h : s.dims.length = 1) :
    checkSizes c n s = if s.dims = [n] then .ok () else .error .abort := by
  obtain ⟨data, dims, strides, usd⟩ := s
  match dims, h with
  | [d], _ =>
    by_cases hd : d = n
    · simp [checkSizes, hc, hd, errorIf]
    · simp [checkSizes, hc, hd, errorIf]

theorem sizes2_checked {c : Cfg} (hc : c.boundsCheck = true) (n m : Nat) {s : Slice} (h : s.dims.length = 2) :
    checkSizes2 c n m s = if s.dims = [n, m] then .ok () else .error .abort := by
  obtain ⟨data, dims, strides, usd⟩ := s
  match dims, h with
  | [d, e], _ =>
    by_cases hd : d = n
    · by_cases he : e = m
      · simp [checkSizes2, hc, hd, he, errorIf, bind_ok]
      · simp [checkSizes2, hc, hd, he, errorIf, bind_ok]
    · simp [checkSizes2, hc, hd, errorIf, bind_err]

/-! ## Slices of arrays -/

theorem call_entry {n : Nat} {s : Slice} (h : IsVector n s) (c : Cfg) {i : Nat} (hi : i < n) :
    s.call c [(i : Int)] = .ok (entry s i) := by
  obtain ⟨t, h1, h2⟩ := chain_entry h c hi
  have e := Slice.chain_call c s [(i : Int)] [] (by simp [h.dims]) (by simp [h.dims, h.strides])
  rw [List.append_nil] at e
  rw [← e, h1, bind_ok, ← h2]
  have hd := (Slice.chain_shape h1).1
  simp only [List.length_singleton, h.dims, List.drop_succ_cons, List.drop_zero] at hd
  simp [Slice.call, checkIndices, invalidIndices, getLinearIndex, bind_ok]

theorem call_entry2 {n m : Nat} {s : Slice} (h : IsMatrix n m s) (c : Cfg) {i j : Nat} (hi : i < n) (hj : j < m) :
    s.call c [(i : Int), (j : Int)] = .ok (entry2 s i j) := by
  obtain ⟨t, h1, h2⟩ := chain_entry2 h c hi hj
  have e := Slice.chain_call c s [(i : Int), (j : Int)] [] (by simp [h.dims]) (by simp [h.dims, h.strides])
  rw [List.append_nil] at e
  rw [← e, h1, bind_ok, ← h2]
  simp [Slice.call, checkIndices, invalidIndices, getLinearIndex, bind_ok]

/-- Moving an array moves its slices. -/
theorem chain_moved (c : Cfg) (base : Int) : ∀ (pre : List Int) (s t : Slice), s.chain c pre = .ok t →
    ({ s with data := base + s.data } : Slice).chain c pre = .ok { t with data := base + t.data }
  | [], s, t, h => by simp only [Slice.chain] at h ⊢; cases h; rfl
  | i :: is, s, t, h => by
    rw [Slice.chain] at h ⊢
    obtain ⟨u, hu, h⟩ := bind_eq_ok.mp h
    have := chain_moved c base is u t h
    rw [Slice.at_] at hu ⊢
    obtain ⟨_, hb, hu⟩ := bind_eq_ok.mp hu
    have hb' : Slice.checkBounds c { s with data := base + s.data } i = .ok () := hb
    simp only [Except.ok.injEq] at hu
    rw [hb']
    simp only [bind_ok]
    rw [← this, ← hu]
    simp only [Int.add_assoc]

theorem vector_moved {n : Nat} {s : Slice} (base : Int) (h : IsVector n s) : IsVector n { s with data := base + s.data } :=
  ⟨h.dims, h.strides, h.unit⟩

theorem matrix_moved {n m : Nat} {s : Slice} (base : Int) (h : IsMatrix n m s) : IsMatrix n m { s with data := base + s.data } :=
  ⟨h.dims, h.strides, h.unit0, h.unit1⟩

end LvArray.tensorOps.Slices

import Verif.ArrayND
import Verif.SliceLemmas

/-!
# Lemmas about the resizing loops of the multi-dimensional array
-/

namespace LvArray

open indexing Spec

variable {T : Type}

/-- Bookkeeping that a loop leaves alone: capacity, kind and no live object dropped; for trivial types nothing at all
is dropped. -/
def Buf.Frame (c : Cfg) (b b' : Buf T) : Prop :=
  b'.cap = b.cap ∧ b'.kind = b.kind ∧ b'.lostLive = b.lostLive ∧ (c.trivial = true → b'.lostMoved = b.lostMoved)

theorem Buf.Frame.rfl {c : Cfg} {b : Buf T} : b.Frame c b := ⟨by rfl, by rfl, by rfl, fun _ => by rfl⟩

theorem shiftUpLost_trivial {c : Cfg} (h : c.trivial = true) (s i n : Nat) :
    arrayManipulation.shiftUpLost c s i n = 0 := by
  simp [arrayManipulation.shiftUpLost, h]

namespace ArrayN

theorem growLoop_spec (c : Cfg) (A S N : Nat) (v : T) (b : Buf T)
    (hcap : (S + A) * N ≤ b.cap)
    (hl : ∀ k, k < S * N → (b.cell k).isLive = true)
    (hr : ∀ k, S * N ≤ k → k < (S + A) * N → b.cell k = .raw) :
    ∃ b', growLoop c A S N v b = .ok b' ∧ b.Frame c b' ∧
      (∀ q j, q < N → j < S → b'.cell ((S + A) * q + j) = b.cell (S * q + j)) ∧
      (∀ q j, q < N → S ≤ j → j < S + A → b'.cell ((S + A) * q + j) = .live v) ∧
      (∀ k, (S + A) * N ≤ k → b'.cell k = b.cell k) := by
  unfold growLoop
  obtain ⟨b', h, hf, -, -, h3⟩ := forDown_inv
    (f := fun i b => do
      let b ← arrayManipulation.shiftUp c b (S * i) S 0 (A * i)
      arrayManipulation.constructRange c b (S * i + S + A * i) A (fun _ => v))
    (fun i b' => b.Frame c b' ∧ (∀ k, k < S * i → b'.cell k = b.cell k) ∧
      (∀ k, S * i ≤ k → k < (S + A) * i → b'.cell k = .raw) ∧
      (∀ q j, i ≤ q → q < N → j < S → b'.cell ((S + A) * q + j) = b.cell (S * q + j)) ∧
      (∀ q j, i ≤ q → q < N → S ≤ j → j < S + A → b'.cell ((S + A) * q + j) = .live v) ∧
      (∀ k, (S + A) * N ≤ k → b'.cell k = b.cell k)) 0 N b
    (by
      rw [Nat.zero_add]
      exact ⟨Buf.Frame.rfl, fun _ _ => rfl, hr, fun q j h1 h2 => by omega, fun q j h1 h2 => by omega, fun _ _ => rfl⟩)
    (by
      rintro i b' - hi ⟨hf, h1, h2, h3, h4, h5⟩
      rw [Nat.zero_add] at hi
      have e1 : S * (i + 1) = S * i + S := Nat.mul_succ _ _
      have e2 : (S + A) * (i + 1) = S * i + A * i + (S + A) := by rw [Nat.mul_succ, Nat.add_mul]
      have e3 : (S + A) * i = S * i + A * i := Nat.add_mul _ _ _
      have m1 : S * (i + 1) ≤ S * N := Nat.mul_le_mul_left _ hi
      have m2 : (S + A) * (i + 1) ≤ (S + A) * N := Nat.mul_le_mul_left _ hi
      rw [e1] at h1 h2
      rw [e2] at h2
      have hcap' := hf.1
      rw [arrayManipulation.shiftUp_eq c b' (S * i) S 0 (A * i) (by omega) (by omega)
        (fun k _ _ => by rw [h1 k (by omega)]; exact hl k (by omega))
        (fun k _ _ => h2 k (by omega) (by omega)), bind_ok]
      have := arrayManipulation.constructRange_eq c { b' with
        cell := fun k =>
          if k < S * i + 0 then b'.cell k
          else if k < S * i + 0 + A * i then .raw
          else if k < S * i + S + A * i then b'.cell (k - A * i)
          else b'.cell k
        lostMoved := b'.lostMoved + arrayManipulation.shiftUpLost c S 0 (A * i)
        moves := b'.moves + arrayManipulation.shiftMoves S 0 (A * i) } (S * i + S + A * i) A (fun _ => v)
        (by right; show _ ≤ b'.cap; omega)
        (by
          intro k hk hk'
          show (if _ then _ else _) = _; try dsimp only
          rw [if_neg (by omega), if_neg (by omega), if_neg (by omega)]
          exact h2 k (by omega) (by omega))
      refine ⟨_, this, ⟨hf.1, hf.2.1, hf.2.2.1, fun ht => ?_⟩, fun k hk => ?_, fun k hk hk' => ?_,
        fun q j hq hq' hj => ?_, fun q j hq hq' hj hj' => ?_, fun k hk => ?_⟩
      · show _ + _ = _
        rw [shiftUpLost_trivial ht, hf.2.2.2 ht]; rfl
      · show (if _ then _ else _) = _; try dsimp only
        rw [if_neg (by omega), if_pos (by omega)]
        exact h1 k (by omega)
      · show (if _ then _ else _) = _; try dsimp only
        rw [if_neg (by omega), if_neg (by omega), if_pos (by omega)]
      · show (if _ then _ else _) = _; try dsimp only
        rcases Nat.eq_or_lt_of_le hq with rfl | hlt
        · rw [if_neg (by omega), if_neg (by omega), if_neg (by omega), if_pos (by omega), h1 _ (by omega)]
          congr 1; omega
        · have m3 : (S + A) * (i + 1) ≤ (S + A) * q := Nat.mul_le_mul_left _ hlt
          rw [if_neg (by omega), if_neg (by omega), if_neg (by omega), if_neg (by omega)]
          exact h3 q j hlt hq' hj
      · show (if _ then _ else _) = _; try dsimp only
        rcases Nat.eq_or_lt_of_le hq with rfl | hlt
        · rw [if_pos (by omega)]
        · have m3 : (S + A) * (i + 1) ≤ (S + A) * q := Nat.mul_le_mul_left _ hlt
          rw [if_neg (by omega), if_neg (by omega), if_neg (by omega), if_neg (by omega)]
          exact h4 q j hlt hq' hj hj'
      · show (if _ then _ else _) = _; try dsimp only
        rw [if_neg (by omega), if_neg (by omega), if_neg (by omega), if_neg (by omega)]
        exact h5 k hk)
  exact ⟨b', h, hf, fun q j => h3.1 q j (by omega), fun q j => h3.2.1 q j (by omega), h3.2.2⟩

theorem shrinkLoop_spec (c : Cfg) (Rm S N : Nat) (hN : 0 < N) (b : Buf T)
    (hcap : (S + Rm) * N ≤ b.cap)
    (hl : ∀ k, k < (S + Rm) * N → (b.cell k).isLive = true) :
    ∃ b', shrinkLoop c Rm S N (S * N) b = .ok b' ∧ b.Frame c b' ∧
      (∀ q j, q < N → j < S → b'.cell (S * q + j) = b.cell ((S + Rm) * q + j)) ∧
      (∀ k, S * N ≤ k → k < (S + Rm) * N → b'.cell k = .raw) ∧
      (∀ k, (S + Rm) * N ≤ k → b'.cell k = b.cell k) := by
  unfold shrinkLoop
  obtain ⟨b1, hb1, hf, h1, h2, h3⟩ := forUp_inv
    (f := fun i b => arrayManipulation.shiftDown c b (S * i) (S + Rm * i) (Rm * i) (Rm * i))
    (fun i b' => b.Frame c b' ∧ (∀ q j, q < i → j < S → b'.cell (S * q + j) = b.cell ((S + Rm) * q + j)) ∧
      (∀ k, k < (S + Rm) * N → (b'.cell k).isRaw = false) ∧
      (∀ k, (S + Rm) * i ≤ k + Rm → b'.cell k = b.cell k)) (N - 1) 1 b
    (by
      refine ⟨Buf.Frame.rfl, fun q j hq hj => ?_, fun k hk => ?_, fun _ _ => rfl⟩
      · rw [show q = 0 by omega]; simp
      · obtain ⟨w, hw⟩ := Cell.isLive_iff.1 (hl k hk); rw [hw]; rfl)
    (by
      rintro i b' h1i hi ⟨hf, h1, h2, h3⟩
      have e2 : (S + Rm) * (i + 1) = S * i + Rm * i + (S + Rm) := by rw [Nat.mul_succ, Nat.add_mul]
      have e3 : (S + Rm) * i = S * i + Rm * i := Nat.add_mul _ _ _
      have m2 : (S + Rm) * (i + 1) ≤ (S + Rm) * N := Nat.mul_le_mul_left _ (by omega)
      have hcap' := hf.1
      have m4 : Rm * 1 ≤ Rm * i := Nat.mul_le_mul_left _ h1i
      rw [arrayManipulation.shiftDown_eq c b' (S * i) (S + Rm * i) (Rm * i) (Rm * i) (by omega) (by omega) (by omega)
        (fun k _ _ => by rw [h3 k (by omega)]; exact hl k (by omega))
        (fun k _ _ => h2 k (by omega))]
      refine ⟨_, rfl, hf, fun q j hq hj => ?_, fun k hk => ?_, fun k hk => ?_⟩
      · show (if _ then _ else _) = _; try dsimp only
        have hcase : q < i ∨ q = i := by omega
        rcases hcase with hlt | rfl
        · have m3 : S * (q + 1) ≤ S * i := Nat.mul_le_mul_left _ hlt
          rw [Nat.mul_succ] at m3
          have := h1 q j hlt hj
          split
          · exact this
          · rw [if_neg (by omega), if_neg (by omega)]; exact this
        · split
          · have : S * q + j = (S + Rm) * q + j := by omega
            rw [this, h3 _ (by omega)]
          · rw [if_pos (by omega), h3 _ (by omega)]; congr 1; omega
      · show (Cell.isRaw (if _ then _ else _)) = _
        have a1 := h2 k hk
        split
        · exact a1
        · split
          · obtain ⟨w, hw⟩ := Cell.isLive_iff.1 (hl (k + Rm * i) (by omega))
            rw [h3 _ (by omega), hw]; rfl
          · split
            · rfl
            · exact a1
      · show (if _ then _ else _) = _; try dsimp only
        have := h3 k (by omega)
        split
        · exact this
        · rw [if_neg (by omega), if_neg (by omega)]; exact this)
  rw [hb1, bind_ok]
  rw [show 1 + (N - 1) = N by omega] at h1 h3
  have e : (S + Rm) * N = S * N + Rm * N := Nat.add_mul _ _ _
  have hd := arrayManipulation.destroy_eq c b1 (S * N) (Rm * N)
    (by right; intro k hk hk'; exact ⟨by rw [hf.1]; omega, h2 k (by omega)⟩)
  refine ⟨_, hd, hf, fun q j hq hj => ?_, fun k hk hk' => ?_, fun k hk => ?_⟩
  · show (if _ then _ else _) = _; try dsimp only
    have m3 : S * (q + 1) ≤ S * N := Nat.mul_le_mul_left _ hq
    rw [Nat.mul_succ] at m3
    rw [if_neg (by omega)]; exact h1 q j hq hj
  · show (if _ then _ else _) = _; try dsimp only
    rw [if_pos (by omega)]
  · show (if _ then _ else _) = _; try dsimp only
    rw [if_neg (by omega)]; exact h3 k (by omega)

end ArrayN

theorem exists_rep {b : Buf T} {n : Nat} (hl : ∀ k, k < n → (b.cell k).isLive = true)
    (hr : ∀ k, n ≤ k → b.cell k = .raw) (hc : n ≤ b.cap) : ∃ xs, Rep b xs ∧ xs.length = n := by
  have h : ∀ k, k < n → ∃ v, b.cell k = .live v := fun k hk => Cell.isLive_iff.1 (hl k hk)
  choose f hf using h
  refine ⟨List.ofFn (fun i : Fin n => f i i.2), ⟨?_, by simpa using hc⟩, by simp⟩
  apply cellsOf_eq
  · intro k hk
    have hk' : k < n := by simpa using hk
    rw [hf k hk', List.getElem_ofFn]
  · intro k hk
    exact hr k (by simpa using hk)

theorem horner_append (a b : List Nat) (x y : List Int) (h : a.length = x.length) :
    horner (a ++ b) (x ++ y) = horner a x * (b.prod : Nat) + horner b y := by
  induction a generalizing x with
  | nil => cases x <;> simp_all [horner]
  | cons d ds ih =>
    cases x with
    | nil => simp at h
    | cons i is =>
      simp only [List.cons_append, horner, List.prod_append]
      rw [ih is (by simpa using h)]
      push_cast
      grind

theorem InBounds.append_split {a b : List Nat} {x y : List Int} (h : a.length = x.length)
    (hi : InBounds (a ++ b) (x ++ y)) : InBounds a x ∧ InBounds b y := by
  induction a generalizing x with
  | nil => cases x <;> simp_all [InBounds]
  | cons d ds ih =>
    cases x with
    | nil => simp at h
    | cons i is =>
      have h2 := ih (by simpa using h) hi.2
      exact ⟨⟨hi.1, h2.1⟩, h2.2⟩

/-- Addresses split at one dimension `k`: position of the indices that precede it in memory order (`outer`), the index
itself, and the position of the indices that follow (`inner`).  Only the middle part depends on the length of `k`. -/
theorem address_split {p dims : List Nat} (hp : IsPermutation p dims.length) {k : Nat} (hk : k < dims.length) :
    ∃ (outer inner : List Int → Nat) (N st : Nat), (p.getD 0 0 = k → N = 1) ∧ ∀ n : Nat,
      (calculateStrides p (dims.set k n)).getD k 0 = st ∧ (dims.set k n).prod = st * n * N ∧
      ∀ idx, InBounds (dims.set k n) idx → outer idx < N ∧ inner idx < st ∧
        0 ≤ idx.getD k 0 ∧ idx.getD k 0 < n ∧
        horner (reorder p (dims.set k n)) (reorder p idx) =
          ((st * n * outer idx + ((idx.getD k 0).toNat * st + inner idx) : Nat) : Int) := by
  have hkp : k ∈ p := (IsPermutation.mem hp).mpr hk
  obtain ⟨l, r, rfl⟩ := List.append_of_mem hkp
  have hnd := IsPermutation.nodup hp
  have hkl : k ∉ l := fun h => by
    have := List.nodup_append.mp hnd
    exact this.2.2 k h k (by simp) rfl
  have hkr : k ∉ r := fun h => by
    have := (List.nodup_append.mp hnd).2.1
    exact (List.nodup_cons.mp this).1 h
  have hset : ∀ (n : Nat) (q : List Nat), k ∉ q →
      q.map (fun j => (dims.set k n).getD j 0) = q.map (fun j => dims.getD j 0) := by
    intro n q hq
    apply List.map_congr_left
    intro j hj
    have : k ≠ j := fun h => hq (h ▸ hj)
    simp [List.getD_eq_getElem?_getD, List.getElem?_set_ne this]
  refine ⟨fun idx => (horner (l.map (fun j => dims.getD j 0)) (l.map (fun j => idx.getD j 0))).toNat,
    fun idx => (horner (r.map (fun j => dims.getD j 0)) (r.map (fun j => idx.getD j 0))).toNat,
    (l.map (fun j => dims.getD j 0)).prod, (r.map (fun j => dims.getD j 0)).prod, ?_, ?_⟩
  · intro h0
    cases l with
    | nil => simp
    | cons x xs => simp at h0; simp [h0] at hkl
  · intro n
    have hp' : IsPermutation (l ++ k :: r) (dims.set k n).length := by simpa using hp
    have hself : (dims.set k n).getD k 0 = n := by simp [List.getD_eq_getElem?_getD, hk]
    have hre : reorder (l ++ k :: r) (dims.set k n) =
        l.map (fun j => dims.getD j 0) ++ n :: r.map (fun j => dims.getD j 0) := by
      rw [← hset n l hkl, ← hset n r hkr]
      simp only [reorder, List.map_append, List.map_cons]
      show _ ++ (dims.set k n).getD k 0 :: _ = _
      rw [hself]; rfl
    have hrp := reorder_prod hp'
    rw [hre, List.prod_append, List.prod_cons] at hrp
    refine ⟨?_, by rw [← hrp]; grind, ?_⟩
    · have := (calculateStrides_spec hp').2 l.length (by simp)
      simp only [List.getD_eq_getElem?_getD, List.getElem?_append_right (Nat.le_refl _), Nat.sub_self,
        List.getElem?_cons_zero, Option.getD_some] at this
      rw [List.getD_eq_getElem?_getD, this]
      have hd : (l ++ k :: r).drop (l.length + 1) = r := by simp
      rw [hd]
      have := hset n r hkr
      simp only [List.getD_eq_getElem?_getD] at this ⊢
      rw [this]
    · intro idx hin
      have hlen := InBounds.length hin
      have hb := (reorder_inBounds hp').mp hin
      have hri : reorder (l ++ k :: r) idx =
          l.map (fun j => idx.getD j 0) ++ idx.getD k 0 :: r.map (fun j => idx.getD j 0) := by
        simp only [reorder, List.map_append, List.map_cons]; rfl
      rw [hre, hri] at hb ⊢
      have hb2 := InBounds.append_split (by simp) hb.2
      have o1 := horner_bounds hb2.1
      have i1 := horner_bounds hb2.2.2
      have d1 := hb2.2.1
      refine ⟨by dsimp only; omega, by dsimp only; omega, d1.1, d1.2, ?_⟩
      rw [horner_append _ _ _ _ (by simp)]
      simp only [horner, List.prod_cons]
      push_cast
      rw [Int.toNat_of_nonneg o1.1, Int.toNat_of_nonneg i1.1, Int.toNat_of_nonneg d1.1]
      grind

end LvArray

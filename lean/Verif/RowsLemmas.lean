import Verif.ShapeLemmas

/-!
# Lemmas about the operations on whole layouts
-/

namespace LvArray

variable {X : Type}

/-- A loop stops at the first error. -/
theorem forUp_error {σ : Type} {f : Nat → σ → R σ} (g : Nat → σ) {e : Err} :
    ∀ (n lo i0 : Nat) (s : σ), s = g lo → lo ≤ i0 → i0 < lo + n →
      (∀ i, lo ≤ i → i < i0 → f i (g i) = .ok (g (i + 1))) → f i0 (g i0) = .error e → forUp n lo f s = .error e
  | 0, lo, i0, s, _, h1, h2, _, _ => by omega
  | n + 1, lo, i0, s, h0, h1, h2, hs, he => by
    subst h0
    by_cases hl : lo = i0
    · subst hl
      simp only [forUp, he, bind_err]
    · simp only [forUp]
      rw [hs lo (by omega) (by omega), bind_ok]
      exact forUp_error g n (lo + 1) i0 _ rfl (by omega) (by omega) (fun i h1 h2 => hs i (by omega) h2) he

/-- Moving a block with a slot that holds no object. -/
theorem reallocate_rawRead (c : Cfg) (b : Buf X) (size newCap : Nat) (hk : b.kind = .malloc) (hs : size ≤ b.cap)
    (hn : size ≤ newCap) (ht : c.trivial = false) (hl : ∃ k, k < size ∧ b.cell k = .raw) :
    b.reallocate c size newCap = .error (.ub .rawRead) := by
  -- the first such slot
  obtain ⟨k, hk1, hk2, hmin⟩ : ∃ k, k < size ∧ b.cell k = .raw ∧ ∀ j, j < k → b.cell j ≠ .raw := by
    obtain ⟨k, h1, h2⟩ := hl
    induction k using Nat.strongRecOn with
    | _ k ih =>
      by_cases h : ∃ j, j < k ∧ b.cell j = .raw
      · obtain ⟨j, hj, hj'⟩ := h
        exact ih j hj (by omega) hj'
      · exact ⟨k, h1, h2, fun j hj hj' => h ⟨j, hj, hj'⟩⟩
  obtain ⟨kind, cap, cell, lostLive, lostMoved, moves⟩ := b
  simp only at hk hs hk2 hmin
  subst hk
  simp only [Buf.reallocate]
  let g : Nat → Buf X × Buf X := fun i =>
    ({ kind := .malloc, cap := newCap, cell := fun k => if k < i then cell k else .raw,
       lostLive := lostLive, lostMoved := lostMoved, moves := moves + i },
     { kind := .malloc, cap := cap
       cell := fun k => if k < i ∧ (cell k).isRaw = false then .moved else cell k
       lostLive := lostLive, lostMoved := lostMoved, moves := moves })
  rw [forUp_error g (min newCap size) 0 k _ (e := .ub .rawRead)]
  · rfl
  · simp [g]
  · omega
  · omega
  · intro i _ hi
    have hb : i < newCap ∧ i < cap := by omega
    have hne := hmin i hi
    simp only [moveAcross, g, hb, and_self, if_true, Nat.lt_irrefl, false_and, if_false]
    cases hcell : cell i with
    | raw => exact absurd hcell hne
    | live v =>
      simp only [Buf.place, Nat.lt_irrefl, if_false, Cell.lostL_raw, Cell.lostM_raw,
          Nat.add_zero, Except.ok.injEq, Prod.mk.injEq, Buf.mk.injEq, true_and, and_true]
      refine ⟨⟨?_, by omega⟩, ?_⟩ <;> funext k <;> grind [upd, Cell.isRaw]
    | moved =>
      simp only [Buf.place, Nat.lt_irrefl, if_false, Cell.lostL_raw, Cell.lostM_raw,
          Nat.add_zero, Except.ok.injEq, Prod.mk.injEq, Buf.mk.injEq, true_and, and_true]
      refine ⟨⟨?_, by omega⟩, ?_⟩ <;> funext k <;> grind [upd, Cell.isRaw]
  · have hb : k < newCap ∧ k < cap := by omega
    simp only [moveAcross, g, hb, and_self, if_true, Nat.lt_irrefl, false_and, if_false, hk2, ht, Bool.false_eq_true]

namespace Layout

/-- Capacities of the rows. -/
def caps (L : Layout X) : List Nat := L.map (·.2)
/-- Sizes of the rows. -/
def szs (L : Layout X) : List Nat := L.map (·.1.length)
/-- No row has unused slots. -/
def Packed (L : Layout X) : Prop := ∀ r ∈ L, r.1.length = r.2

@[simp] theorem caps_length (L : Layout X) : L.caps.length = L.length := by simp [caps]
@[simp] theorem szs_length (L : Layout X) : L.szs.length = L.length := by simp [szs]
@[simp] theorem caps_sum (L : Layout X) : L.caps.sum = L.total := rfl
@[simp] theorem caps_append (A B : Layout X) : caps (A ++ B) = caps A ++ caps B := by simp [caps]
@[simp] theorem szs_append (A B : Layout X) : szs (A ++ B) = szs A ++ szs B := by simp [szs]
@[simp] theorem caps_cons (r : List X × Nat) (B : Layout X) : caps (r :: B) = r.2 :: caps B := rfl
@[simp] theorem szs_cons (r : List X × Nat) (B : Layout X) : szs (r :: B) = r.1.length :: szs B := rfl
@[simp] theorem caps_nil : caps ([] : Layout X) = [] := rfl
@[simp] theorem szs_nil : szs ([] : Layout X) = [] := rfl
theorem caps_take (L : Layout X) (i : Nat) : (caps L).take i = caps (L.take i) := by simp [caps]
theorem szs_take (L : Layout X) (i : Nat) : (szs L).take i = szs (L.take i) := by simp [szs]
theorem caps_get (L : Layout X) (i : Nat) (h : i < L.caps.length) : L.caps[i] = (L[i]'(by simpa using h)).2 := by
  simp [caps]
theorem szs_get (L : Layout X) (i : Nat) (h : i < L.szs.length) : L.szs[i] = (L[i]'(by simpa using h)).1.length := by
  simp [szs]

/-- Give the row `i` `d` more slots. -/
def bump (L : Layout X) (i d : Nat) : Layout X := L.modify i fun r => (r.1, r.2 + d)

theorem bump_at (A : Layout X) (r : List X × Nat) (B : Layout X) (d : Nat) :
    bump (A ++ r :: B) A.length d = A ++ (r.1, r.2 + d) :: B := by
  induction A with
  | nil => rfl
  | cons a A ih => simp only [List.cons_append, List.length_cons, bump, List.modify_succ_cons]; rw [← ih]; rfl

theorem bump_at_succ (A : Layout X) (r q : List X × Nat) (B : Layout X) (d : Nat) :
    bump (A ++ r :: q :: B) (A.length + 1) d = A ++ r :: (q.1, q.2 + d) :: B := by
  have := bump_at (A ++ [r]) q B d
  simpa using this

theorem split1 {L : Layout X} {i : Nat} (h : i < L.length) :
    ∃ (A : Layout X) (xs : List X) (cap : Nat) (B : Layout X), L = A ++ (xs, cap) :: B ∧ A.length = i ∧ L[i] = (xs, cap) := by
  refine ⟨L.take i, L[i].1, L[i].2, L.drop (i + 1), ?_, by simp; omega, rfl⟩
  show L = L.take i ++ L[i] :: L.drop (i + 1)
  rw [← List.drop_eq_getElem_cons h, List.take_append_drop]

theorem split2 {L : Layout X} {i : Nat} (h : i + 1 < L.length) :
    ∃ (A : Layout X) (r q : List X × Nat) (B : Layout X), L = A ++ r :: q :: B ∧ A.length = i := by
  refine ⟨L.take i, L[i], L[i + 1], L.drop (i + 2), ?_, by simp; omega⟩
  rw [← List.drop_eq_getElem_cons h, ← List.drop_eq_getElem_cons (by omega), List.take_append_drop]

theorem cells_cases (L : Layout X) (hf : ∀ r ∈ L, r.1.length ≤ r.2) (k : Nat) :
    cells L k = .raw ∨ (cells L k).isLive = true := by
  induction L generalizing k with
  | nil => exact .inl rfl
  | cons r L ih =>
    obtain ⟨xs, cap⟩ := r
    simp only [cells]
    split
    · by_cases h : k < xs.length
      · exact .inr (cellsOf_isLive h)
      · exact .inl (cellsOf_ge (by omega))
    · exact ih (fun r hr => hf r (by simp [hr])) _

theorem packed_cells {L : Layout X} (hp : Packed L) {k : Nat} (hk : k < total L) : (cells L k).isRaw = false := by
  induction L generalizing k with
  | nil => simp at hk
  | cons r L ih =>
    obtain ⟨xs, cap⟩ := r
    have h1 : xs.length = cap := hp (xs, cap) (by simp)
    simp only [cells]
    simp only [total_cons] at hk
    split
    · exact cellsOf_notRaw (by omega)
    · exact ih (fun r hr => hp r (by simp [hr])) (by omega)

theorem not_packed_cells {L : Layout X} (hf : ∀ r ∈ L, r.1.length ≤ r.2) (hp : ¬ Packed L) :
    ∃ k, k < total L ∧ cells L k = .raw := by
  unfold Packed at hp
  simp only [Classical.not_forall] at hp
  obtain ⟨r, hr, hne⟩ := hp
  obtain ⟨A, B, rfl⟩ := List.append_of_mem hr
  obtain ⟨xs, cap⟩ := r
  have := hf (xs, cap) hr
  simp only at this hne
  refine ⟨total A + xs.length, by simp; omega, ?_⟩
  rw [cells_row _ _ _ _ _ (by omega), cellsOf_ge (by omega)]

end Layout

open Layout

namespace Lay

variable {b : Buf X} {L A B : Layout X} {c : Cfg}

theorem realloc (h : Lay b L) {n : Nat} (hn : total L ≤ n) (hp : c.trivial = true ∨ Packed L) :
    ∃ b', bufferManipulation.setCapacity c b (total L) n = .ok b' ∧ Lay b' L ∧ b'.cap = n := by
  unfold bufferManipulation.setCapacity
  rw [bufferManipulation.check_ok c b _ h.room, bind_ok, reallocate_eq c b _ n h.kind h.room]
  · refine ⟨_, rfl, ⟨h.kind, h.fits, hn, ?_, h.lost⟩, rfl⟩
    funext k
    simp only [h.cell]
    split
    · rfl
    · rw [cells_ge (by omega)]
  · rcases hp with hp | hp
    · exact .inl hp
    · right
      rw [h.cell]
      exact ⟨fun k hk => packed_cells hp hk, fun k hk _ => cells_ge hk⟩

theorem realloc_ub (h : Lay b L) {n : Nat} (hn : total L ≤ n) (ht : c.trivial = false) (hp : ¬ Packed L) :
    bufferManipulation.setCapacity c b (total L) n = .error (.ub .rawRead) := by
  unfold bufferManipulation.setCapacity
  rw [bufferManipulation.check_ok c b _ h.room, bind_ok, reallocate_rawRead c b _ n h.kind h.room hn ht]
  rw [h.cell]
  exact not_packed_cells h.fits hp

/-- Growing the allocation, when it may be moved. -/
def Movable (c : Cfg) (L : Layout X) : Prop := c.trivial = true ∨ Packed L

theorem reserve (h : Lay b L) (n : Nat) (hp : n ≤ b.cap ∨ Movable c L) :
    ∃ b', bufferManipulation.reserve c b (total L) n = .ok b' ∧ Lay b' L ∧ n ≤ b'.cap ∧ b.cap ≤ b'.cap := by
  unfold bufferManipulation.reserve
  rw [bufferManipulation.check_ok c b _ h.room, bind_ok]
  by_cases hn : b.cap < n
  · rw [if_pos hn]
    obtain ⟨b', h1, h2, h3⟩ := h.realloc (c := c) (n := n) (by have := h.room; omega) (hp.resolve_left (by omega))
    exact ⟨b', h1, h2, by omega, by omega⟩
  · rw [if_neg hn]
    exact ⟨b, rfl, h, by omega, Nat.le_refl _⟩

theorem reserve_ub (h : Lay b L) (n : Nat) (hn : b.cap < n) (hp : ¬ Movable c L) :
    bufferManipulation.reserve c b (total L) n = .error (.ub .rawRead) := by
  unfold bufferManipulation.reserve
  unfold Movable at hp
  have ht : c.trivial = false := by
    cases hc : c.trivial
    · rfl
    · exact absurd (.inl hc) hp
  rw [bufferManipulation.check_ok c b _ h.room, bind_ok, if_pos hn,
    h.realloc_ub (by have := h.room; omega) ht (fun hh => hp (.inr hh))]

theorem dynamicReserve (h : Lay b L) (n : Nat) (hp : n ≤ b.cap ∨ Movable c L) :
    ∃ b', bufferManipulation.dynamicReserve c b (total L) n = .ok b' ∧ Lay b' L ∧ n ≤ b'.cap ∧ b.cap ≤ b'.cap := by
  unfold bufferManipulation.dynamicReserve
  rw [bufferManipulation.check_ok c b _ h.room, bind_ok]
  by_cases hn : b.cap < n
  · rw [if_pos hn]
    obtain ⟨b', h1, h2, h3⟩ := h.realloc (c := c) (n := 2 * n) (by have := h.room; omega) (hp.resolve_left (by omega))
    exact ⟨b', h1, h2, by omega, by omega⟩
  · rw [if_neg hn]
    exact ⟨b, rfl, h, by omega, Nat.le_refl _⟩

theorem dynamicReserve_ub (h : Lay b L) (n : Nat) (hn : b.cap < n) (hp : ¬ Movable c L) :
    bufferManipulation.dynamicReserve c b (total L) n = .error (.ub .rawRead) := by
  unfold bufferManipulation.dynamicReserve
  unfold Movable at hp
  have ht : c.trivial = false := by
    cases hc : c.trivial
    · rfl
    · exact absurd (.inl hc) hp
  rw [bufferManipulation.check_ok c b _ h.room, bind_ok, if_pos hn,
    h.realloc_ub (by have := h.room; omega) ht (fun hh => hp (.inr hh))]

/-- Rows without elements at the end occupy nothing. -/
theorem dropEmpty (h : Lay b (A ++ B)) (hB : ∀ r ∈ B, r.1 = []) : Lay b A where
  kind := h.kind
  fits := fun r hr => h.fits r (by simp [hr])
  room := by have := h.room; simp at this; omega
  cell := by
    have hraw : ∀ (B : Layout X) (k : Nat), (∀ r ∈ B, r.1 = []) → cells B k = .raw := by
      intro B
      induction B with
      | nil => intro k _; rfl
      | cons r B ih =>
        intro k hB
        obtain ⟨xs, cap⟩ := r
        have : xs = [] := hB (xs, cap) (by simp)
        subst this
        simp only [cells]
        split
        · simp [cellsOf]
        · exact ih _ (fun r hr => hB r (by simp [hr]))
    rw [h.cell]
    funext k
    rw [cells_append]
    split
    · rfl
    · rw [hraw _ _ hB, cells_ge (by omega)]
  lost := h.lost

/-- Rows without elements may be appended as long as they fit in the allocation. -/
theorem addEmpty (h : Lay b A) (hB : ∀ r ∈ B, r.1 = []) (hr : total A + total B ≤ b.cap) : Lay b (A ++ B) where
  kind := h.kind
  fits := fun r hr => by
    simp only [List.mem_append] at hr
    rcases hr with hr | hr
    · exact h.fits r hr
    · rw [hB r hr]; simp
  room := by simpa using hr
  cell := by
    have hraw : ∀ (B : Layout X) (k : Nat), (∀ r ∈ B, r.1 = []) → cells B k = .raw := by
      intro B
      induction B with
      | nil => intro k _; rfl
      | cons r B ih =>
        intro k hB
        obtain ⟨xs, cap⟩ := r
        have : xs = [] := hB (xs, cap) (by simp)
        subst this
        simp only [cells]
        split
        · simp [cellsOf]
        · exact ih _ (fun r hr => hB r (by simp [hr]))
    rw [h.cell]
    funext k
    rw [cells_append]
    split
    · rfl
    · rw [hraw _ _ hB, cells_ge (by omega)]
  lost := h.lost

/-- A row of capacity 0 may be put anywhere. -/
theorem insertEmpty (h : Lay b (A ++ B)) : Lay b (A ++ ([], 0) :: B) where
  kind := h.kind
  fits := fun r hr => by
    simp only [List.mem_append, List.mem_cons] at hr
    rcases hr with hr | rfl | hr
    · exact h.fits r (by simp [hr])
    · simp
    · exact h.fits r (by simp [hr])
  room := by simpa using h.room
  cell := by
    rw [h.cell]
    funext k
    rw [cells_append, cells_append]
    simp [cells]
  lost := h.lost

/-- A row of capacity 0 may be removed. -/
theorem removeEmpty {xs : List X} (h : Lay b (A ++ (xs, 0) :: B)) : Lay b (A ++ B) where
  kind := h.kind
  fits := fun r hr => by
    simp only [List.mem_append] at hr
    exact h.fits r (by simp only [List.mem_append, List.mem_cons]; grind)
  room := by simpa using h.room
  cell := by
    rw [h.cell]
    funext k
    rw [cells_append, cells_append]
    simp [cells]
  lost := h.lost

end Lay

/-! ## One row -/

namespace Win

variable {b0 b : Buf X} {p cap : Nat} {f : List X} {Q : Cell X → Prop} {c : Cfg}

theorem truncate (h : Win Q b0 b p cap f 0 []) (n : Nat) (hn : n ≤ f.length) :
    ∃ b1, arrayManipulation.destroy c b (p + n) (f.length - n) = .ok b1 ∧ Win Q b0 b1 p cap (f.take n) 0 [] ∧
      b1.cap = b.cap := by
  obtain ⟨hk, hc, hl, hin, hfit, hf, hm, hb, hfr, hframe⟩ := id h
  simp only [List.length_nil] at *
  have hd := arrayManipulation.destroy_eq c b (p + n) (f.length - n)
    (Or.inr (fun k h1 h2 => ⟨by rw [hc]; omega, by
      obtain ⟨v, hv⟩ := Cell.isLive_iff.1 (h.isLive_front (k := k) (by omega) (by omega))
      rw [hv]; rfl⟩))
  refine ⟨_, hd, ⟨hk, hc, hl, hin, by simp; omega, ?_, fun k h1 h2 => by omega, by simp, ?_, ?_⟩, rfl⟩
  · intro i hi
    simp only [List.length_take] at hi
    simp only
    rw [if_neg (by omega), hf i (by omega), List.getElem_take]
  · intro k h1 h2
    simp only [List.length_take, List.length_nil] at h1
    simp only
    split
    · rfl
    · exact hfr k (by omega) h2
  · intro k hk
    simp only
    rw [if_neg (by omega)]
    exact hframe k hk

theorem appendMany [Inhabited X] (h : Win Q b0 b p cap f 0 []) (vs : List X) (hroom : f.length + vs.length ≤ cap) :
    ∃ b1, arrayManipulation.append c b p f.length vs = .ok b1 ∧ Win Q b0 b1 p cap (f ++ vs) 0 [] := by
  obtain ⟨hk, hc, hl, hin, hfit, hf, hm, hb, hfr, hframe⟩ := id h
  simp only [List.length_nil] at *
  have hd := arrayManipulation.append_eq c b p f.length vs (.inr (by rw [hc]; omega))
    (fun k h1 h2 => hfr k (by omega) (by omega))
  refine ⟨_, hd, hk, hc, hl, hin, by simp; omega, ?_, fun k h1 h2 => by omega, by simp, ?_, ?_⟩
  · intro i hi
    simp only [List.length_append] at hi
    simp only
    by_cases h1 : i < f.length
    · rw [if_neg (by omega), hf i h1, List.getElem_append_left h1]
    · rw [if_pos (by omega), List.getElem_append_right (by omega), List.getD_eq_getElem?_getD,
        List.getElem?_eq_getElem (by omega)]
      simp only [Option.getD_some]
      congr 2
      omega
  · intro k h1 h2
    simp only [List.length_append, List.length_nil] at h1
    simp only
    rw [if_neg (by omega)]
    exact hfr k (by omega) h2
  · intro k hk
    simp only
    rw [if_neg (by omega)]
    exact hframe k hk

theorem pushBack (h : Win Q b0 b p cap f 0 []) (v : X) (hroom : f.length + 1 ≤ cap) :
    ∃ b1, arrayManipulation.emplaceBack c b p f.length v = .ok b1 ∧ Win Q b0 b1 p cap (f ++ [v]) 0 [] := by
  obtain ⟨hk, hc, hl, hin, hfit, hf, hm, hb, hfr, hframe⟩ := id h
  simp only [List.length_nil] at *
  have hd := arrayManipulation.emplaceBack_eq c b p f.length v (by rw [hc]; omega) (hfr _ (by omega) (by omega))
  refine ⟨_, hd, hk, hc, hl, hin, by simp; omega, ?_, fun k h1 h2 => by omega, by simp, ?_, ?_⟩
  · intro i hi
    simp only [List.length_append, List.length_singleton] at hi
    simp only [upd]
    by_cases h1 : i < f.length
    · rw [if_neg (by omega), hf i h1, List.getElem_append_left h1]
    · have : i = f.length := by omega
      subst this
      simp
  · intro k h1 h2
    simp only [List.length_append, List.length_nil, List.length_singleton] at h1
    simp only [upd]
    rw [if_neg (by omega)]
    exact hfr k (by omega) h2
  · intro k hk
    simp only [upd]
    rw [if_neg (by omega)]
    exact hframe k hk

theorem insertMany [Inhabited X] (h : Win Q b0 b p cap f 0 []) (j : Nat) (hj : j ≤ f.length) (vs : List X)
    (hroom : f.length + vs.length ≤ cap) (hnn : c.debug = true → 0 < b.cap) :
    ∃ b1, arrayManipulation.insert c b p f.length j vs = .ok b1 ∧
      Win Q b0 b1 p cap (f.take j ++ vs ++ f.drop j) 0 [] := by
  obtain ⟨hk, hc, hl, hin, hfit, hf, hm, hb, hfr, hframe⟩ := id h
  simp only [List.length_nil] at *
  have hd := arrayManipulation.insert_eq c b p f.length j vs hj hnn (by rw [hc]; omega)
    (fun k h1 h2 => h.isLive_front (by omega) h2) (fun k h1 h2 => hfr k (by omega) (by omega))
  refine ⟨_, hd, hk, hc, hl, hin, by simp; omega, ?_, fun k h1 h2 => by omega, by simp, ?_, ?_⟩
  · intro i hi
    simp only [List.length_append, List.length_take, List.length_drop] at hi
    simp only
    by_cases h1 : i < j
    · rw [if_pos (by omega), hf i (by omega)]
      rw [List.getElem_append_left (by simp; omega), List.getElem_append_left (by simp; omega), List.getElem_take]
    · rw [if_neg (by omega)]
      by_cases h2 : i < j + vs.length
      · rw [if_pos (by omega), List.getElem_append_left (by simp; omega), List.getElem_append_right (by simp; omega),
          List.getD_eq_getElem?_getD, List.getElem?_eq_getElem (by omega)]
        simp only [Option.getD_some, List.length_take]
        congr 2
        omega
      · rw [if_neg (by omega), if_pos (by omega), show p + i - vs.length = p + (i - vs.length) by omega,
          hf (i - vs.length) (by omega), List.getElem_append_right (by simp; omega), List.getElem_drop]
        simp only [List.length_append, List.length_take]
        congr 2
        omega
  · intro k h1 h2
    simp only [List.length_append, List.length_take, List.length_drop, List.length_nil] at h1
    simp only
    rw [if_neg (by omega), if_neg (by omega), if_neg (by omega)]
    exact hfr k (by omega) h2
  · intro k hk
    simp only
    rw [← hframe k hk]
    by_cases h1 : k < p + j
    · rw [if_pos h1]
    · rw [if_neg h1, if_neg (by omega), if_neg (by omega)]

theorem eraseMany (h : Win Q b0 b p cap f 0 []) (j n : Nat) (hj : j + n ≤ f.length) :
    ∃ b1, arrayManipulation.erase c b p f.length j n = .ok b1 ∧
      Win Q b0 b1 p cap (f.take j ++ f.drop (j + n)) 0 [] := by
  obtain ⟨hk, hc, hl, hin, hfit, hf, hm, hb, hfr, hframe⟩ := id h
  simp only [List.length_nil] at *
  have hd := arrayManipulation.erase_eq c b p f.length j n hj (by rw [hc]; omega)
    (fun k h1 h2 => h.isLive_front (by omega) h2)
  refine ⟨_, hd, hk, hc, hl, hin, by simp; omega, ?_, fun k h1 h2 => by omega, by simp, ?_, ?_⟩
  · intro i hi
    simp only [List.length_append, List.length_take, List.length_drop] at hi
    simp only
    by_cases h1 : i < j
    · rw [if_pos (by omega), hf i (by omega)]
      rw [List.getElem_append_left (by simp; omega), List.getElem_take]
    · rw [if_neg (by omega), if_pos (by omega), show p + i + n = p + (i + n) by omega, hf (i + n) (by omega),
        List.getElem_append_right (by simp; omega), List.getElem_drop]
      simp only [List.length_take]
      congr 2
      omega
  · intro k h1 h2
    simp only [List.length_append, List.length_take, List.length_drop, List.length_nil] at h1
    simp only
    rw [if_neg (by omega), if_neg (by omega)]
    split
    · rfl
    · exact hfr k (by omega) h2
  · intro k hk
    simp only
    rw [← hframe k hk]
    by_cases h1 : k < p + j
    · rw [if_pos h1]
    · rw [if_neg h1, if_neg (by omega), if_neg (by omega)]

theorem resizeTo (h : Win Q b0 b p cap f 0 []) (n : Nat) (hn : n ≤ cap) (v : X) :
    ∃ b1, arrayManipulation.resize c b p f.length n v = .ok b1 ∧
      Win Q b0 b1 p cap (f.take n ++ List.replicate (n - f.length) v) 0 [] := by
  obtain ⟨hk, hc, hl, hin, hfit, hf, hm, hb, hfr, hframe⟩ := id h
  simp only [List.length_nil] at *
  have hd := arrayManipulation.resize_eq c b p f.length n v (.inr (by rw [hc]; omega))
    (.inr fun k h1 h2 => ⟨by rw [hc]; omega, by
      obtain ⟨v, hv⟩ := Cell.isLive_iff.1 (h.isLive_front (k := k) (by omega) (by omega))
      rw [hv]; rfl⟩) (fun k h1 h2 => hfr k (by omega) (by omega))
  refine ⟨_, hd, hk, hc, hl, hin, by simp; omega, ?_, fun k h1 h2 => by omega, by simp, ?_, ?_⟩
  · intro i hi
    simp only [List.length_append, List.length_take, List.length_replicate] at hi
    simp only
    rw [if_neg (by omega)]
    by_cases h1 : i < f.length
    · rw [if_neg (by omega), hf i h1, List.getElem_append_left (by simp; omega), List.getElem_take]
    · rw [if_pos (by omega), List.getElem_append_right (by simp; omega)]
      simp
  · intro k h1 h2
    simp only [List.length_append, List.length_take, List.length_replicate, List.length_nil] at h1
    simp only
    split
    · rfl
    · rw [if_neg (by omega)]
      exact hfr k (by omega) h2
  · intro k hk
    simp only
    rw [if_neg (by omega), if_neg (by omega)]
    exact hframe k hk

theorem writeAt (h : Win Q b0 b p cap f 0 []) (j : Nat) (hj : j < f.length) (v : X) :
    ∃ b1, b.write c (p + j) v = .ok b1 ∧ Win Q b0 b1 p cap (f.set j v) 0 [] := by
  obtain ⟨hk, hc, hl, hin, hfit, hf, hm, hb, hfr, hframe⟩ := id h
  simp only [List.length_nil] at *
  unfold Buf.write
  rw [if_pos (by rw [hc]; omega), hf j hj]
  simp only [Cell.isRaw, Bool.false_and, Bool.false_eq_true, if_false]
  refine ⟨_, rfl, hk, hc, hl, hin, by simp; omega, ?_, fun k h1 h2 => by omega, by simp, ?_, ?_⟩
  · intro i hi
    simp only [List.length_set] at hi
    simp only [upd, List.getElem_set]
    by_cases h1 : j = i
    · subst h1; simp
    · rw [if_neg (by omega), if_neg h1, hf i hi]
  · intro k h1 h2
    simp only [List.length_set, List.length_nil] at h1
    simp only [upd]
    rw [if_neg (by omega)]
    exact hfr k (by omega) h2
  · intro k hk
    simp only [upd]
    rw [if_neg (by omega)]
    exact hframe k hk

end Win

/-! ## Whole layouts -/

/-- The shape of the layout `L`. -/
abbrev LShape (s : Shape) (L : Layout X) : Prop := ShGood s L.szs L.caps

namespace LShape

variable {s : Shape} {L A B : Layout X} {b : Buf X} {c : Cfg} {i : Nat}

theorem num (h : LShape s L) : s.numArrays = L.length := by rw [ShGood.num h]; simp

theorem readOff' (h : LShape s L) (hi : i ≤ L.length) : s.offsets.read i = .ok (total (L.take i)) := by
  rw [ShGood.readOff h (by simpa using hi), caps_take, caps_sum]

theorem readOffAt (h : LShape s (A ++ B)) (hi : i = A.length) : s.offsets.read i = .ok (total A) := by
  subst hi
  rw [h.readOff' (by simp)]
  simp

theorem sizeOf' (h : LShape s L) (hi : i < L.length) : s.sizeOfArray c i = .ok L[i].1.length := by
  rw [ShGood.sizeOf h (by simpa using hi), szs_get]

theorem sizeOfAt {r : List X × Nat} (h : LShape s (A ++ r :: B)) (hi : i = A.length) :
    s.sizeOfArray c i = .ok r.1.length := by
  subst hi
  rw [h.sizeOf' (by simp)]
  simp

theorem capacityOf' (h : LShape s L) (hi : i < L.length) : s.capacityOfArray c i = .ok L[i].2 := by
  rw [ShGood.capacityOf h (by simpa using hi), caps_get]

theorem capacityOfAt {r : List X × Nat} (h : LShape s (A ++ r :: B)) (hi : i = A.length) :
    s.capacityOfArray c i = .ok r.2 := by
  subst hi
  rw [h.capacityOf' (by simp)]
  simp

/-- `destroyValues` of the rows from some row on. -/
theorem destroyValues (h : LShape s (A ++ B)) (hb : Lay b (A ++ B)) :
    ∃ b', s.destroyValues c A.length s.numArrays b = .ok b' ∧ Lay b' A ∧ b'.cap = b.cap := by
  unfold Shape.destroyValues
  rw [ShGood.checkInsertBounds h (by simp), bind_ok, ShGood.checkInsertBounds h (by rw [ShGood.num h]; exact Nat.le_refl _),
    bind_ok]
  let clear : List X × Nat → List X × Nat := fun r => ([], r.2)
  have hn : s.numArrays - A.length = B.length := by rw [h.num]; simp
  rw [hn]
  have hloop := forUp_inv (f := fun i (b : Buf X) => do
      let off ← s.offsets.read i
      let n ← s.sizeOfArray c i
      arrayManipulation.destroy c b off n)
    (fun m b' => Lay b' (A ++ (B.take (m - A.length)).map clear ++ B.drop (m - A.length)) ∧ b'.cap = b.cap)
    B.length A.length b (by simpa using hb) ?_
  · obtain ⟨b', h1, h2, h3⟩ := hloop
    refine ⟨b', h1, ?_, h3⟩
    rw [Nat.add_sub_cancel_left, List.take_length, List.drop_length, List.append_nil] at h2
    exact h2.dropEmpty (fun r hr => by
      simp only [List.mem_map, clear] at hr
      obtain ⟨q, _, rfl⟩ := hr
      rfl)
  · rintro m b1 hm1 hm2 ⟨hl, hc⟩
    have hmB : m - A.length < B.length := by omega
    rw [List.drop_eq_getElem_cons hmB] at hl
    have hlay : Lay b1 ((A ++ (B.take (m - A.length)).map clear) ++ (B[m - A.length].1, B[m - A.length].2) ::
      B.drop (m - A.length + 1)) := hl
    obtain ⟨b2, hd, hw, hcap⟩ := (hlay.toWin IsRaw).truncate (c := c) 0 (by omega)
    have hoff : total (A ++ (B.take (m - A.length)).map clear) = total ((A ++ B).take m) := by
      rw [List.take_append, List.take_of_length_le hm1]
      simp [total, clear, List.map_map, Function.comp_def]
    refine ⟨b2, ?_, ?_, by omega⟩
    · rw [h.readOff' (by simp; omega), bind_ok, h.sizeOf' (by simp; omega), bind_ok, ← hoff]
      rw [show (A ++ B)[m]'(by simp; omega) = B[m - A.length] from List.getElem_append_right hm1]
      simpa using hd
    · have := hlay.ofWin hw
      rw [show m + 1 - A.length = m - A.length + 1 by omega, List.take_succ_eq_append_getElem hmB]
      simp only [List.map_append, List.map_cons, List.map_nil, clear, List.append_assoc, List.cons_append, List.nil_append]
      simpa [clear, List.append_assoc] using this

theorem shiftRowsUp (h : LShape s L) (hi : i < L.length) {d : Nat} (hb : Lay b (bump L (L.length - 1) d))
    (hf : ∀ r ∈ L, r.1.length ≤ r.2) :
    ∃ b', s.shiftRowsUp c i d b = .ok b' ∧ Lay b' (bump L i d) ∧ b'.cap = b.cap := by
  unfold Shape.shiftRowsUp
  have := forDown_inv (f := fun array (b : Buf X) => do
      let n ← s.sizeOfArray c array
      let off ← s.offsets.read array
      arrayManipulation.uninitializedShiftUp c b off n d)
    (fun m b' => Lay b' (bump L (m - 1) d) ∧ b'.cap = b.cap) (i + 1) (s.numArrays - 1 - i) b ?_ ?_
  · obtain ⟨b', h1, h2, h3⟩ := this
    exact ⟨b', h1, by simpa using h2, h3⟩
  · rw [h.num, show i + 1 + (L.length - 1 - i) = L.length by omega]
    exact ⟨hb, rfl⟩
  · rintro m b1 hm1 hm2 ⟨hl, hc⟩
    rw [h.num] at hm2
    obtain ⟨A, r, q, B, rfl, hA⟩ := split2 (L := L) (i := m - 1) (by omega)
    have hm : m = A.length + 1 := by omega
    subst hm
    simp only [Nat.add_sub_cancel] at hl ⊢
    rw [bump_at_succ] at hl
    obtain ⟨b2, h1, h2, h3⟩ := hl.stepUp c (hf q (by simp))
    refine ⟨b2, ?_, ?_, by omega⟩
    · have e1 : s.sizeOfArray c (A.length + 1) = .ok q.1.length :=
        LShape.sizeOfAt (A := A ++ [r]) (B := B) (by simpa using h) (by simp)
      have e2 : s.offsets.read (A.length + 1) = .ok (total A + r.2) := by
        have := LShape.readOffAt (A := A ++ [r]) (B := q :: B) (s := s) (i := A.length + 1) (by simpa using h) (by simp)
        simpa using this
      rw [e1, bind_ok, e2, bind_ok, h1]
    · rw [bump_at]; exact h2

/-- Growing the capacity of a row. -/
theorem growRow (h : LShape s L) (hi : i < L.length) (d : Nat) (hb : Lay b L) :
    (total L + d ≤ b.cap ∨ Lay.Movable c L) ∧ (∃ b', s.growRow c i d b = .ok b' ∧ Lay b' (bump L i d) ∧ b.cap ≤ b'.cap) ∨
    ¬ (total L + d ≤ b.cap ∨ Lay.Movable c L) ∧ s.growRow c i d b = .error (.ub .rawRead) := by
  unfold Shape.growRow
  have hread : s.offsets.read s.numArrays = .ok (total L) := ShGood.readLast h
  rw [hread, bind_ok]
  by_cases hp : total L + d ≤ b.cap ∨ Lay.Movable c L
  · left
    refine ⟨hp, ?_⟩
    obtain ⟨b1, h1, h2, h3, h6⟩ := hb.dynamicReserve (c := c) (total L + d) hp
    rw [h1, bind_ok]
    have hbump : Lay b1 (bump L (L.length - 1) d) := by
      obtain ⟨A, xs, cap, B, rfl, hA, _⟩ := split1 (L := L) (i := L.length - 1) (by omega)
      have hB : B = [] := by
        simp only [List.length_append, List.length_cons] at hA
        exact List.eq_nil_of_length_eq_zero (by omega)
      subst hB
      rw [← hA, bump_at]
      have hf := h2.fits (xs, cap) (by simp)
      simp only at hf
      exact h2.growLast _ (by simp at h3; omega) (by omega)
    obtain ⟨b2, h4, h5, h7⟩ := h.shiftRowsUp (c := c) hi hbump hb.fits
    exact ⟨b2, h4, h5, by omega⟩
  · right
    refine ⟨hp, ?_⟩
    rw [hb.dynamicReserve_ub (c := c) _ (by grind) (by grind), bind_err]

theorem shiftRowsDown (h : ShGood s L.szs cs) (hcs : cs.length = L.length)
    (hoff : ∀ k, i < k → k ≤ L.length → (cs.take k).sum = total (L.take k) + d) (hi : i < L.length)
    (hb : Lay b (bump L i d)) (hf : ∀ r ∈ L, r.1.length ≤ r.2) :
    ∃ b', s.shiftRowsDown c i d b = .ok b' ∧ Lay b' L ∧ b'.cap = b.cap := by
  unfold Shape.shiftRowsDown
  have hnum : s.numArrays = L.length := by rw [ShGood.num h, hcs]
  have := forUp_inv (f := fun array (b : Buf X) => do
      let n ← s.sizeOfArray c array
      let off ← s.offsets.read array
      arrayManipulation.uninitializedShiftDown c b off n d)
    (fun m b' => Lay b' (bump L (m - 1) d) ∧ b'.cap = b.cap) (s.numArrays - (i + 1)) (i + 1) b (by simpa using hb) ?_
  · obtain ⟨b', h1, h2, h3⟩ := this
    refine ⟨b', h1, ?_, h3⟩
    rw [show i + 1 + (s.numArrays - (i + 1)) - 1 = L.length - 1 by omega] at h2
    obtain ⟨A, xs, cap, B, rfl, hA, _⟩ := split1 (L := L) (i := L.length - 1) (by omega)
    have hB : B = [] := by
      simp only [List.length_append, List.length_cons] at hA
      exact List.eq_nil_of_length_eq_zero (by omega)
    subst hB
    rw [← hA, bump_at] at h2
    have hr := h2.room
    simp at hr
    exact h2.growLast cap (by omega) (hf (xs, cap) (by simp))
  · rintro m b1 hm1 hm2 ⟨hl, hc⟩
    obtain ⟨A, r, q, B, rfl, hA⟩ := split2 (L := L) (i := m - 1) (by omega)
    have hm : m = A.length + 1 := by omega
    subst hm
    simp only [Nat.add_sub_cancel] at hl ⊢
    rw [bump_at] at hl
    obtain ⟨b2, h1, h2, h3⟩ := hl.stepDown c (hf r (by simp))
    refine ⟨b2, ?_, ?_, by omega⟩
    · have e1 : s.sizeOfArray c (A.length + 1) = .ok q.1.length := by
        rw [ShGood.sizeOf h (by rw [hcs]; simp), szs_get]
        congr 2
        simp
      have e2 : s.offsets.read (A.length + 1) = .ok (total A + (r.2 + d)) := by
        rw [ShGood.readOff h (by rw [hcs]; simp), hoff _ (by omega) (by simp)]
        congr 1
        rw [show A ++ r :: q :: B = (A ++ [r]) ++ q :: B by simp, List.take_append_of_le_length (by simp),
          List.take_of_length_le (by simp)]
        simp; omega
      rw [e1, bind_ok, e2, bind_ok, h1]
    · rw [bump_at_succ]; exact h2

/-- A row without unused slots. -/
def tight (r : List X × Nat) : List X × Nat := (r.1, r.1.length)

theorem compressStep {o : Buf Nat} {r q : List X × Nat} (hz : RepM s.sizes (szs (A ++ r :: q :: B)))
    (hn : s.numArrays = (A ++ r :: q :: B).length)
    (ho : RepM o (offs (caps (A ++ r :: q :: B)))) (hb : Lay b (A ++ r :: q :: B)) :
    ∃ o' b', s.compressStep c A.length (o, b) = .ok (o', b') ∧
      RepM o' (offs (caps (A ++ tight r :: (q.1, q.2 + (r.2 - r.1.length)) :: B))) ∧
      Lay b' (A ++ tight r :: (q.1, q.2 + (r.2 - r.1.length)) :: B) ∧ b'.cap = b.cap := by
  have hg : LShape { numArrays := s.numArrays, offsets := o, sizes := s.sizes } (A ++ r :: q :: B) :=
    ⟨by rw [hn]; simp, by simp, ho, hz⟩
  have hfr := hb.fits r (by simp)
  have e1 : o.read (A.length + 1) = .ok (total A + r.2) := by
    have := LShape.readOffAt (A := A ++ [r]) (B := q :: B) (i := A.length + 1)
      (s := { numArrays := s.numArrays, offsets := o, sizes := s.sizes }) (by simpa using hg) (by simp)
    simpa using this
  have e2 : o.read A.length = .ok (total A) := hg.readOffAt rfl
  have e3 : s.sizeOfArray c A.length = .ok r.1.length := hg.sizeOfAt (c := c) rfl
  have e4 : s.sizeOfArray c (A.length + 1) = .ok q.1.length :=
    LShape.sizeOfAt (A := A ++ [r]) (B := B) (s := { numArrays := s.numArrays, offsets := o, sizes := s.sizes })
      (by simpa using hg) (by simp)
  obtain ⟨d, hd⟩ : ∃ d, r.2 = r.1.length + d := ⟨r.2 - r.1.length, by omega⟩
  have hlay : Lay b (A ++ (r.1, r.1.length + d) :: (q.1, q.2) :: B) := by rw [← hd]; exact hb
  obtain ⟨b', h1, h2, h3⟩ := hlay.stepDown c (Nat.le_refl _)
  obtain ⟨o', hw, hr⟩ := ho.write c.ix (i := A.length + 1) (by simp) (total A + r.1.length)
  unfold Shape.compressStep
  simp only [e1, e2, e3, e4, bind_ok]
  rw [show total A + r.2 - total A - r.1.length = d by omega, hd, h1, bind_ok,
    show total A + (r.1.length + d) - d = total A + r.1.length by omega, hw, bind_ok]
  refine ⟨_, _, rfl, ?_, ?_, h3⟩
  · refine cast (congrArg _ ?_) hr
    apply offs_eq
    · simp
    intro k hk
    simp only [caps_append, caps_cons, List.length_append, List.length_cons] at hk ⊢
    rw [List.getElem?_set]
    by_cases hk1 : k = A.length + 1
    · subst hk1
      rw [if_pos rfl, if_pos (by simp), List.take_append, List.take_of_length_le (by simp)]
      simp [tight, total, caps]
    · rw [if_neg (by omega), offs_get _ (by simp at hk ⊢; omega), List.take_append, List.take_append]
      by_cases hk2 : k ≤ A.length
      · rw [show k - (caps A).length = 0 by simp; omega]; simp
      · rw [show k - (caps A).length = k - A.length - 2 + 2 by simp; omega]
        simp [tight]; omega
  · rw [show r.1.length + d - r.1.length = d by omega]; exact h2

theorem compress (h : LShape s L) (hb : Lay b L) :
    ∃ s' b', s.compress c b = .ok (s', b') ∧ LShape s' (L.map tight) ∧ Lay b' (L.map tight) ∧ b'.cap = b.cap := by
  unfold Shape.compress
  by_cases h0 : s.numArrays = 0
  · rw [if_pos h0]
    have : L = [] := List.eq_nil_of_length_eq_zero (by rw [← h.num]; exact h0)
    subst this
    exact ⟨s, b, rfl, h, hb, rfl⟩
  rw [if_neg h0]
  have hn := h.num
  have hloop := forUp_inv (f := s.compressStep c)
    (fun m (st : Buf Nat × Buf X) => ∃ e, RepM st.1 (offs (caps ((L.take m).map tight ++ bump (L.drop m) 0 e))) ∧
      Lay st.2 ((L.take m).map tight ++ bump (L.drop m) 0 e) ∧ st.2.cap = b.cap)
    (s.numArrays - 1) 0 (s.offsets, b) ?_ ?_
  · obtain ⟨⟨o1, b1⟩, h1, e, hro, hlay, hcap⟩ := hloop
    rw [h1, bind_ok]
    simp only [Nat.zero_add] at hro hlay
    obtain ⟨A, xs, cap, B, hL, hA, _⟩ := split1 (L := L) (i := L.length - 1) (by omega)
    have hB : B = [] := by
      have := congrArg List.length hL
      simp only [List.length_append, List.length_cons] at this
      exact List.eq_nil_of_length_eq_zero (by omega)
    subst hB
    have hdrop : bump (L.drop (s.numArrays - 1)) 0 e = [(xs, cap + e)] := by
      rw [hn, ← hA, hL]; simp [bump]
    have htake : L.take (s.numArrays - 1) = A := by rw [hn, ← hA, hL]; simp
    rw [hdrop, htake] at hro hlay
    have hfx := hb.fits (xs, cap) (by rw [hL]; simp)
    simp only at hfx
    have hlen : A.length = s.numArrays - 1 := by omega
    have e1 : o1.read (s.numArrays - 1) = .ok (total (A.map tight)) := by
      refine hro.read ?_
      rw [offs_get _ (by simp [hlen]), ← hlen, caps_append, List.take_append_of_le_length (by simp),
        List.take_of_length_le (by simp), caps_sum]
    have e2 : s.sizeOfArray c (s.numArrays - 1) = .ok xs.length := by
      refine LShape.sizeOfAt (A := A) (r := (xs, cap)) (B := []) ?_ hlen.symm
      rw [hL] at h; exact h
    obtain ⟨o2, hw, hr2⟩ := hro.write c.ix (i := s.numArrays) (by simp; omega) (total (A.map tight) + xs.length)
    simp only [e1, e2, hw, bind_ok]
    have htot : L.map tight = A.map tight ++ [(xs, xs.length)] := by rw [hL]; simp [tight]
    refine ⟨_, _, rfl, ⟨?_, ?_, ?_, ?_⟩, ?_, hcap⟩
    · simp [hn]
    · simp
    · refine cast (congrArg _ ?_) hr2
      apply offs_eq
      · rw [htot]; simp
      intro k hk
      rw [htot] at hk ⊢
      simp only [caps_append, caps_cons, caps_nil, List.length_append, List.length_cons, List.length_nil, caps_length,
        List.length_map] at hk ⊢
      rw [List.getElem?_set]
      by_cases hk1 : k = s.numArrays
      · subst hk1
        rw [if_pos rfl, if_pos (by simp; omega), List.take_of_length_le (by simp; omega)]
        simp
      · rw [if_neg (by omega), offs_get _ (by simp; omega), List.take_append_of_le_length (by simp; omega),
          List.take_append_of_le_length (by simp; omega)]
    · have : szs (L.map tight) = szs L := by simp [szs, tight, List.map_map, Function.comp_def]
      rw [this]; exact (show RepM s.sizes _ from ShGood.siz h)
    · have := hlay.growLast xs.length (by have := hlay.room; simp at this; omega) (Nat.le_refl _)
      rw [htot]; exact this
  · refine ⟨0, ?_, ?_, rfl⟩
    · have : bump L 0 0 = L := by cases L <;> simp [bump]
      simpa [this] using ShGood.off h
    · have : bump L 0 0 = L := by cases L <;> simp [bump]
      simpa [this] using hb
  · rintro m ⟨o1, b1⟩ _ hm ⟨e, hro, hlay, hcap⟩
    simp only at hro hlay hcap
    obtain ⟨A, r, q, B, rfl, hA⟩ := split2 (L := L) (i := m) (by omega)
    subst hA
    have e1 : (A ++ r :: q :: B).take A.length = A := by simp
    have e2 : (A ++ r :: q :: B).drop A.length = r :: q :: B := by simp
    have e3 : bump (r :: q :: B) 0 e = (r.1, r.2 + e) :: q :: B := rfl
    rw [e1, e2, e3] at hro hlay
    have hz : RepM s.sizes (szs (A.map tight ++ (r.1, r.2 + e) :: q :: B)) := by
      have : szs (A.map tight ++ (r.1, r.2 + e) :: q :: B) = szs (A ++ r :: q :: B) := by
        simp [szs, tight, List.map_map, Function.comp_def]
      rw [this]; exact ShGood.siz h
    obtain ⟨o2, b2, h1, h2, h3, h4⟩ := compressStep (c := c) hz (by simpa using hn) hro hlay
    rw [List.length_map] at h1
    refine ⟨(o2, b2), h1, r.2 + e - r.1.length, ?_, ?_, h4.trans hcap⟩
    all_goals
      have t1 : (A ++ r :: q :: B).take (A.length + 1) = A ++ [r] := by
        rw [show A ++ r :: q :: B = (A ++ [r]) ++ q :: B by simp, List.take_append_of_le_length (by simp),
          List.take_of_length_le (by simp)]
      have t2 : (A ++ r :: q :: B).drop (A.length + 1) = q :: B := by
        rw [show A ++ r :: q :: B = (A ++ [r]) ++ q :: B by simp, List.drop_append_of_le_length (by simp)]
        simp
      have t3 : bump (q :: B) 0 (r.2 + e - r.1.length) = (q.1, q.2 + (r.2 + e - r.1.length)) :: B := rfl
      rw [t1, t2, t3]
    · simpa [tight] using h2
    · simpa [tight] using h3

/-- Copying the rows of another object into unused storage. -/
theorem copyRows {src : Buf X} (h : LShape s L) (hs : Lay src L) (hb : Lay b []) (hcap : total L ≤ b.cap) :
    ∃ b', s.copyRows c src b = .ok b' ∧ Lay b' L ∧ b'.cap = b.cap := by
  unfold Shape.copyRows
  let clear : List X × Nat → List X × Nat := fun r => ([], r.2)
  have hclear : total (L.map clear) = total L := by simp [total, clear, List.map_map, Function.comp_def]
  have h0 : Lay b (L.map clear) := by
    have := hb.addEmpty (B := L.map clear) (fun r hr => by
      simp only [List.mem_map, clear] at hr
      obtain ⟨q, _, rfl⟩ := hr
      rfl) (by rw [hclear]; simpa using hcap)
    simpa using this
  have hloop := forUp_inv (f := fun i (dst : Buf X) => do
      let off ← s.offsets.read i
      let n ← s.sizeOfArray c i
      Shape.copyRange c src off n dst)
    (fun m b' => Lay b' (L.take m ++ (L.drop m).map clear) ∧ b'.cap = b.cap) s.numArrays 0 b ?_ ?_
  · obtain ⟨b', h1, h2, h3⟩ := hloop
    refine ⟨b', h1, ?_, h3⟩
    rw [Nat.zero_add, h.num, List.take_length, List.drop_length] at h2
    simpa using h2
  · exact ⟨by simpa using h0, rfl⟩
  · rintro m b1 _ hm ⟨hl, hc⟩
    rw [Nat.zero_add, h.num] at hm
    obtain ⟨A, xs, cap, B, rfl, hA, _⟩ := split1 (L := L) (i := m) hm
    subst hA
    rw [h.readOffAt rfl, bind_ok, h.sizeOfAt rfl, bind_ok]
    have e1 : (A ++ (xs, cap) :: B).take A.length = A := by simp
    have e2 : (A ++ (xs, cap) :: B).drop A.length = (xs, cap) :: B := by simp
    have t1 : (A ++ (xs, cap) :: B).take (A.length + 1) = A ++ [(xs, cap)] := by
      rw [show A ++ (xs, cap) :: B = (A ++ [(xs, cap)]) ++ B by simp, List.take_append_of_le_length (by simp),
        List.take_of_length_le (by simp)]
    have t2 : (A ++ (xs, cap) :: B).drop (A.length + 1) = B := by
      rw [show A ++ (xs, cap) :: B = (A ++ [(xs, cap)]) ++ B by simp, List.drop_append_of_le_length (by simp)]
      simp
    rw [e1, e2] at hl
    rw [t1, t2]
    simp only [List.map_cons, clear] at hl
    have hfx := hs.fits (xs, cap) (by simp)
    simp only at hfx
    have hwin := hs.toWin (A := A) IsRaw
    unfold Shape.copyRange
    have hrow := forUp_inv (f := fun k (dst : Buf X) => do
        let v ← src.read k
        dst.construct c k v)
      (fun k b' => Win IsRaw b1 b' (total A) cap (xs.take (k - total A)) (xs.length - (k - total A)) [])
      xs.length (total A) b1 ?_ ?_
    · obtain ⟨b2, h1, h2⟩ := hrow
      rw [Nat.add_sub_cancel_left, List.take_length] at h2
      refine ⟨b2, h1, ?_, by rw [h2.capEq, hc]⟩
      have := hl.ofWin (h2.closeGap IsRaw)
      simpa [clear] using this
    · simp only [Nat.sub_self, List.take_zero, Nat.sub_zero]
      exact (hl.toWin IsRaw).openGap _ (by simpa using hfx)
    · intro k b2 hk1 hk2 hw
      have hlen : (xs.take (k - total A)).length = k - total A := by simp; omega
      rw [show xs.length - (k - total A) = xs.length - (k + 1 - total A) + 1 by omega] at hw
      obtain ⟨b3, h1, h2⟩ := hw.setStep c (xs[k - total A]'(by omega))
      refine ⟨b3, ?_, ?_⟩
      · have hread := hwin.read_front (k - total A) (by omega)
        rw [show total A + (k - total A) = k by omega] at hread
        rw [hlen, show total A + (k - total A) = k by omega] at h1
        show (src.read k >>= fun v => b2.construct c k v) = _
        rw [hread, bind_ok, h1]
      · rw [show k + 1 - total A = k - total A + 1 by omega, List.take_succ_eq_append_getElem (by omega)]
        rw [show k + 1 - total A = k - total A + 1 by omega] at h2
        exact h2

end LShape

end LvArray

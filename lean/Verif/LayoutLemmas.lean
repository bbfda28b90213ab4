import Verif.Rows
import Verif.RowLemmas

/-!
# Lemmas about rows laid out one after another in one allocation
-/

namespace LvArray

namespace arrayManipulation

variable {T : Type}

theorem uninitializedShiftUp_eq (c : Cfg) (b : Buf T) (p size amount : Nat) (hcap : p + size + amount ≤ b.cap)
    (hl : ∀ k, p ≤ k → k < p + size → (b.cell k).isLive = true)
    (hr : ∀ k, p + size ≤ k → p + amount ≤ k → k < p + size + amount → b.cell k = .raw) :
    uninitializedShiftUp c b p size amount =
      .ok { b with
        cell := fun k =>
          if p + amount ≤ k ∧ k < p + size + amount then b.cell (k - amount)
          else if p ≤ k ∧ k < p + size then .raw
          else b.cell k
        moves := b.moves + if amount = 0 then 0 else size } := by
  unfold uninitializedShiftUp
  by_cases hn : amount = 0
  · subst hn
    rw [if_pos rfl]
    cases b; simp only [Except.ok.injEq, Buf.mk.injEq, true_and, if_true, Nat.add_zero, and_true]; funext k; grind
  rw [if_neg hn]
  let g : Nat → Buf T := fun i =>
    { b with
      cell := fun k =>
        if i + amount ≤ k ∧ k < p + size + amount then b.cell (k - amount)
        else if i ≤ k ∧ k < p + size then .raw
        else b.cell k
      moves := b.moves + (p + size - i) }
  have h := forDown_eq (f := fun j (b : Buf T) => do
      let b ← b.moveConstruct c (j + amount) j
      b.destroyAt c j) g size p (s := b) ?_ ?_
  · rw [h]
    simp only [g, Except.ok.injEq, Buf.mk.injEq, true_and]
    rw [if_neg hn]; omega
  · cases b
    simp only [g, Buf.mk.injEq, true_and]
    refine ⟨?_, by omega⟩
    funext k; grind
  · intro i h1 h2
    obtain ⟨v, hv⟩ := Cell.isLive_iff.1 (hl i h1 h2)
    have hsrc : (g (i + 1)).cell i = .live v := by show (if _ then _ else _) = _; grind
    have hdst : (g (i + 1)).cell (i + amount) = .raw := by
      show (if _ then _ else _) = _
      have := hr (i + amount)
      grind
    have hb : i + amount < (g (i + 1)).cap ∧ i < (g (i + 1)).cap := by
      show i + amount < b.cap ∧ i < b.cap; omega
    show ((g (i + 1)).moveConstruct c (i + amount) i >>= fun b => b.destroyAt c i) = _
    unfold Buf.moveConstruct
    rw [if_pos hb, hsrc]
    simp only [bind_ok]
    have hcell : upd (upd (upd (g (i + 1)).cell i Cell.moved) (i + amount) (.live v)) i .raw = (g i).cell := by
      funext k
      simp only [g, upd]
      grind
    have hz : upd (g (i + 1)).cell i Cell.moved (i + amount) = .raw := by
      rw [upd_ne _ _ (by omega), hdst]
    unfold Buf.destroyAt
    have hmv : b.moves + (p + size - (i + 1)) + 1 = b.moves + (p + size - i) := by omega
    have key : (Except.ok ⟨b.kind, b.cap, (g i).cell, b.lostLive, b.lostMoved,
        b.moves + (p + size - (i + 1)) + 1⟩ : R (Buf T)) = .ok (g i) := by
      simp only [g, Except.ok.injEq, Buf.mk.injEq, true_and]
      omega
    by_cases ht : c.trivial = true
    · rw [if_pos ht]
      simp only [Buf.place, hz, Cell.lostL_raw, Cell.lostM_raw, Nat.add_zero, hcell]
      exact key
    · rw [if_neg ht]
      have hci : upd (upd (g (i + 1)).cell i Cell.moved) (i + amount) (.live v) i = .moved := by
        rw [upd_ne _ _ (by omega), upd_same]
      simp only [Buf.place, hz, Cell.lostL_raw, Cell.lostM_raw, Nat.add_zero, hcell, hci]
      rw [if_pos hb.2]
      exact key

theorem uninitializedShiftDown_eq (c : Cfg) (b : Buf T) (p size amount : Nat) (hcap : p + size ≤ b.cap)
    (ha : amount ≤ p)
    (hl : ∀ k, p ≤ k → k < p + size → (b.cell k).isLive = true)
    (hr : ∀ k, p - amount ≤ k → k < p → k + amount < p + size → b.cell k = .raw) :
    uninitializedShiftDown c b p size amount =
      .ok { b with
        cell := fun k =>
          if p - amount ≤ k ∧ k + amount < p + size then b.cell (k + amount)
          else if p ≤ k ∧ k < p + size then .raw
          else b.cell k
        moves := b.moves + if amount = 0 then 0 else size } := by
  unfold uninitializedShiftDown
  by_cases hn : amount = 0
  · subst hn
    rw [if_pos rfl]
    cases b; simp only [Except.ok.injEq, Buf.mk.injEq, true_and, if_true, Nat.add_zero, and_true]; funext k; grind
  rw [if_neg hn]
  let g : Nat → Buf T := fun i =>
    { b with
      cell := fun k =>
        if p - amount ≤ k ∧ k + amount < i then b.cell (k + amount)
        else if p ≤ k ∧ k < i then .raw
        else b.cell k
      moves := b.moves + (i - p) }
  have h := forUp_eq (f := fun j (b : Buf T) => do
      if j < amount then .error (.ub .outOfBounds) else
      let b ← b.moveConstruct c (j - amount) j
      b.destroyAt c j) g size p (s := b) ?_ ?_
  · rw [h]
    simp only [g, Except.ok.injEq, Buf.mk.injEq, true_and]
    rw [if_neg hn]; omega
  · cases b
    simp only [g, Buf.mk.injEq, true_and]
    refine ⟨?_, by omega⟩
    funext k; grind
  · intro i h1 h2
    obtain ⟨v, hv⟩ := Cell.isLive_iff.1 (hl i h1 h2)
    have hsrc : (g i).cell i = .live v := by show (if _ then _ else _) = _; grind
    have hdst : (g i).cell (i - amount) = .raw := by
      show (if _ then _ else _) = _
      have := hr (i - amount)
      grind
    have hb : i - amount < (g i).cap ∧ i < (g i).cap := by
      show i - amount < b.cap ∧ i < b.cap; omega
    rw [if_neg (by omega)]
    show ((g i).moveConstruct c (i - amount) i >>= fun b => b.destroyAt c i) = _
    unfold Buf.moveConstruct
    rw [if_pos hb, hsrc]
    simp only [bind_ok]
    have hcell : upd (upd (upd (g i).cell i Cell.moved) (i - amount) (.live v)) i .raw = (g (i + 1)).cell := by
      funext k
      simp only [g, upd]
      grind
    have hz : upd (g i).cell i Cell.moved (i - amount) = .raw := by
      rw [upd_ne _ _ (by omega), hdst]
    unfold Buf.destroyAt
    have key : (Except.ok ⟨b.kind, b.cap, (g (i + 1)).cell, b.lostLive, b.lostMoved,
        b.moves + (i - p) + 1⟩ : R (Buf T)) = .ok (g (i + 1)) := by
      simp only [g, Except.ok.injEq, Buf.mk.injEq, true_and]
      omega
    by_cases ht : c.trivial = true
    · rw [if_pos ht]
      simp only [Buf.place, hz, Cell.lostL_raw, Cell.lostM_raw, Nat.add_zero, hcell]
      exact key
    · rw [if_neg ht]
      have hci : upd (upd (g i).cell i Cell.moved) (i - amount) (.live v) i = .moved := by
        rw [upd_ne _ _ (by omega), upd_same]
      simp only [Buf.place, hz, Cell.lostL_raw, Cell.lostM_raw, Nat.add_zero, hcell, hci]
      rw [if_pos hb.2]
      exact key

end arrayManipulation

/-! ## Layouts -/

variable {X : Type}

/-- Rows with their capacities, in order. -/
abbrev Layout (X : Type) := List (List X × Nat)

namespace Layout

/-- Number of slots taken by all rows. -/
def total (L : Layout X) : Nat := (L.map (·.2)).sum

/-- The slots of an allocation that holds the rows one after another, each followed by its unused slots. -/
def cells : Layout X → Nat → Cell X
  | [], _ => .raw
  | (xs, cap) :: L, k => if k < cap then cellsOf xs k else cells L (k - cap)

@[simp] theorem total_nil : total ([] : Layout X) = 0 := rfl
@[simp] theorem total_cons (r : List X × Nat) (L : Layout X) : total (r :: L) = r.2 + total L := by simp [total]
@[simp] theorem total_append (A B : Layout X) : total (A ++ B) = total A + total B := by simp [total]

theorem cells_append (A B : Layout X) (k : Nat) :
    cells (A ++ B) k = if k < total A then cells A k else cells B (k - total A) := by
  induction A generalizing k with
  | nil => simp
  | cons r A ih =>
    obtain ⟨xs, cap⟩ := r
    simp only [List.cons_append, cells, total_cons, ih]
    by_cases h1 : k < cap
    · rw [if_pos h1, if_pos (by omega), if_pos h1]
    · by_cases h2 : k - cap < total A
      · rw [if_neg h1, if_pos h2, if_pos (by omega), if_neg h1]
      · rw [if_neg h1, if_neg h2, if_neg (by omega), Nat.sub_sub]

theorem cells_ge {L : Layout X} {k : Nat} (h : total L ≤ k) : cells L k = .raw := by
  induction L generalizing k with
  | nil => rfl
  | cons r L ih =>
    obtain ⟨xs, cap⟩ := r
    simp only [total_cons] at h
    simp only [cells]
    rw [if_neg (by omega)]
    exact ih (by omega)

theorem cells_row (A : Layout X) (xs : List X) (cap : Nat) (B : Layout X) (j : Nat) (hj : j < cap) :
    cells (A ++ (xs, cap) :: B) (total A + j) = cellsOf xs j := by
  rw [cells_append, if_neg (by omega), Nat.add_sub_cancel_left]
  simp [cells, hj]

end Layout

open Layout

/-- The allocation holds exactly the rows of `L`, at the positions given by their capacities, and no object anywhere else;
nothing with a value was ever overwritten or released without being destroyed. -/
structure Lay (b : Buf X) (L : Layout X) : Prop where
  kind : b.kind = .malloc
  fits : ∀ r ∈ L, r.1.length ≤ r.2
  room : total L ≤ b.cap
  cell : b.cell = cells L
  lost : b.lostLive = 0

namespace Lay

variable {b b' : Buf X} {A B L : Layout X} {xs ys : List X} {cap : Nat}

theorem toWin (h : Lay b (A ++ (xs, cap) :: B)) (Q : Cell X → Prop) : Win Q b b (total A) cap xs 0 [] where
  kind := rfl
  capEq := rfl
  lost := rfl
  inside := by have := h.room; simp at this; omega
  fits := by have := h.fits (xs, cap) (by simp); simpa using this
  front := fun i hi => by
    have := h.fits (xs, cap) (by simp)
    simp only at this
    rw [h.cell, cells_row _ _ _ _ _ (by omega), cellsOf_lt hi]
  mid := fun k h1 h2 => by omega
  back := fun i hi => by simp at hi
  free := fun k h1 h2 => by
    simp at h1
    rw [h.cell, show k = total A + (k - total A) by omega, cells_row _ _ _ _ _ (by omega), cellsOf_ge (by omega)]
  frame := fun k _ => rfl

theorem ofWin (h : Lay b (A ++ (xs, cap) :: B)) {Q : Cell X → Prop} (w : Win Q b b' (total A) cap ys 0 []) :
    Lay b' (A ++ (ys, cap) :: B) where
  kind := by rw [w.kind, h.kind]
  fits := fun r hr => by
    simp only [List.mem_append, List.mem_cons] at hr
    rcases hr with hr | rfl | hr
    · exact h.fits r (by simp [hr])
    · simpa using w.fits
    · exact h.fits r (by simp [hr])
  room := by have := h.room; rw [w.capEq]; simpa using this
  cell := by
    have hf := w.fits
    simp at hf
    funext k
    by_cases h1 : total A ≤ k ∧ k < total A + cap
    · rw [show k = total A + (k - total A) by omega, cells_row _ _ _ _ _ (by omega)]
      by_cases h2 : k - total A < ys.length
      · rw [w.front _ h2, cellsOf_lt h2]
      · rw [cellsOf_ge (by omega)]
        exact w.free _ (by simp; omega) (by omega)
    · rw [w.frame k (by omega), h.cell, cells_append, cells_append]
      by_cases h2 : k < total A
      · rw [if_pos h2, if_pos h2]
      · rw [if_neg h2, if_neg h2]
        simp only [cells]
        rw [if_neg (by omega), if_neg (by omega)]
  lost := by rw [w.lost, h.lost]

/-- The last row may be given the unused slots behind it. -/
theorem growLast (h : Lay b (A ++ [(xs, cap)])) (n : Nat) (hn : total A + n ≤ b.cap) (hx : xs.length ≤ n) :
    Lay b (A ++ [(xs, n)]) where
  kind := h.kind
  fits := fun r hr => by
    simp only [List.mem_append, List.mem_singleton] at hr
    rcases hr with hr | rfl
    · exact h.fits r (by simp [hr])
    · exact hx
  room := by simpa using hn
  cell := by
    have hf := h.fits (xs, cap) (by simp)
    simp only at hf
    rw [h.cell]
    funext k
    rw [cells_append, cells_append]
    by_cases h2 : k < total A
    · rw [if_pos h2, if_pos h2]
    · rw [if_neg h2, if_neg h2]
      simp only [cells]
      by_cases h3 : k - total A < xs.length
      · rw [if_pos (by omega), if_pos (by omega)]
      · rw [cellsOf_ge (by omega)]; simp
  lost := h.lost

/-- Shifting a row up by `d` moves `d` unused slots from behind it to the row before it. -/
theorem stepUp (c : Cfg) {cx cy d : Nat} (h : Lay b (A ++ (xs, cx) :: (ys, cy + d) :: B)) (hy : ys.length ≤ cy) :
    ∃ b', arrayManipulation.uninitializedShiftUp c b (total A + cx) ys.length d = .ok b' ∧
      Lay b' (A ++ (xs, cx + d) :: (ys, cy) :: B) ∧ b'.cap = b.cap := by
  have hroom := h.room
  simp at hroom
  have hfx := h.fits (xs, cx) (by simp)
  simp only at hfx
  have hw : Lay b ((A ++ [(xs, cx)]) ++ (ys, cy + d) :: B) := by simpa using h
  have w := hw.toWin IsRaw
  simp only [total_append, total_cons, total_nil, Nat.add_zero] at w
  refine ⟨_, arrayManipulation.uninitializedShiftUp_eq c b (total A + cx) ys.length d (by omega)
    (fun k h1 h2 => w.isLive_front h1 h2) (fun k h1 h2 h3 => w.free k (by simp; omega) (by omega)), ?_, rfl⟩
  refine ⟨h.kind, ?_, by simp; omega, ?_, h.lost⟩
  · intro r hr
    simp only [List.mem_append, List.mem_cons] at hr
    rcases hr with hr | rfl | rfl | hr
    · exact h.fits r (by simp [hr])
    · simp only; omega
    · exact hy
    · exact h.fits r (by simp [hr])
  · funext k
    simp only [h.cell]
    rw [cells_append A, cells_append A, cells_append A]
    simp only [cells]
    by_cases h1 : k < total A
    · rw [if_neg (by omega), if_neg (by omega), if_pos h1, if_pos h1]
    rw [if_neg h1, if_neg h1]
    by_cases h2 : k < total A + cx
    · rw [if_neg (by omega), if_neg (by omega), if_pos (by omega), if_pos (by omega)]
    by_cases h3 : k < total A + cx + d
    · rw [if_neg (by omega), if_pos (by omega : k - total A < cx + d), cellsOf_ge (by omega)]
      by_cases h4 : k < total A + cx + ys.length
      · rw [if_pos (by omega)]
      · rw [if_neg (by omega), if_neg (by omega), if_pos (by omega), cellsOf_ge (by omega)]
    rw [if_neg (by omega : ¬ k - total A < cx + d)]
    by_cases h4 : k < total A + cx + d + cy
    · rw [if_pos (by omega : k - total A - (cx + d) < cy)]
      by_cases h5 : k < total A + cx + ys.length + d
      · rw [if_pos (by omega), if_neg (by omega), if_neg (by omega), if_pos (by omega)]
        congr 1; omega
      · rw [if_neg (by omega), cellsOf_ge (by omega : ys.length ≤ k - total A - (cx + d))]
        split
        · rfl
        · rw [if_neg (by omega), if_pos (by omega), cellsOf_ge (by omega)]
    · rw [if_neg (by omega), if_neg (by omega), if_neg (by omega), if_neg (by omega), if_neg (by omega)]
      congr 1; omega

/-- Shifting a row down by `d` takes `d` unused slots from the row before it. -/
theorem stepDown (c : Cfg) {cx cy d : Nat} (h : Lay b (A ++ (xs, cx + d) :: (ys, cy) :: B)) (hx : xs.length ≤ cx) :
    ∃ b', arrayManipulation.uninitializedShiftDown c b (total A + (cx + d)) ys.length d = .ok b' ∧
      Lay b' (A ++ (xs, cx) :: (ys, cy + d) :: B) ∧ b'.cap = b.cap := by
  have hroom := h.room
  simp at hroom
  have hfy := h.fits (ys, cy) (by simp)
  simp only at hfy
  have hw : Lay b ((A ++ [(xs, cx + d)]) ++ (ys, cy) :: B) := by simpa using h
  have w := hw.toWin IsRaw
  simp only [total_append, total_cons, total_nil, Nat.add_zero] at w
  have w' := h.toWin IsRaw
  refine ⟨_, arrayManipulation.uninitializedShiftDown_eq c b (total A + (cx + d)) ys.length d (by omega) (by omega)
    (fun k h1 h2 => w.isLive_front h1 h2) (fun k h1 h2 h3 => w'.free k (by simp; omega) (by omega)), ?_, rfl⟩
  refine ⟨h.kind, ?_, by simp; omega, ?_, h.lost⟩
  · intro r hr
    simp only [List.mem_append, List.mem_cons] at hr
    rcases hr with hr | rfl | rfl | hr
    · exact h.fits r (by simp [hr])
    · exact hx
    · simp only; omega
    · exact h.fits r (by simp [hr])
  · funext k
    simp only [h.cell]
    rw [cells_append A, cells_append A, cells_append A]
    simp only [cells]
    by_cases h1 : k < total A
    · rw [if_neg (by omega), if_neg (by omega), if_pos h1, if_pos h1]
    rw [if_neg h1, if_neg h1]
    by_cases h2 : k < total A + cx
    · rw [if_neg (by omega), if_neg (by omega), if_pos (by omega), if_pos (by omega)]
    rw [if_neg (by omega : ¬ k - total A < cx)]
    by_cases h3 : k < total A + cx + ys.length
    · rw [if_pos (by omega), if_neg (by omega), if_neg (by omega), if_pos (by omega), if_pos (by omega)]
      congr 1; omega
    rw [if_neg (by omega : ¬ (_ ∧ _))]
    by_cases h4 : k < total A + cx + (cy + d)
    · rw [if_pos (by omega : k - total A - cx < cy + d), cellsOf_ge (by omega : ys.length ≤ k - total A - cx)]
      split
      · rfl
      · by_cases h5 : k - total A < cx + d
        · rw [if_pos h5, cellsOf_ge (by omega)]
        · rw [if_neg h5, if_pos (by omega), cellsOf_ge (by omega)]
    · rw [if_neg (by omega), if_neg (by omega), if_neg (by omega), if_neg (by omega)]
      congr 1; omega

end Lay

end LvArray

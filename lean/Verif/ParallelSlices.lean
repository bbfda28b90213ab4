import Verif.ParallelLoop
import Verif.ParallelRows
import Verif.AoALemmas

/-!
# A container of rows as a family of containers with one row

Cutting a container into its rows, and putting the rows together again.
-/

namespace LvArray.Parallel

open Prog Layout

variable {T V X : Type}

/-- The part of an allocation that begins at `p` and has `n` slots. -/
def cut (b : Buf X) (p n : Nat) : Buf X :=
  { kind := .malloc, cap := n, cell := fun k => if k < n then b.cell (p + k) else .raw, lostLive := 0, lostMoved := 0, moves := 0 }

theorem cut_part (b : Buf X) {p n : Nat} (h : p + n ≤ b.cap) : Part b p n (cut b p n) :=
  ⟨rfl, h, fun k hk => by simp [cut, hk]⟩

/-- The shape of one row. -/
def rowShape (n cap : Nat) : Shape :=
  { numArrays := 1
    offsets := { kind := .malloc, cap := 2, cell := cellsOf (offs [cap]), lostLive := 0, lostMoved := 0, moves := 0 }
    sizes := { kind := .malloc, cap := 1, cell := cellsOf [n], lostLive := 0, lostMoved := 0, moves := 0 } }

theorem rowShape_good (n cap : Nat) : ShGood (rowShape n cap) [n] [cap] :=
  ⟨rfl, rfl, ⟨⟨rfl, by simp [rowShape]⟩, rfl⟩, ⟨⟨rfl, by simp [rowShape]⟩, rfl⟩⟩

/-- The rows of a container. -/
def slices (s : RowStore T V) (szs caps : List Nat) : Family T V := fun i =>
  { shape := rowShape (szs.getD i 0) (caps.getD i 0)
    values := cut s.values (caps.take i).sum (caps.getD i 0)
    entries := cut s.entries (caps.take i).sum (caps.getD i 0) }

theorem take_sum_le (caps : List Nat) (i : Nat) : (caps.take i).sum ≤ caps.sum := by
  conv => rhs; rw [← List.take_append_drop i caps]
  rw [List.sum_append]; omega

theorem slices_sim {s : RowStore T V} {szs caps : List Nat} (h : ShGood s.shape szs caps) (hv : caps.sum ≤ s.values.cap)
    (he : caps.sum ≤ s.entries.cap) (lv : s.values.lostLive = 0) (le : s.entries.lostLive = 0) :
    Sim caps.length (fun i => (caps.take i).sum) s (slices s szs caps) := by
  have hg : ∀ i (hi : i < caps.length), caps.getD i 0 = caps[i] := fun i hi => by simp [hi]
  have hd : ∀ i (hi : i < caps.length), (caps.take (i + 1)).sum - (caps.take i).sum = caps.getD i 0 := fun i hi => by
    rw [take_sum_succ caps hi, hg i hi]; omega
  have hf : ∀ i (hi : i < caps.length), (caps.take i).sum + caps.getD i 0 ≤ caps.sum := fun i hi => by
    rw [hg i hi, ← take_sum_succ caps hi]; exact take_sum_le _ _
  refine ⟨h.num, ?_, fun i hi => h.readOff hi, ?_, fun _ _ => rfl, ?_, ?_, ?_, ?_, fun _ => lv, fun _ => le⟩
  · intro i hi; show (caps.take i).sum ≤ (caps.take (i + 1)).sum; rw [take_sum_succ caps hi]; omega
  · rw [← h.len]; exact h.siz.1.2
  · intro i hi
    have g := rowShape_good (szs.getD i 0) (caps.getD i 0)
    refine ⟨g.readOff (i := 0) (by simp), ?_⟩
    rw [hd i hi]
    have := g.readOff (i := 1) (by simp)
    rw [show (List.take 1 [caps.getD i 0]).sum = caps.getD i 0 by simp] at this
    exact this
  · intro i hi
    refine ⟨by simp [slices, rowShape], ?_⟩
    show cellsOf [szs.getD i 0] 0 = _
    rw [h.siz.1.1, cellsOf_lt (xs := szs) (by rw [h.len]; exact hi), cellsOf_lt (by simp)]
    simp [h.len, hi]
  · intro i hi
    rw [hd i hi]
    exact cut_part _ (Nat.le_trans (hf i hi) hv)
  · intro i hi
    rw [hd i hi]
    exact cut_part _ (Nat.le_trans (hf i hi) he)

/-- Slots of a layout belong to a row or lie behind all rows. -/
theorem slot_cases (L : Layout X) (k : Nat) :
    total L ≤ k ∨ ∃ (i : Nat) (xs : List X) (cap j : Nat), L[i]? = some (xs, cap) ∧ j < cap ∧ k = ((caps L).take i).sum + j := by
  induction L generalizing k with
  | nil => exact .inl (by simp)
  | cons r L ih =>
    obtain ⟨xs, cap⟩ := r
    by_cases hk : k < cap
    · exact .inr ⟨0, xs, cap, k, rfl, hk, by simp⟩
    · rcases ih (k - cap) with h | ⟨i, ys, d, j, h1, h2, h3⟩
      · left; simp only [total_cons]; omega
      · right
        refine ⟨i + 1, ys, d, j, by simpa using h1, h2, ?_⟩
        simp only [caps_cons, List.take_succ_cons, List.sum_cons]
        omega

theorem cells_slot {L : Layout X} {i : Nat} {xs : List X} {cap j : Nat} (h : L[i]? = some (xs, cap)) (hj : j < cap) :
    cells L (((caps L).take i).sum + j) = cellsOf xs j := by
  obtain ⟨hi, h1⟩ := List.getElem?_eq_some_iff.1 h
  obtain ⟨A, xs', cap', B, rfl, rfl, h2⟩ := split1 hi
  rw [h2] at h1
  cases h1
  rw [caps_take, List.take_left]
  exact cells_row A xs cap B j hj

/-- Cutting a good buffer. -/
theorem cut_lay {b : Buf X} {L : Layout X} (h : Lay b L) {i : Nat} {xs : List X} {cap : Nat} (hi : L[i]? = some (xs, cap)) :
    Lay (cut b ((caps L).take i).sum cap) [(xs, cap)] := by
  have hm : (xs, cap) ∈ L := List.mem_of_getElem? hi
  refine ⟨rfl, by simpa using h.fits _ hm, by simp [cut], ?_, rfl⟩
  funext k
  simp only [cut, cells]
  split
  · rw [h.cell, cells_slot hi ‹_›]
  · rfl

/-- Putting rows together. -/
theorem lay_join {b b' : Buf X} {L L' : Layout X} (h : Lay b L) (hk : b'.kind = b.kind) (hc : b'.cap = b.cap)
    (hr : ∀ k, total L ≤ k → b'.cell k = b.cell k) (he : caps L' = caps L) (hl : b'.lostLive = 0)
    (hm : ∀ (i : Nat) r, L'[i]? = some r → ∃ m, Part b' ((caps L).take i).sum r.2 m ∧ Lay m [r]) : Lay b' L' := by
  have ht : total L' = total L := by rw [← caps_sum, ← caps_sum, he]
  refine ⟨hk.trans h.kind, ?_, by rw [ht, hc]; exact h.room, ?_, hl⟩
  · intro r hr'
    obtain ⟨i, hi⟩ := List.getElem?_of_mem hr'
    obtain ⟨m, _, h2⟩ := hm i r hi
    exact h2.fits r (by simp)
  · funext k
    rcases slot_cases L' k with h1 | ⟨i, xs, cap, j, h1, h2, rfl⟩
    · rw [cells_ge h1, hr k (ht ▸ h1), h.cell, cells_ge (ht ▸ h1)]
    · rw [cells_slot h1 h2]
      obtain ⟨m, p, l⟩ := hm i _ h1
      rw [he, ← p.cell j h2, l.cell]
      simp [cells, h2]

variable {s s' : RowStore T V} {F : Family T V} {szs szs' caps : List Nat}

/-- The shape of a container whose rows have the sizes `szs'`. -/
theorem shape_join (h : ShGood s.shape szs caps) (hs : Sim caps.length (fun i => (caps.take i).sum) s' F)
    (hk : Kept caps.length (caps.take caps.length).sum s s') (hl : szs'.length = caps.length)
    (hF : ∀ (i : Nat) (n : Nat), szs'[i]? = some n → (F i).shape.sizes.cell 0 = .live n) : ShGood s'.shape szs' caps := by
  refine ⟨hs.num, hl, ?_, ⟨⟨?_, ?_⟩, ?_⟩⟩
  · rw [hk.offsets]; exact h.off
  · refine cellsOf_eq (fun k hk' => ?_) (fun k hk' => ?_)
    · have := hF k _ (List.getElem?_eq_getElem hk')
      rw [← (hs.rowSize k (by omega)).2, this]
    · rw [hk.size k (by omega), h.siz.1.1, cellsOf_ge (by rw [h.len]; omega)]
  · rw [hl]; exact hs.sizeCap
  · rw [hk.sizeKind]; exact h.siz.2

theorem row_cap (hs : Sim caps.length (fun i => (caps.take i).sum) s' F) {i n cap : Nat} (hi : i < caps.length)
    (hF : ShGood (F i).shape [n] [cap]) : cap = caps[i] := by
  have h1 := hF.readOff (i := 1) (by simp)
  have h2 := (hs.rowOff i hi).2
  rw [h1] at h2
  have := Except.ok.inj h2
  simp only [take_sum_succ caps hi] at this
  simp at this
  omega

/-! ### Programs keep the offsets -/

theorem act_offsets {cs : Cfgs} {a : Act T V} {i : Nat} {s s' : RowStore T V} (h : a.exec cs i s = .ok s') :
    s'.shape.offsets = s.shape.offsets := by
  cases a with
  | checkRow => obtain ⟨_, _, h⟩ := bind_eq_ok.1 h; cases h; rfl
  | base => obtain ⟨_, _, h⟩ := bind_eq_ok.1 h; cases h; rfl
  | setSize n =>
    obtain ⟨sh, h1, h⟩ := bind_eq_ok.1 h
    cases h
    obtain ⟨_, h2⟩ := bind_eq_ok.1 h1
    obtain ⟨b, _, h3⟩ := bind_eq_ok.1 h1
    cases h3; rfl
  | onValue b =>
    obtain ⟨_, _, h⟩ := bind_eq_ok.1 h
    obtain ⟨_, _, h⟩ := bind_eq_ok.1 h
    cases h; rfl
  | onEntry b =>
    obtain ⟨_, _, h⟩ := bind_eq_ok.1 h
    obtain ⟨_, _, h⟩ := bind_eq_ok.1 h
    cases h; rfl

theorem run_offsets {α I : Type} {cs : Cfgs} {row : I → Nat} {p : Prog I T V α} {s s' : RowStore T V} {x : α}
    (h : p.run cs row s = .ok (x, s')) : s'.shape.offsets = s.shape.offsets := by
  induction p generalizing s with
  | ret y => cases h; rfl
  | fail e => cases h
  | act i a k ih =>
    obtain ⟨s1, h1, h2⟩ := bind_eq_ok.1 h
    exact (ih h2).trans (act_offsets h1)
  | num i q k ih => obtain ⟨s1, h1, h2⟩ := bind_eq_ok.1 h; exact ih _ h2
  | val i q k ih => obtain ⟨s1, h1, h2⟩ := bind_eq_ok.1 h; exact ih _ h2
  | ent i q k ih => obtain ⟨s1, h1, h2⟩ := bind_eq_ok.1 h; exact ih _ h2

end LvArray.Parallel

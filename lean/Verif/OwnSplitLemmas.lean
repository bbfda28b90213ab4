import Verif.OwnRowsLemmas

/-!
# Inserting a part of a row into itself, at a position inside that part

The loop reads elements it has constructed itself.
-/

namespace LvArray

open Layout Spec

variable {T : Type}

/-- The loop repeats the `d` elements in front of the position. -/
theorem constructOwn_split (c : Cfg) (a : AoA T) (b : Buf T) (p d n : Nat) (x : Nat → T) (hd : 0 < d) (hsame : b.cap = a.values.cap)
    (hcap : p + d + n ≤ b.cap) (hr : ∀ k, p + d ≤ k → k < p + d + n → b.cell k = .raw) (hx : ∀ k, k < d → b.cell (p + k) = .live (x k)) :
    a.constructOwn c b (p + d) p n = arrayManipulation.constructRange c b (p + d) n (fun i => x (i % d)) := by
  rw [arrayManipulation.constructRange_eq c b (p + d) n _ (.inr hcap) hr]
  unfold AoA.constructOwn
  have := forUp_eq (f := fun k (b : Buf T) => do
      let v ← a.readOwn c b (p + k)
      b.construct c (p + d + k) v)
    (fun i => { b with cell := fun k => if p + d ≤ k ∧ k < p + d + i then .live (x ((k - (p + d)) % d)) else b.cell k })
    n 0 (s := b) ?_ ?_
  · rw [this, Nat.zero_add]
  · cases b; simp only [Buf.mk.injEq, true_and, and_true]; funext k; grind
  · intro i _ hi
    have hcell : (if p + d ≤ p + i ∧ p + i < p + d + i then Cell.live (x ((p + i - (p + d)) % d)) else b.cell (p + i)) = .live (x (i % d)) := by
      by_cases h : i < d
      · rw [if_neg (by omega), hx i h, Nat.mod_eq_of_lt h]
      · rw [if_pos (by omega), show p + i - (p + d) = i - d by omega, ← Nat.mod_eq_sub_mod (by omega)]
    have hread : a.readOwn c { b with cell := fun k => if p + d ≤ k ∧ k < p + d + i then .live (x ((k - (p + d)) % d)) else b.cell k }
        (p + i) = .ok (x (i % d)) := by
      unfold AoA.readOwn Buf.readStale Buf.read
      simp only
      rw [if_neg (by omega), hcell]
      simp only
      rw [if_pos (by omega)]
    rw [hread, bind_ok, arrayManipulation.construct_eq]
    · simp only [Except.ok.injEq, Buf.mk.injEq, true_and, and_true]
      funext k
      unfold upd
      by_cases hk : k = p + d + i
      · subst hk
        rw [if_pos rfl, if_pos (by omega), Nat.add_sub_cancel_left]
      · rw [if_neg hk]
        show (if p + d ≤ k ∧ k < p + d + i then Cell.live (x ((k - (p + d)) % d)) else b.cell k) = _
        by_cases hk2 : p + d ≤ k ∧ k < p + d + i
        · rw [if_pos hk2, if_pos (by omega)]
        · rw [if_neg hk2, if_neg (by omega)]
    · show p + d + i < b.cap; omega
    · show (if _ then _ else _) = _
      rw [if_neg (by omega)]
      exact hr _ (by omega) (by omega)

namespace AGood

variable {a a1 : AoA T} {A B L : Layout T} {xs : List T} {cap : Nat} {c : Cfg}

/-- `insertIntoArray` in the view, when there is room. -/
theorem viewInsertSplit [Inhabited T] {lo pos n : Nat} (h : AGood a1 (A ++ (xs, cap) :: B)) (hsame : a1.values.cap = a.values.cap)
    (hlo : lo < pos) (hpos : pos ≤ xs.length) (hn : 0 < n) (hroom : xs.length + n ≤ cap) :
    AoA.viewInsertOwn c a a1 A.length pos (total A + lo) n =
      a1.viewInsertIntoArray c A.length pos ((List.range n).map fun k => xs.getD (lo + k % (pos - lo)) default) := by
  have hrm := h.lay.room
  simp at hrm
  have hcell : ∀ j, j < cap → a1.values.cell (total A + j) = cellsOf xs j := fun j hj => by
    rw [h.lay.cell, cells_row _ _ _ _ _ hj]
  have hshift := arrayManipulation.shiftUp_eq c a1.values (total A) xs.length pos n hpos (by omega)
    (fun k h1 h2 => by
      obtain ⟨j, rfl⟩ : ∃ j, k = total A + j := ⟨k - total A, by omega⟩
      rw [hcell j (by omega)]; exact cellsOf_isLive (by omega))
    (fun k h1 h2 => by
      obtain ⟨j, rfl⟩ : ∃ j, k = total A + j := ⟨k - total A, by omega⟩
      rw [hcell j (by omega)]; exact cellsOf_ge (by omega))
  generalize hb : ({ a1.values with
        cell := fun k =>
          if k < total A + pos then a1.values.cell k
          else if k < total A + pos + n then .raw
          else if k < total A + xs.length + n then a1.values.cell (k - n)
          else a1.values.cell k
        lostMoved := a1.values.lostMoved + arrayManipulation.shiftUpLost c xs.length pos n
        moves := a1.values.moves + arrayManipulation.shiftMoves xs.length pos n } : Buf T) = b at hshift
  have hbcap : b.cap = a1.values.cap := by rw [← hb]
  have hbcell : b.cell = fun k =>
          if k < total A + pos then a1.values.cell k
          else if k < total A + pos + n then .raw
          else if k < total A + xs.length + n then a1.values.cell (k - n)
          else a1.values.cell k := by rw [← hb]
  have hq : total A + lo + (pos - lo) = total A + pos := by omega
  have key := constructOwn_split c a b (total A + lo) (pos - lo) n (fun k => xs.getD (lo + k) default) (by omega) (by omega) (by omega)
    (fun k h1 h2 => by
      rw [hbcell]; simp only
      rw [if_neg (by omega), if_pos (by omega)])
    (fun k hk => by
      rw [hbcell]; simp only
      rw [if_pos (by omega), Nat.add_assoc, hcell _ (by omega), cellsOf_lt (by omega), List.getD_eq_getElem?_getD,
        List.getElem?_eq_getElem (by omega)]
      rfl)
  rw [hq] at key
  unfold AoA.viewInsertOwn AoA.viewInsertIntoArray arrayManipulation.insert
  have hl : ((List.range n).map fun k => xs.getD (lo + k % (pos - lo)) default).length = n := by simp
  rw [ShGood.checkInsertBounds2 h.shape (by simp) (by simpa [szs] using hpos), bind_ok, h.capCheck hroom, bind_ok, h.ptr, bind_ok,
    h.shape.sizeOfAt rfl, bind_ok, arrayManipulation.assertNonNull_ok c _ _ (by omega), bind_ok,
    arrayManipulation.checkInsertBounds_ok c _ _ hpos, bind_ok, hl, h.capCheck hroom, bind_ok, bind_ok, bind_ok, bind_ok]
  simp only
  have hcr : arrayManipulation.constructRange c b (total A + pos) n (fun i => xs.getD (lo + i % (pos - lo)) default) =
      arrayManipulation.constructRange c b (total A + pos) n
        (fun i => ((List.range n).map fun k => xs.getD (lo + k % (pos - lo)) default).getD i default) := by
    have hraw : ∀ k, total A + pos ≤ k → k < total A + pos + n → b.cell k = .raw := fun k h1 h2 => by
      rw [hbcell]; simp only
      rw [if_neg (by omega), if_pos (by omega)]
    rw [arrayManipulation.constructRange_eq c b _ n _ (.inr (by omega)) hraw, arrayManipulation.constructRange_eq c b _ n _ (.inr (by omega)) hraw]
    simp only [Except.ok.injEq, Buf.mk.injEq, true_and, and_true]
    funext k
    split
    · rename_i hk
      have hg : ∀ (f : Nat → T) (j : Nat), j < n → ((List.range n).map f).getD j default = f j := fun f j hj => by
        rw [List.getD_eq_getElem?_getD, List.getElem?_map, List.getElem?_range hj]; rfl
      rw [hg _ _ (by omega)]
    · rfl
  rw [hshift, bind_ok, bind_ok, key, hcr, arrayManipulation.assertNonNull_ok c a1.values _ (by omega),
    arrayManipulation.checkInsertBounds_ok c xs.length pos hpos]
  rfl

/-- `insertIntoArray` of the owning class, when there is room. -/
theorem insertSplit [Inhabited T] {lo pos n : Nat} (h : AGood a (A ++ (xs, cap) :: B)) (hlo : lo < pos) (hpos : pos ≤ xs.length) (hn : 0 < n)
    (hle : total (A ++ (xs, grownTo xs cap n) :: B) ≤ a.values.cap) :
    ∃ a', (a.dynamicallyGrowArray c A.length n >>= fun a1 => AoA.viewInsertOwn c a a1 A.length pos (total A + lo) n) = .ok a' ∧
      AGood a' (A ++ (xs.take pos ++ ((List.range n).map fun k => xs.getD (lo + k % (pos - lo)) default) ++ xs.drop pos, grownTo xs cap n) :: B) := by
  obtain ⟨a1, h1, h2, h3⟩ := (h.growCases (c := c) n).1 hle
  rw [h1, bind_ok, h2.viewInsertSplit h3 hlo hpos hn (le_grownTo _ _ _)]
  have hl : ((List.range n).map fun k => xs.getD (lo + k % (pos - lo)) default).length = n := by simp
  obtain ⟨a', e, g, _⟩ := h2.viewInsert (c := c) pos hpos ((List.range n).map fun k => xs.getD (lo + k % (pos - lo)) default)
    (by rw [hl]; exact le_grownTo _ _ _) (fun _ => .inl (fun h0 => by rw [h0] at hl; simp at hl; omega))
  exact ⟨a', e, g⟩

end AGood

end LvArray

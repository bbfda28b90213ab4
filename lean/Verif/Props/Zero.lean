import Verif.Zero
import Verif.Props.MatrixViews

/-!
# C87: `zero()` of a `CRSMatrix`
-/

namespace LvArray.Props

open LvArray Layout Spec RowCaps MatrixCaps

variable {V : Type} {c : Cfg}

section
variable {B : Bytes V} {word bits cap size : Nat}

theorem zeroBytes_exact (h1 : bits ≤ word) (h2 : cap * size < 2 ^ (bits - 1)) : zeroBytes word bits cap size = cap * size := by
  have hp : 2 ^ (bits - 1) ≤ 2 ^ bits := Nat.pow_le_pow_right (by omega) (by omega)
  have hq : 2 ^ bits ≤ 2 ^ word := Nat.pow_le_pow_right (by omega) h1
  unfold zeroBytes
  rw [Nat.mod_eq_of_lt (show cap * size < 2 ^ word by omega), Nat.mod_eq_of_lt (show cap * size < 2 ^ bits by omega)]
  exact if_pos h2

theorem zeroBytes_none (h1 : bits ≤ word) (h : 2 ^ bits ∣ cap * size) : zeroBytes word bits cap size = 0 := by
  have hd : cap * size % 2 ^ word % 2 ^ bits = 0 := by
    rw [Nat.mod_mod_of_dvd _ (Nat.pow_dvd_pow 2 h1)]
    exact Nat.mod_eq_zero_of_dvd h
  unfold zeroBytes
  rw [hd]
  exact if_pos (Nat.pow_pos (by omega))

theorem zeroBytes_huge (h1 : bits < word) (h2 : cap * size < 2 ^ (word - 1)) (h : 2 ^ (bits - 1) ≤ cap * size % 2 ^ bits) :
    cap * size < zeroBytes word bits cap size := by
  have hd : cap * size % 2 ^ word % 2 ^ bits = cap * size % 2 ^ bits := Nat.mod_mod_of_dvd _ (Nat.pow_dvd_pow 2 (by omega))
  have e : 2 ^ word = 2 * 2 ^ (word - 1) := by
    rw [← Nat.pow_succ', show (word - 1).succ = word by omega]
  have hq : 2 ^ bits ≤ 2 ^ (word - 1) := Nat.pow_le_pow_right (by omega) (by omega)
  have hpos : 0 < 2 ^ (bits - 1) := Nat.pow_pos (by omega)
  unfold zeroBytes
  rw [hd]
  simp only
  rw [if_neg (by omega)]
  omega

/-! ## `memset` on a layout -/

theorem cells_clear {X : Type} (g : X → X) : ∀ (L : Layout X) (k : Nat),
    cells (L.map fun r => (r.1.map g, r.2)) k = match cells L k with | .live v => .live (g v) | x => x
  | [], k => rfl
  | (xs, cap) :: L, k => by
    simp only [List.map_cons, cells]
    split
    · unfold cellsOf
      rw [List.getElem?_map]
      cases xs[k]? <;> rfl
    · exact cells_clear g L (k - cap)

theorem lay_memset {b : Buf V} {L : Layout V} (h : Lay b L) :
    ∃ b', b.memset B (b.cap * B.size) = .ok b' ∧ Lay b' (L.map fun r => (r.1.map fun _ => B.zero, r.2)) ∧ b'.cap = b.cap := by
  refine ⟨{ b with cell := fun k => clearCell B (b.cap * B.size) k (b.cell k) }, ?_, ⟨h.kind, ?_, ?_, ?_, h.lost⟩, rfl⟩
  · unfold Buf.memset
    rw [if_neg (by omega)]
  · intro r hr
    obtain ⟨q, hq, rfl⟩ := List.mem_map.1 hr
    simpa using h.fits q hq
  · have := h.room
    simpa [total, Function.comp_def] using this
  · funext k
    rw [cells_clear]
    show clearCell B (b.cap * B.size) k (b.cell k) = _
    rw [h.cell]
    by_cases hk : k < b.cap
    · have : min B.size (b.cap * B.size - k * B.size) = B.size := by
        rw [← Nat.sub_mul]
        have : B.size ≤ (b.cap - k) * B.size := Nat.le_mul_of_pos_left _ (by omega)
        omega
      cases cells L k with
      | live v => show Cell.live (B.clear _ v) = _; rw [this, B.clear_all]
      | _ => rfl
    · rw [cells_ge (by have := h.room; omega)]
      rfl

theorem memset_none (b : Buf V) : b.memset B 0 = .ok b := by
  unfold Buf.memset
  rw [if_neg (by omega)]
  congr
  have : (fun k => clearCell B 0 k (b.cell k)) = b.cell := by
    funext k
    cases b.cell k with
    | live v => simp [clearCell, B.clear_none]
    | _ => rfl
  rw [this]

end

/-- The row list of a row whose entries all became `v`. -/
theorem rowList_allEqual (v : V) (n : Nat) (f : Nat → Option V) :
    rowList n (fun j => (f j).map fun _ => v) = (rowList n f).map fun x => (x.1, v) := by
  induction n with
  | zero => rfl
  | succ n ih =>
    rw [rowList_succ, rowList_succ, ih, List.map_append]
    congr 1
    cases f n <;> simp

theorem crs_zero {B : Bytes V} {word bits : Nat} {m : Crs V} {M : Spec.Matrix V} (h : CrsGood m M) (h1 : bits ≤ word)
    (h2 : m.entries.cap * B.size < 2 ^ (bits - 1)) :
    ∃ m', m.zero B word bits = .ok m' ∧ CrsGood m' (M.allEqual B.zero) ∧ m'.shape = m.shape ∧ roomC m' = roomC m := by
  obtain ⟨L, hg, hL⟩ := h.rows
  obtain ⟨b', k1, k2, k3⟩ := lay_memset (B := B) hg.layE
  have hok : m.zero B word bits = .ok { m with entries := b' } := by
    unfold Crs.zero
    rw [zeroBytes_exact h1 h2]
    by_cases h0 : 0 < m.entries.cap
    · rw [if_pos h0, k1, bind_ok]
    · rw [if_neg h0]
      have : b' = m.entries := by
        have k0 := memset_none (B := B) m.entries
        rw [show m.entries.cap * B.size = 0 by rw [show m.entries.cap = 0 by omega]; simp, k0] at k1
        exact (Except.ok.inj k1).symm
      rw [this]
  let L' : Layout (Nat × V) := L.map fun r => (r.1.map fun x => (x.1, B.zero), r.2)
  have e1 : mapL Prod.fst L' = mapL Prod.fst L := by simp [L', mapL, Function.comp_def]
  have e2 : mapL Prod.snd L' = (mapL Prod.snd L).map fun r => (r.1.map fun _ => B.zero, r.2) := by
    simp [L', mapL, Function.comp_def]
  refine ⟨_, hok, ⟨h.cols, ⟨L', ⟨?_, ?_, ?_⟩, ?_⟩, ?_⟩, rfl, ?_⟩
  · have := LShape_mapL (g := Prod.fst) (s := m.shape) (L := L)
    rw [← e1, LShape_mapL] at this
    exact this.2 hg.shape
  · rw [e1]; exact hg.layC
  · rw [e2]; exact k2
  · have := congrArg (List.map (List.map fun x : Nat × V => (x.1, B.zero))) hL
    simp only [List.map_map, Function.comp_def, L', Spec.Matrix.allEqual] at this ⊢
    rw [this]
    simp [rowList_allEqual]
  · intro f hf
    simp only [Spec.Matrix.allEqual, List.mem_map] at hf
    obtain ⟨g, hg, rfl⟩ := hf
    intro k hk
    exact h.inRange g hg k (by simpa using hk)
  · unfold roomC
    simp [k3]

variable [Add V]

/-- **C87** (partial).  After every legal program with a matrix and views of it: `zero()` leaves the matrix with the same non zeros,
all with the value whose bytes are zero, and nothing else changes, so that every program that is legal afterwards gets the answers
it should, on the matrix and through the views.  The hypothesis `hfit` is what the property does not have: the bytes of the room for
entries must be fewer than `INDEX_TYPE` can count. -/
theorem C87_zero_partial (c : Cfg) (ht : c.trivial = true) (B : Bytes V) (word bits : Nat) (hbits : bits ≤ word)
    (colMax rows columns capacity : Nat) (hn : columns ≤ colMax + 1)
    (program : List (MatStmt V)) {s : MatShelf V} {answers : List (AoSOut (Nat ⊕ V))}
    (h : matRun colMax (MatShelf.init V rows columns capacity) program = some (s, answers))
    (hfit : s.room.values * B.size < 2 ^ (bits - 1))
    (rest : List (MatStmt V)) {s' : MatShelf V} {more : List (AoSOut (Nat ⊕ V))}
    (hrest : matRun colMax { s with matrix := s.matrix.allEqual B.zero } rest = some (s', more)) :
    ∃ w0 w w1 w2 : MatWorld V, MatWorld.construct c colMax rows columns capacity = .ok w0 ∧
      w0.run c colMax program = .ok (w, answers) ∧ w.zero B word bits = .ok w1 ∧ w1.run c colMax rest = .ok (w2, more) := by
  obtain ⟨w0, h1, I⟩ := MatInv.start (V := V) (c := c) (r := rows) (k := capacity) hn
  obtain ⟨w, h2, I⟩ := I.run ht h
  have hcap : w.obj.entries.cap = s.room.values := congrArg Four.entries I.room
  obtain ⟨m', k1, k2, k3, k4⟩ := crs_zero (B := B) I.good hbits (by rw [hcap]; exact hfit)
  have I' : MatInv { w with obj := m' } { s with matrix := s.matrix.allEqual B.zero } := by
    refine ⟨k2, ?_, k4.trans I.room, I.addr, I.none, ?_⟩
    · show RepM m'.shape.offsets _
      rw [k3]; exact I.caps
    · intro v p q e1 e2
      have r := I.view v p q e1 e2
      exact ⟨r.num, r.cols, r.sizes, r.offsets, r.columns, r.entries, r.known, r.past⟩
  obtain ⟨w2, h3, _⟩ := I'.run ht hrest
  refine ⟨w0, w, _, w2, h1, h2, ?_, h3⟩
  unfold MatWorld.zero
  rw [k1, bind_ok]

/-- **C87** (what is missing: nothing happens).  After every legal program: when the bytes of the room for entries are a multiple of
`2 ^ bits`, `zero()` returns and nothing has changed: every program that is legal afterwards gets the answers it would have got
without. -/
theorem C87_nothing (c : Cfg) (ht : c.trivial = true) (B : Bytes V) (word bits : Nat) (hbits : bits ≤ word)
    (colMax rows columns capacity : Nat) (hn : columns ≤ colMax + 1)
    (program : List (MatStmt V)) {s : MatShelf V} {answers : List (AoSOut (Nat ⊕ V))}
    (h : matRun colMax (MatShelf.init V rows columns capacity) program = some (s, answers))
    (hwrap : 2 ^ bits ∣ s.room.values * B.size)
    (rest : List (MatStmt V)) {s' : MatShelf V} {more : List (AoSOut (Nat ⊕ V))} (hrest : matRun colMax s rest = some (s', more)) :
    ∃ w0 w w1 w2 : MatWorld V, MatWorld.construct c colMax rows columns capacity = .ok w0 ∧
      w0.run c colMax program = .ok (w, answers) ∧ w.zero B word bits = .ok w1 ∧ w1.run c colMax rest = .ok (w2, more) := by
  obtain ⟨w0, h1, I⟩ := MatInv.start (V := V) (c := c) (r := rows) (k := capacity) hn
  obtain ⟨w, h2, I⟩ := I.run ht h
  have hcap : w.obj.entries.cap = s.room.values := congrArg Four.entries I.room
  obtain ⟨w2, h3, _⟩ := I.run ht hrest
  refine ⟨w0, w, w, w2, h1, h2, ?_, h3⟩
  have : w.obj.zero B word bits = .ok w.obj := by
    unfold Crs.zero
    rw [hcap, zeroBytes_none hbits hwrap, memset_none, bind_ok]
    simp
  unfold MatWorld.zero
  rw [this, bind_ok]

/-- **C87** (what is missing: memory of others).  After every legal program: when the bytes of the room for entries, cut off to
`bits` bits, are a negative number, `zero()` is undefined behaviour: `memset` is told to write more bytes than there are. -/
theorem C87_overrun (c : Cfg) (ht : c.trivial = true) (B : Bytes V) (word bits : Nat) (hbits : bits < word)
    (colMax rows columns capacity : Nat) (hn : columns ≤ colMax + 1)
    (program : List (MatStmt V)) {s : MatShelf V} {answers : List (AoSOut (Nat ⊕ V))}
    (h : matRun colMax (MatShelf.init V rows columns capacity) program = some (s, answers))
    (hmem : s.room.values * B.size < 2 ^ (word - 1)) (hneg : 2 ^ (bits - 1) ≤ s.room.values * B.size % 2 ^ bits) :
    ∃ w0 w : MatWorld V, MatWorld.construct c colMax rows columns capacity = .ok w0 ∧ w0.run c colMax program = .ok (w, answers) ∧
      w.zero B word bits = .error (.ub .outOfBounds) := by
  obtain ⟨w0, h1, I⟩ := MatInv.start (V := V) (c := c) (r := rows) (k := capacity) hn
  obtain ⟨w, h2, I⟩ := I.run ht h
  have hcap : w.obj.entries.cap = s.room.values := congrArg Four.entries I.room
  refine ⟨w0, w, h1, h2, ?_⟩
  have h0 : 0 < s.room.values := by
    rcases Nat.eq_zero_or_pos s.room.values with e | e
    · rw [e, Nat.zero_mul, Nat.zero_mod] at hneg
      have : 0 < 2 ^ (bits - 1) := Nat.pow_pos (by omega)
      omega
    · exact e
  have : w.obj.zero B word bits = .error (.ub .outOfBounds) := by
    unfold Crs.zero Buf.memset
    rw [hcap, if_pos h0, if_pos (zeroBytes_huge hbits hmem hneg), bind_err]
  unfold MatWorld.zero
  rw [this, bind_err]

/-- Values of four bytes, the lowest first: what is left of a number when its lowest bytes are set to zero. -/
def fourBytes : Bytes Nat where
  size := 4
  clear n v := v % 2 ^ 32 / 2 ^ (8 * n) * 2 ^ (8 * n) + (if n = 0 then v / 2 ^ 32 * 2 ^ 32 else 0)
  zero := 0
  size_pos := by decide
  clear_none v := by simp; omega
  clear_all v := by simp

/-- A matrix with three non zeros and a view. -/
def zeroable : List (MatStmt Nat) := [.call (.insertMany 0 [(1, 7), (3, 8)]), .call (.insert 1 0 9), .take 0]

/-- The hypotheses of `C87_zero_partial`: 4 entries of 4 bytes. -/
example : (matRun 9 (MatShelf.init Nat 2 4 2) zeroable).map (fun r => (r.1.room.values,
    (matRun 9 { r.1 with matrix := r.1.matrix.allEqual 0 } [.call (.getEntry 0 1), .via 0 (.getColumn 0 1), .via 0 (.getEntry 1 0),
      .call .numNonZeros]).map (·.2))) =
    some (4, some [.val (.inr 0), .val (.inl 3), .val (.inr 0), .num 3]) := by rfl

example : 4 * fourBytes.size < 2 ^ (32 - 1) := by decide

/-- The hypotheses of `C87_nothing`: `INDEX_TYPE` has 32 bits, and there is room for `2 ^ 30` entries of four bytes. -/
example : (matRun 9 (MatShelf.init Nat 2 4 2) (zeroable ++ [.call (.reserveNonZerosTotal (2 ^ 30))])).map (fun r => (r.1.room.values,
    (matRun 9 r.1 [.call (.getEntry 0 1)]).map (·.2))) = some (2 ^ 30, some [.val (.inr 8)]) := by rfl

example : 2 ^ 32 ∣ 2 ^ 30 * fourBytes.size := by decide

/-- The hypotheses of `C87_overrun`: `INDEX_TYPE` has 32 bits, and there is room for `2 ^ 29` entries of four bytes. -/
example : (matRun 9 (MatShelf.init Nat 2 4 2) (zeroable ++ [.call (.reserveNonZerosTotal (2 ^ 29))])).map (·.1.room.values) =
    some (2 ^ 29) := by rfl

example : 2 ^ 29 * fourBytes.size < 2 ^ (64 - 1) ∧ 2 ^ (32 - 1) ≤ 2 ^ 29 * fourBytes.size % 2 ^ 32 := by decide

end LvArray.Props

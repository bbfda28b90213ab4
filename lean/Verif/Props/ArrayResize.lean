import Verif.ArrayNDLemmas
import Verif.Props.Indexing

/-!
# C10, C11, C12: shape changes and copies of multi-dimensional arrays

`a.get c idx` is `a( idx... )`, `a.buf.read m` is `a.data()[ m ]`.
-/

namespace LvArray.Props

open indexing Spec bufferManipulation

variable {T : Type}

/-- The states an array is in between calls: its strides are those of its shape, and its storage holds one initialised
element for each of the `dims.prod` positions and nothing else. -/
structure Wf (a : ArrayN T) : Prop where
  perm : typeManipulation.isValidPermutation a.perm = true
  len : a.perm.length = a.dims.length
  strides : a.strides = calculateStrides a.perm a.dims
  index : a.resizeIndex < a.dims.length
  data : ∃ xs, Rep a.buf xs ∧ xs.length = a.dims.prod

theorem Wf.view {a : ArrayN T} (h : Wf a) : a.view = layout a.perm a.dims := by
  unfold ArrayN.view layout; rw [h.strides]

theorem Wf.isPerm {a : ArrayN T} (h : Wf a) : IsPermutation a.perm a.dims.length :=
  isPermutation_of_valid h.perm h.len

theorem Wf.size {a : ArrayN T} : a.size = a.dims.prod := multiplyAll_eq _

theorem get_of_cell {a : ArrayN T} (hs : a.strides = calculateStrides a.perm a.dims)
    (hp : IsPermutation a.perm a.dims.length) (c : Cfg) {idx : List Int} {m : Nat} {x : T}
    (hi : InBounds a.dims idx) (hm : horner (reorder a.perm a.dims) (reorder a.perm idx) = (m : Int))
    (hc : m < a.buf.cap) (hx : a.buf.cell m = .live x) : a.get c idx = .ok x := by
  have hv : a.view = layout a.perm a.dims := by unfold ArrayN.view layout; rw [hs]
  unfold ArrayN.get
  rw [hv, call_ok hp c hi, bind_ok, hm, if_neg (by omega), Int.toNat_natCast]
  unfold Buf.read
  rw [if_pos hc, hx]

theorem inBounds_set_iff {dims : List Nat} {idx : List Int} {k n m : Nat} (hk : k < dims.length)
    (h : InBounds (dims.set k n) idx) : InBounds (dims.set k m) idx ↔ idx.getD k 0 < m := by
  rw [inBounds_iff] at h ⊢
  simp only [List.length_set] at h ⊢
  constructor
  · intro h2
    have := h2.2 k hk
    simpa [List.getD_eq_getElem?_getD, hk] using this.2
  · intro hlt
    refine ⟨h.1, fun j hj => ?_⟩
    have := h.2 j hj
    by_cases e : k = j
    · subst e
      refine ⟨this.1, ?_⟩
      simpa [List.getD_eq_getElem?_getD, hk] using hlt
    · simpa [List.getD_eq_getElem?_getD, List.getElem?_set_ne e] using this

theorem set_self (dims : List Nat) (k : Nat) : dims.set k (dims.getD k 0) = dims := by
  by_cases h : k < dims.length
  · rw [List.getD_eq_getElem?_getD, List.getElem?_eq_getElem h]; simp
  · exact List.set_eq_of_length_le (by omega)

theorem buf_resize_abort (c : Cfg) {b : Buf T} {xs : List T} (h : Rep b xs) (n : Nat) (v : T) (hr : ¬ b.room n) :
    bufferManipulation.resize c b xs.length n v = .error .abort := by
  unfold bufferManipulation.resize
  rw [check_ok c b _ h.2, bind_ok, reserve_abort c h.2 n hr, bind_err]

/-- **C10.** Single parameter `resize( n )` / `resizeDefault( n, v )`, for every permutation, shape, selected dimension,
contents and new length (`v` is `T()` for `resize`): a negative length aborts, a fixed buffer that is too small aborts,
and otherwise the selected dimension has the new length, every element in bounds both before and after keeps its value,
every other one reads `v`, and the array is again one whose elements are all initialised (`Wf`).  No live object is
forgotten. -/
theorem C10_resize_preserves (c : Cfg) (a : ArrayN T) (h : Wf a) (n : Int) (v : T) :
    (n < 0 → a.resizeDefaultDimension c n v = .error .abort) ∧
    (0 ≤ n → ¬ a.buf.room (a.dims.set a.resizeIndex n.toNat).prod →
      a.resizeDefaultDimension c n v = .error .abort) ∧
    (0 ≤ n → a.buf.room (a.dims.set a.resizeIndex n.toNat).prod →
      ∃ a', a.resizeDefaultDimension c n v = .ok a' ∧ Wf a' ∧ a'.perm = a.perm ∧ a'.resizeIndex = a.resizeIndex ∧
        a'.dims = a.dims.set a.resizeIndex n.toNat ∧
        (∀ idx, InBounds a.dims idx → InBounds a'.dims idx → a'.get c idx = a.get c idx) ∧
        (∀ idx, ¬ InBounds a.dims idx → InBounds a'.dims idx → a'.get c idx = .ok v) ∧
        a'.buf.kind = a.buf.kind ∧ a'.buf.lostLive = a.buf.lostLive) := by
  obtain ⟨hpv, hlen, hst, hix, xs, hrep, hxs⟩ := h
  have hp := isPermutation_of_valid hpv hlen
  have hsz : a.size = xs.length := by rw [hxs]; exact multiplyAll_eq _
  refine ⟨fun hn => ?_, fun hn hroom => ?_, fun hn hroom => ?_⟩
  · unfold ArrayN.resizeDefaultDimension
    rw [show decide (n < 0) = true by simpa using hn, errorIf_true, bind_err]
  · have hbig : xs.length < (a.dims.set a.resizeIndex n.toNat).prod := by
      unfold Buf.room at hroom; have := hrep.2; omega
    obtain ⟨outer, inner, N, st, hN, hsplit⟩ := address_split hp hix
    have e1 := (hsplit (a.dims.getD a.resizeIndex 0)).2.1
    have e2 := (hsplit n.toNat).2.1
    rw [set_self, ← hxs] at e1
    unfold ArrayN.resizeDefaultDimension
    rw [show decide (n < 0) = false by simpa using hn, errorIf_false, bind_ok]
    simp only [hsz]
    have hs2 : ({ a with dims := a.dims.set a.resizeIndex n.toNat, strides := calculateStrides a.perm (a.dims.set a.resizeIndex n.toNat) } : ArrayN T).size = (a.dims.set a.resizeIndex n.toNat).prod := multiplyAll_eq _
    rw [hs2]
    split
    · rw [buf_resize_abort c hrep _ v hroom, bind_err]
    · rw [if_neg (by omega), if_pos, reserve_abort c hrep.2 _ hroom, bind_err]
      refine Decidable.byContradiction fun hle => ?_
      have m1 : st * n.toNat * N ≤ st * a.dims.getD a.resizeIndex 0 * N :=
        Nat.mul_le_mul_right _ (Nat.mul_le_mul_left _ (Nat.le_of_not_lt hle))
      omega
  · obtain ⟨outer, inner, N, st, hN, hsplit⟩ := address_split hp hix
    have hold := hsplit (a.dims.getD a.resizeIndex 0)
    have hnew := hsplit n.toNat
    rw [set_self] at hold
    have hpn : IsPermutation a.perm (a.dims.set a.resizeIndex n.toNat).length := by simpa using hp
    generalize hm : a.dims.getD a.resizeIndex 0 = m at *
    have hs2 : multiplyAll (a.dims.set a.resizeIndex n.toNat) = (a.dims.set a.resizeIndex n.toNat).prod :=
      multiplyAll_eq _
    -- the old value at an index
    have hget : ∀ idx (hi : InBounds a.dims idx) (k : Nat) (hk : k < xs.length),
        horner (reorder a.perm a.dims) (reorder a.perm idx) = (k : Int) → a.get c idx = .ok xs[k] := by
      intro idx hi k hk he
      exact get_of_cell hst hp c hi he (by have := hrep.2; omega) (by rw [hrep.1, cellsOf_lt hk])
    -- it is enough to describe the cells of the new buffer
    suffices hsuf : ∃ b', a.resizeDefaultDimension c n v = .ok { a with
          dims := a.dims.set a.resizeIndex n.toNat
          strides := calculateStrides a.perm (a.dims.set a.resizeIndex n.toNat), buf := b' } ∧
        (a.dims.set a.resizeIndex n.toNat).prod ≤ b'.cap ∧ b'.kind = a.buf.kind ∧ b'.lostLive = a.buf.lostLive ∧
        (∀ q j, q < N → j < st * n.toNat →
          b'.cell (st * n.toNat * q + j) = if j < st * m then cellsOf xs (st * m * q + j) else .live v) ∧
        (∀ k, st * n.toNat * N ≤ k → b'.cell k = .raw) by
      obtain ⟨b', hb, hcap, hkind, hlost, hcells, hraw⟩ := hsuf
      have hxs' : xs.length = st * m * N := by rw [hxs]; exact hold.2.1
      have hlt : ∀ q j, q < N → j < st * m → st * m * q + j < xs.length := by
        intro q j hq hj
        have := Nat.mul_le_mul_left (st * m) hq
        rw [Nat.mul_succ] at this; omega
      have hrep' : ∃ ys, Rep b' ys ∧ ys.length = (a.dims.set a.resizeIndex n.toNat).prod := by
        refine exists_rep (fun k hk => ?_) (fun k hk => hraw k (by rw [← hnew.2.1]; exact hk)) hcap
        rw [hnew.2.1] at hk
        have hpos : 0 < st * n.toNat := Nat.pos_of_ne_zero (fun h0 => by rw [h0] at hk; omega)
        have hq : k / (st * n.toNat) < N := Nat.div_lt_of_lt_mul hk
        have hj : k % (st * n.toNat) < st * n.toNat := Nat.mod_lt _ hpos
        have := hcells _ _ hq hj
        rw [Nat.div_add_mod] at this
        rw [this]
        split
        · rename_i hj2
          rw [cellsOf_lt (hlt _ _ hq hj2)]; rfl
        · rfl
      refine ⟨_, hb, ⟨hpv, by simpa using hlen, rfl, by simpa using hix, hrep'⟩, rfl, rfl, rfl, ?_, ?_, hkind, hlost⟩
      · intro idx hi hi'
        obtain ⟨ho, hin, hk0, hkn, haddr⟩ := hnew.2.2 idx hi'
        obtain ⟨_, _, _, hkm, haddr0⟩ := hold.2.2 idx hi
        have hj : (idx.getD a.resizeIndex 0).toNat * st + inner idx < st * m := by
          have := Nat.mul_le_mul_right st (show (idx.getD a.resizeIndex 0).toNat + 1 ≤ m by omega)
          rw [Nat.add_mul] at this
          rw [Nat.mul_comm st m]; omega
        have hj' : (idx.getD a.resizeIndex 0).toNat * st + inner idx < st * n.toNat := by
          have := Nat.mul_le_mul_right st (show (idx.getD a.resizeIndex 0).toNat + 1 ≤ n.toNat by omega)
          rw [Nat.add_mul] at this
          rw [Nat.mul_comm st n.toNat]; omega
        have hc := hcells _ _ ho hj'
        rw [if_pos hj, cellsOf_lt (hlt _ _ ho hj)] at hc
        rw [hget idx hi _ (hlt _ _ ho hj) haddr0]
        refine get_of_cell rfl (by exact hpn) c hi' haddr ?_ hc
        show _ < b'.cap
        have := Nat.mul_le_mul_left (st * n.toNat) ho
        rw [Nat.mul_succ, ← hnew.2.1] at this
        omega
      · intro idx hi hi'
        obtain ⟨ho, hin, hk0, hkn, haddr⟩ := hnew.2.2 idx hi'
        have hge : m ≤ (idx.getD a.resizeIndex 0).toNat := by
          have hx := inBounds_set_iff (m := m) hix hi'
          have hself : a.dims.set a.resizeIndex m = a.dims := by rw [← hm]; exact set_self _ _
          rw [hself] at hx
          have : ¬ _ := fun hlt => hi (hx.mpr hlt)
          omega
        have hj : ¬ (idx.getD a.resizeIndex 0).toNat * st + inner idx < st * m := by
          have := Nat.mul_le_mul_right st hge
          rw [Nat.mul_comm m st] at this; omega
        have hj' : (idx.getD a.resizeIndex 0).toNat * st + inner idx < st * n.toNat := by
          have := Nat.mul_le_mul_right st (show (idx.getD a.resizeIndex 0).toNat + 1 ≤ n.toNat by omega)
          rw [Nat.add_mul] at this
          rw [Nat.mul_comm st n.toNat]; omega
        have hc := hcells _ _ ho hj'
        rw [if_neg hj] at hc
        refine get_of_cell rfl (by exact hpn) c hi' haddr ?_ hc
        show _ < b'.cap
        have := Nat.mul_le_mul_left (st * n.toNat) ho
        rw [Nat.mul_succ, ← hnew.2.1] at this
        omega
    -- the code
    have hxs' : xs.length = st * m * N := by rw [hxs]; exact hold.2.1
    have hsize2 : ({ a with dims := a.dims.set a.resizeIndex n.toNat, strides := calculateStrides a.perm (a.dims.set a.resizeIndex n.toNat) } : ArrayN T).size = st * n.toNat * N := by
      rw [← hnew.2.1]; exact multiplyAll_eq _
    rw [hnew.2.1] at hroom ⊢
    unfold ArrayN.resizeDefaultDimension
    rw [show decide (n < 0) = false by simpa using hn, errorIf_false, bind_ok]
    simp only [hsz, hm]
    rw [hst, hold.1, hsize2]
    split
    · -- the selected dimension is first in memory
      rename_i hfirst
      have hN1 : N = 1 := by
        rcases hfirst with h1 | h1
        · apply hN
          have hi0 : a.resizeIndex = 0 := by omega
          have hmem : a.perm.getD 0 0 ∈ a.perm := by
            have : 0 < a.perm.length := by omega
            simp [List.getD_eq_getElem?_getD, List.getElem?_eq_getElem this]
          have := (IsPermutation.mem hp).mp hmem
          omega
        · exact hN h1
      subst hN1
      rw [resize_rep c hrep _ v hroom, bind_ok]
      refine ⟨_, rfl, Nat.le_max_right _ _, rfl, rfl, fun q j hq hj => ?_, fun k hk => ?_⟩
      · have : q = 0 := by omega
        subst this
        show cellsOf _ _ = _
        have hlen1 : (xs.take (st * n.toNat * 1) ++ List.replicate (st * n.toNat * 1 - xs.length) v).length = st * n.toNat := by
          simp; omega
        rw [Nat.mul_zero, Nat.zero_add, cellsOf_lt (by rw [hlen1]; exact hj), Nat.mul_zero, Nat.zero_add]
        split
        · rw [cellsOf_lt (by omega), List.getElem_append_left (by simp; omega)]
          simp
        · rw [List.getElem_append_right (by simp; omega)]; simp
      · show cellsOf _ _ = _
        rw [cellsOf_ge (by simp; omega)]
    · split
      · -- no change of size
        rename_i heq
        refine ⟨a.buf, rfl, by have := hrep.2; omega, rfl, rfl, fun q j hq hj => ?_, fun k hk => ?_⟩
        · have hNpos : 0 < N := by omega
          have hsame : st * n.toNat = st * m := Nat.eq_of_mul_eq_mul_right hNpos (by omega)
          rw [hrep.1, hsame, if_pos (by omega)]
        · rw [hrep.1, cellsOf_ge (by omega)]
      · rename_i hne
        rw [hxs'] at hne
        have hNpos : 0 < N := Nat.pos_of_ne_zero (fun h0 => hne (by rw [h0]; simp))
        have hstpos : 0 < st := Nat.pos_of_ne_zero (fun h0 => hne (by rw [h0]; simp))
        split
        · -- growing
          rename_i hgrow
          have hsum : st * m + st * (n.toNat - m) = st * n.toNat := by
            rw [← Nat.mul_add]; congr 1; omega
          have hpos : 0 < st * (n.toNat - m) := Nat.mul_pos hstpos (by omega)
          have hit : (st * n.toNat * N - xs.length) / (st * (n.toNat - m)) = N := by
            rw [hxs', ← hsum, Nat.add_mul, Nat.add_sub_cancel_left, Nat.mul_div_cancel_left _ hpos]
          rw [reserve_rep c hrep _ hroom, bind_ok, hit]
          obtain ⟨b', hb', hf, g1, g2, g3⟩ := ArrayN.growLoop_spec c (st * (n.toNat - m)) (st * m) N v
            { a.buf with cap := max a.buf.cap (st * n.toNat * N), moves := a.buf.moves + a.buf.growMoves xs.length (st * n.toNat * N) }
            (by rw [hsum]; exact Nat.le_max_right _ _)
            (fun k hk => by show (a.buf.cell k).isLive = true; rw [hrep.1, cellsOf_lt (by omega)]; rfl)
            (fun k hk _ => by show a.buf.cell k = _; rw [hrep.1, cellsOf_ge (by omega)])
          rw [hb', bind_ok]
          rw [hsum] at g1 g2 g3
          refine ⟨b', rfl, by rw [hf.1]; exact Nat.le_max_right _ _, hf.2.1, hf.2.2.1, fun q j hq hj => ?_, fun k hk => ?_⟩
          · split
            · rename_i hj2
              rw [g1 q j hq hj2]; show a.buf.cell _ = _; rw [hrep.1]
            · exact g2 q j hq (by omega) hj
          · rw [g3 k hk]; show a.buf.cell _ = _
            rw [hrep.1, cellsOf_ge]
            have : st * m * N ≤ st * n.toNat * N := Nat.mul_le_mul_right _ (by omega)
            omega
        · -- shrinking
          rename_i hgrow
          have hlt : n.toNat < m := by
            refine Nat.lt_of_le_of_ne (by omega) (fun e => hne (by rw [e]))
          have hsum : st * n.toNat + st * (m - n.toNat) = st * m := by
            rw [← Nat.mul_add]; congr 1; omega
          have hpos : 0 < st * (m - n.toNat) := Nat.mul_pos hstpos (by omega)
          have hit : (xs.length - st * n.toNat * N) / (st * (m - n.toNat)) = N := by
            rw [hxs', ← hsum, Nat.add_mul, Nat.add_sub_cancel_left, Nat.mul_div_cancel_left _ hpos]
          rw [hit]
          obtain ⟨b', hb', hf, g1, g2, g3⟩ := ArrayN.shrinkLoop_spec c (st * (m - n.toNat)) (st * n.toNat) N hNpos a.buf
            (by rw [hsum, ← hxs']; exact hrep.2)
            (fun k hk => by rw [hrep.1, cellsOf_lt (by rw [hsum] at hk; omega)]; rfl)
          rw [hb', bind_ok]
          rw [hsum] at g1 g2 g3
          have hle : st * n.toNat * N ≤ st * m * N := Nat.mul_le_mul_right _ (by omega)
          refine ⟨b', rfl, by rw [hf.1]; have := hrep.2; omega, hf.2.1, hf.2.2.1, fun q j hq hj => ?_, fun k hk => ?_⟩
          · rw [g1 q j hq hj, hrep.1, if_pos (by omega)]
          · rcases Nat.lt_or_ge k (st * m * N) with h1 | h1
            · exact g2 k hk h1
            · rw [g3 k h1, hrep.1, cellsOf_ge (by omega)]

/-- Decidable form of reading an element, used in the concrete cases below. -/
def readIs [DecidableEq T] (r : R T) (v : T) : Bool := match r with | .ok w => decide (w = v) | _ => false

/-- A 2 x 3 column-major array holding `10 * i + j`, resized to two columns and then to four with default 7: the
hypotheses of `C10_resize_preserves` are met and both branches of the code are taken. -/
example :
    (do
      let c : Cfg := ⟨false, true, false⟩
      let a ← (ArrayN.init Int [1, 0]).resize c [2, 3] 0
      let a ← a.set c [0, 1] 1
      let a ← a.set c [0, 2] 2
      let a ← a.set c [1, 0] 10
      let a ← a.set c [1, 1] 11
      let a ← a.set c [1, 2] 12
      let b ← a.setSingleParameterResizeIndex 0
      let b ← b.resizeDefaultDimension c 4 7
      let d ← b.resizeDefaultDimension c 1 7
      .ok ((b.dims, d.dims), readIs (b.get c [1, 2]) 12, readIs (b.get c [3, 2]) 7, readIs (d.get c [0, 2]) 2) :
        R ((List Nat × List Nat) × Bool × Bool × Bool)) = .ok (([4, 3], [1, 3]), true, true, true) := by
  decide +kernel

/-! ## Full resize -/

/-- What a full resize establishes: the requested shape, all elements initialised, and `data()[ m ]` is the old
`data()[ m ]` below the old size and the default value above it. -/
def ResizedTo (a a' : ArrayN T) (dims : List Nat) (v : T) : Prop :=
  Wf a' ∧ a'.perm = a.perm ∧ a'.resizeIndex = a.resizeIndex ∧ a'.dims = dims ∧ a'.size = dims.prod ∧
  (∀ m, m < a'.size → a'.buf.read m = if m < a.size then a.buf.read m else .ok v) ∧
  a'.buf.kind = a.buf.kind ∧ a'.buf.lostLive = a.buf.lostLive ∧ a'.buf.lostMoved = a.buf.lostMoved

theorem full_resize (c : Cfg) (a : ArrayN T) (h : Wf a) (dims : List Nat) (v : T) (hl : dims.length = a.dims.length)
    (hr : a.buf.room dims.prod) :
    ∃ b, bufferManipulation.resize c a.buf a.size (multiplyAll dims) v = .ok b ∧
      ResizedTo a { a with buf := b, dims := dims, strides := calculateStrides a.perm dims } dims v := by
  obtain ⟨hpv, hlen, hst, hix, xs, hrep, hxs⟩ := h
  have hsz : a.size = xs.length := by rw [hxs]; exact multiplyAll_eq _
  rw [hsz, multiplyAll_eq, resize_rep c hrep _ v hr]
  have hlen1 : (xs.take dims.prod ++ List.replicate (dims.prod - xs.length) v).length = dims.prod := by simp; omega
  refine ⟨_, rfl, ⟨hpv, by rw [hlen, hl], rfl, by rw [hl]; exact hix, _, ⟨rfl, ?_⟩, hlen1⟩, rfl, rfl, rfl,
    multiplyAll_eq _, fun m hm => ?_, rfl, rfl, rfl⟩
  · rw [hlen1]; exact Nat.le_max_right _ _
  · have hm' : m < dims.prod := by
      change m < multiplyAll dims at hm
      rwa [multiplyAll_eq] at hm
    show (if m < max a.buf.cap dims.prod then _ else _) = _
    rw [if_pos (by omega)]
    dsimp only
    rw [cellsOf_lt (by rw [hlen1]; exact hm'), hsz]
    dsimp only
    split
    · rename_i hlt
      rw [read_rep hrep m hlt, List.getElem_append_left (by simp; omega)]; simp
    · rw [List.getElem_append_right (by simp; omega)]; simp

theorem full_resize_abort (c : Cfg) (a : ArrayN T) (h : Wf a) (dims : List Nat) (v : T) (hr : ¬ a.buf.room dims.prod) :
    bufferManipulation.resize c a.buf a.size (multiplyAll dims) v = .error .abort := by
  obtain ⟨hpv, hlen, hst, hix, xs, hrep, hxs⟩ := h
  have hsz : a.size = xs.length := by rw [hxs]; exact multiplyAll_eq _
  rw [hsz, multiplyAll_eq, buf_resize_abort c hrep _ v hr]

/-- **C11.** `resize( dims... )` for every shape: rejects the wrong number of sizes and negative sizes, aborts when a
fixed buffer cannot hold the elements, and otherwise produces exactly the requested shape as described by `ResizedTo`. -/
theorem C11_resize (c : Cfg) (a : ArrayN T) (h : Wf a) (dims : List Int) (v : T) :
    ((dims.length ≠ a.dims.length ∨ ∃ d ∈ dims, d < 0) → a.resize c dims v = .error .abort) ∧
    (dims.length = a.dims.length → (∀ d ∈ dims, 0 ≤ d) →
      (a.buf.room (dims.map Int.toNat).prod → ∃ a', a.resize c dims v = .ok a' ∧ ResizedTo a a' (dims.map Int.toNat) v) ∧
      (¬ a.buf.room (dims.map Int.toNat).prod → a.resize c dims v = .error .abort)) := by
  refine ⟨fun hbad => ?_, fun hl hpos => ?_⟩
  · unfold ArrayN.resize
    by_cases hl : dims.length = a.dims.length
    · have : dims.any (fun d => decide (d < 0)) = true := by
        simp only [List.any_eq_true, decide_eq_true_eq]
        exact hbad.resolve_left (fun hne => hne hl)
      rw [this]; simp [hl]
    · rw [show (dims.length != a.dims.length) = true by simp [hl], errorIf_true, bind_err]
  · have h1 : (dims.length != a.dims.length) = false := by simp [hl]
    have h2 : dims.any (fun d => decide (d < 0)) = false := by
      simp only [List.any_eq_false, decide_eq_true_eq]
      intro d hd; have := hpos d hd; omega
    refine ⟨fun hr => ?_, fun hr => ?_⟩
    · obtain ⟨b, hb, hres⟩ := full_resize c a h (dims.map Int.toNat) v (by simpa using hl) hr
      refine ⟨_, ?_, hres⟩
      unfold ArrayN.resize
      rw [h1, h2, errorIf_false, bind_ok, bind_ok]
      simp only [hb, bind_ok]
    · unfold ArrayN.resize
      rw [h1, h2, errorIf_false, bind_ok, bind_ok]
      simp only [full_resize_abort c a h _ v hr, bind_err]

theorem foldl_set_length (ps : List (Nat × Int)) (ds : List Nat) :
    (ps.foldl (fun ds q => ds.set q.1 q.2.toNat) ds).length = ds.length := by
  induction ps generalizing ds with
  | nil => rfl
  | cons p ps ih => simp [ih]

/-- The sizes after `resizeDimension`: the last size given for a dimension, or its old size. -/
theorem foldl_set_getD (ps : List (Nat × Int)) (ds : List Nat) (k : Nat) (hk : k < ds.length) :
    (ps.foldl (fun ds q => ds.set q.1 q.2.toNat) ds).getD k 0 =
      ((ps.reverse.find? (fun q => q.1 == k)).map (fun q => q.2.toNat)).getD (ds.getD k 0) := by
  induction ps generalizing ds with
  | nil => rfl
  | cons p ps ih =>
    simp only [List.foldl_cons, List.reverse_cons, List.find?_append]
    rw [ih _ (by simpa using hk)]
    cases h : ps.reverse.find? (fun q => q.1 == k) with
    | some q => simp
    | none =>
      by_cases e : p.1 = k
      · subst e; simp [List.getD_eq_getElem?_getD, hk]
      · simp [e, List.getD_eq_getElem?_getD, List.getElem?_set_ne e]

/-- **C11** for `resizeDimension< INDICES... >( sizes... )`: the named dimensions get the given sizes, the others keep
theirs; a fixed buffer that is too small for the new shape aborts. -/
theorem C11_resizeDimension (c : Cfg) (a : ArrayN T) (h : Wf a) (pairs : List (Nat × Int)) (v : T) :
    ((∃ q ∈ pairs, q.2 < 0) → a.resizeDimension c pairs v = .error .abort) ∧
    ((∀ q ∈ pairs, 0 ≤ q.2) → ∃ dims : List Nat, dims.length = a.dims.length ∧
      (∀ k < dims.length, dims.getD k 0 =
        ((pairs.reverse.find? (fun q => q.1 == k)).map (fun q => q.2.toNat)).getD (a.dims.getD k 0)) ∧
      (a.buf.room dims.prod → ∃ a', a.resizeDimension c pairs v = .ok a' ∧ ResizedTo a a' dims v) ∧
      (¬ a.buf.room dims.prod → a.resizeDimension c pairs v = .error .abort)) := by
  refine ⟨fun ⟨q, hq, hlt⟩ => ?_, fun hpos => ?_⟩
  · unfold ArrayN.resizeDimension
    have : pairs.any (fun q => decide (q.2 < 0)) = true := by
      simp only [List.any_eq_true, decide_eq_true_eq]; exact ⟨q, hq, hlt⟩
    rw [this, errorIf_true, bind_err]
  · have h2 : pairs.any (fun q => decide (q.2 < 0)) = false := by
      simp only [List.any_eq_false, decide_eq_true_eq]
      intro d hd; have := hpos d hd; omega
    refine ⟨pairs.foldl (fun ds q => ds.set q.1 q.2.toNat) a.dims, foldl_set_length _ _,
      fun k hk => foldl_set_getD _ _ k (by rwa [foldl_set_length] at hk), fun hr => ?_, fun hr => ?_⟩
    · obtain ⟨b, hb, hres⟩ := full_resize c a h (pairs.foldl (fun ds q => ds.set q.1 q.2.toNat) a.dims) v
        (foldl_set_length _ _) hr
      refine ⟨_, ?_, hres⟩
      unfold ArrayN.resizeDimension
      rw [h2, errorIf_false, bind_ok]
      simp only [hb, bind_ok]
    · unfold ArrayN.resizeDimension
      rw [h2, errorIf_false, bind_ok]
      simp only [full_resize_abort c a h _ v hr, bind_err]

theorem prod_set_zero (dims : List Nat) (k : Nat) (hk : k < dims.length) : (dims.set k 0).prod = 0 := by
  induction dims generalizing k with
  | nil => simp at hk
  | cons d ds ih =>
    cases k with
    | zero => simp
    | succ k => simp [ih k (by simpa using hk)]

/-- **C11** for `clear()`: no elements, the selected dimension is zero, the other sizes are kept. -/
theorem C11_clear (c : Cfg) (a : ArrayN T) (h : Wf a) (v : T) :
    ∃ a', a.clear c v = .ok a' ∧ ResizedTo a a' (a.dims.set a.resizeIndex 0) v ∧ a'.size = 0 ∧
      a'.buf.cap = a.buf.cap := by
  have hz := prod_set_zero a.dims _ h.index
  obtain ⟨b, hb, hres⟩ := full_resize c a h (a.dims.set a.resizeIndex 0) v (by simp) (Or.inr (by rw [hz]; omega))
  have hcap : b.cap = a.buf.cap := by
    obtain ⟨hpv, hlen, hst, hix, xs, hrep, hxs⟩ := h
    have hsz : a.size = xs.length := by rw [hxs]; exact multiplyAll_eq _
    rw [hsz, multiplyAll_eq, hz, resize_rep c hrep _ v (Or.inr (by omega))] at hb
    have := Except.ok.inj hb
    rw [← this]; simp
  rw [multiplyAll_eq, hz] at hb
  refine ⟨_, ?_, hres, by rw [hres.2.2.2.2.1, hz], hcap⟩
  unfold ArrayN.clear
  rw [hb, bind_ok]

/-- **C11** for `reserve( n )`: shape and contents do not change and the capacity is at least `n`. -/
theorem C11_reserve (c : Cfg) (a : ArrayN T) (h : Wf a) (n : Nat) :
    (a.buf.room n → ∃ a', a.reserve c n = .ok a' ∧ Wf a' ∧ a'.dims = a.dims ∧ a'.perm = a.perm ∧ n ≤ a'.buf.cap ∧
      (∀ m, m < a.size → a'.buf.read m = a.buf.read m)) ∧
    (¬ a.buf.room n → a.reserve c n = .error .abort) := by
  obtain ⟨hpv, hlen, hst, hix, xs, hrep, hxs⟩ := h
  have hsz : a.size = xs.length := by rw [hxs]; exact multiplyAll_eq _
  have hcap := hrep.2
  refine ⟨fun hr => ?_, fun hr => ?_⟩
  · unfold ArrayN.reserve
    rw [hsz, reserve_rep c hrep n hr, bind_ok]
    refine ⟨_, rfl, ⟨hpv, hlen, hst, hix, xs, ⟨hrep.1, ?_⟩, hxs⟩, rfl, rfl, Nat.le_max_right _ _, fun m hm => ?_⟩
    · show _ ≤ max _ _; omega
    · show (if m < max _ _ then _ else _) = (if m < _ then _ else _)
      rw [if_pos (by omega), if_pos (by omega)]
  · unfold ArrayN.reserve
    rw [hsz, reserve_abort c hcap n hr, bind_err]

/-! ## Histories -/

/-- A call on a multi-dimensional array. -/
inductive ArrayCall (T : Type) where
  | resize (dims : List Int)
  | resizeDimension (pairs : List (Nat × Int))
  | resizeOne (n : Int)
  | resizeDefault (n : Int) (v : T)
  | clear
  | setIndex (i : Int)
  | reserve (n : Nat)
  | assign (idx : List Int) (v : T)

/-- Performing a call; `d` is `T()`. -/
def ArrayCall.run (c : Cfg) (d : T) (a : ArrayN T) : ArrayCall T → R (ArrayN T)
  | .resize dims => a.resize c dims d
  | .resizeDimension pairs => a.resizeDimension c pairs d
  | .resizeOne n => a.resizeDefaultDimension c n d
  | .resizeDefault n v => a.resizeDefaultDimension c n v
  | .clear => a.clear c d
  | .setIndex i => a.setSingleParameterResizeIndex i
  | .reserve n => a.reserve c n
  -- a call with the wrong number of indices does not compile
  | .assign idx v => if idx.length = a.dims.length then a.set c idx v else .error .abort

/-- Assignment through in-bounds indices changes that element and no other. -/
theorem set_spec (c : Cfg) (a : ArrayN T) (h : Wf a) (idx : List Int) (v : T) (hi : InBounds a.dims idx) :
    ∃ a', a.set c idx v = .ok a' ∧ Wf a' ∧ a'.dims = a.dims ∧ a'.perm = a.perm ∧ a'.resizeIndex = a.resizeIndex ∧
      a'.get c idx = .ok v ∧ ∀ j, InBounds a.dims j → j ≠ idx → a'.get c j = a.get c j := by
  have hview := h.view
  have hp := h.isPerm
  obtain ⟨hpv, hlen, hst, hix, xs, hrep, hxs⟩ := h
  obtain ⟨-, hrange, hinj, -⟩ := C01_bijection c a.perm a.dims hpv hlen
  obtain ⟨m, hm, hm0, hm1⟩ := hrange idx hi
  have hmx : m.toNat < xs.length := by omega
  have hmc : (m.toNat : Int) = m := by omega
  unfold ArrayN.set
  rw [hview, hm, bind_ok, if_neg (by omega), write_rep c hrep _ v hmx, bind_ok]
  have hrep2 : Rep { a.buf with cell := cellsOf (xs.set m.toNat v) } (xs.set m.toNat v) :=
    ⟨rfl, by simpa using hrep.2⟩
  refine ⟨_, rfl, ⟨hpv, hlen, hst, hix, xs.set m.toNat v, hrep2, by simpa using hxs⟩,
    rfl, rfl, rfl, ?_, fun j hj hne => ?_⟩
  · have := call_ok hp c hi
    rw [hm] at this
    refine get_of_cell (a := { a with buf := { a.buf with cell := cellsOf (xs.set m.toNat v) } }) hst hp c hi (m := m.toNat) (by rw [hmc]; exact (Except.ok.inj this).symm)
      (by have := hrep.2; show m.toNat < a.buf.cap; omega) ?_
    show cellsOf _ _ = _
    rw [cellsOf_lt (by simpa using hmx)]; simp
  · obtain ⟨k, hk, hk0, hk1⟩ := hrange j hj
    have hkc : (k.toNat : Int) = k := by omega
    have hkx : k.toNat < xs.length := by omega
    have hkm : k ≠ m := fun e => hne (hinj j idx hj hi (by rw [hk, hm, e]))
    have := call_ok hp c hj
    rw [hk] at this
    have e1 : horner (reorder a.perm a.dims) (reorder a.perm j) = (k.toNat : Int) := by
      rw [hkc]; exact (Except.ok.inj this).symm
    rw [get_of_cell hst hp c hj e1 (by have := hrep.2; omega) (by rw [hrep.1, cellsOf_lt hkx])]
    refine get_of_cell (a := { a with buf := { a.buf with cell := cellsOf (xs.set m.toNat v) } }) hst hp c hj e1 (by have := hrep.2; show k.toNat < a.buf.cap; omega) ?_
    show cellsOf _ _ = _
    rw [cellsOf_lt (by simpa using hkx), List.getElem_set_ne (by omega)]

theorem init_wf (perm : List Nat) (hv : typeManipulation.isValidPermutation perm = true) (hn : perm ≠ []) :
    Wf (ArrayN.init T perm) := by
  have hpos : 0 < perm.length := List.length_pos_iff.mpr hn
  refine ⟨hv, by simp [ArrayN.init], rfl, by simpa [ArrayN.init] using hpos, [], ⟨?_, Nat.zero_le _⟩, ?_⟩
  · funext k; simp [ArrayN.init, Buf.empty, cellsOf]
  · obtain ⟨m, hm⟩ : ∃ m, perm.length = m + 1 := ⟨perm.length - 1, by omega⟩
    simp [ArrayN.init, hm]

theorem call_keeps_wf (c : Cfg) (hbc : c.boundsCheck = true) (d : T) (a : ArrayN T) (h : Wf a) (f : ArrayCall T) :
    f.run c d a = .error .abort ∨ ∃ a', f.run c d a = .ok a' ∧ Wf a' ∧ a'.perm = a.perm := by
  have hroom : ∀ n, a.buf.room n ∨ ¬ a.buf.room n := fun n => Decidable.em _
  cases f with
  | resize dims =>
    have := C11_resize c a h dims d
    by_cases hb : dims.length ≠ a.dims.length ∨ ∃ d ∈ dims, d < 0
    · exact Or.inl (this.1 hb)
    · have h1 : dims.length = a.dims.length := Decidable.byContradiction fun e => hb (Or.inl e)
      have h2 : ∀ d ∈ dims, 0 ≤ d := fun d hd => Decidable.byContradiction fun e => hb (Or.inr ⟨d, hd, by omega⟩)
      rcases hroom (dims.map Int.toNat).prod with hr | hr
      · obtain ⟨a', e, r⟩ := (this.2 h1 h2).1 hr
        exact Or.inr ⟨a', e, r.1, r.2.1⟩
      · exact Or.inl ((this.2 h1 h2).2 hr)
  | resizeDimension pairs =>
    show a.resizeDimension c pairs d = _ ∨ ∃ a', a.resizeDimension c pairs d = _ ∧ _
    unfold ArrayN.resizeDimension
    cases hb : pairs.any (fun q => decide (q.2 < 0)) with
    | true => left; rw [errorIf_true, bind_err]
    | false =>
      rw [errorIf_false, bind_ok]
      rcases hroom (pairs.foldl (fun ds q => ds.set q.1 q.2.toNat) a.dims).prod with hr | hr
      · obtain ⟨b, hb, hres⟩ := full_resize c a h _ d (foldl_set_length pairs a.dims) hr
        right; simp only [hb, bind_ok]
        exact ⟨_, rfl, hres.1, hres.2.1⟩
      · left; simp only [full_resize_abort c a h _ d hr, bind_err]
  | resizeOne n =>
    have := C10_resize_preserves c a h n d
    by_cases hn : n < 0
    · exact Or.inl (this.1 hn)
    · rcases hroom (a.dims.set a.resizeIndex n.toNat).prod with hr | hr
      · obtain ⟨a', e, r⟩ := this.2.2 (by omega) hr
        exact Or.inr ⟨a', e, r.1, r.2.1⟩
      · exact Or.inl (this.2.1 (by omega) hr)
  | resizeDefault n v =>
    have := C10_resize_preserves c a h n v
    by_cases hn : n < 0
    · exact Or.inl (this.1 hn)
    · rcases hroom (a.dims.set a.resizeIndex n.toNat).prod with hr | hr
      · obtain ⟨a', e, r⟩ := this.2.2 (by omega) hr
        exact Or.inr ⟨a', e, r.1, r.2.1⟩
      · exact Or.inl (this.2.1 (by omega) hr)
  | clear =>
    obtain ⟨a', e, r, -⟩ := C11_clear c a h d
    exact Or.inr ⟨a', e, r.1, r.2.1⟩
  | setIndex i =>
    show a.setSingleParameterResizeIndex i = _ ∨ ∃ a', a.setSingleParameterResizeIndex i = _ ∧ _
    unfold ArrayN.setSingleParameterResizeIndex
    by_cases h1 : i < 0
    · left; simp [h1]
    · by_cases h2 : i ≥ a.dims.length
      · left; simp [h1, h2]
      · right
        simp only [h1, h2, decide_false, errorIf_false, bind_ok]
        exact ⟨_, rfl, ⟨h.perm, h.len, h.strides, by show i.toNat < a.dims.length; omega, h.data⟩, rfl⟩
  | reserve n =>
    rcases hroom n with hr | hr
    · obtain ⟨a', e, r, -, r2, -⟩ := (C11_reserve c a h n).1 hr
      exact Or.inr ⟨a', e, r, r2⟩
    · exact Or.inl ((C11_reserve c a h n).2 hr)
  | assign idx v =>
    by_cases hl : idx.length = a.dims.length
    · simp only [ArrayCall.run, hl, if_true]
      by_cases hi : InBounds a.dims idx
      · obtain ⟨a', e, r, -, r2, -⟩ := set_spec c a h idx v hi
        exact Or.inr ⟨a', e, r, r2⟩
      · left
        unfold ArrayN.set
        rw [h.view, (C04_checked_access c hbc a.perm a.dims h.perm h.len idx hl).1.mpr hi, bind_err]
    · left; simp only [ArrayCall.run, hl, if_false]

/-- **C11 for all histories.** Starting from a default constructed array of any permutation, every sequence of shape
changing calls and checked assignments either aborts with an error message or ends in a state where the index mapping
is that of the shape and all elements are initialised; undefined behaviour never happens. -/
theorem C11_histories (c : Cfg) (hbc : c.boundsCheck = true) (d : T) (perm : List Nat)
    (hv : typeManipulation.isValidPermutation perm = true) (hn : perm ≠ []) (calls : List (ArrayCall T)) :
    calls.foldlM (ArrayCall.run c d) (ArrayN.init T perm) = .error .abort ∨
    ∃ a, calls.foldlM (ArrayCall.run c d) (ArrayN.init T perm) = .ok a ∧ Wf a ∧ a.perm = perm := by
  suffices H : ∀ a : ArrayN T, Wf a → a.perm = perm → (calls.foldlM (ArrayCall.run c d) a = .error .abort ∨
      ∃ a', calls.foldlM (ArrayCall.run c d) a = .ok a' ∧ Wf a' ∧ a'.perm = perm) from
    H _ (init_wf perm hv hn) rfl
  induction calls with
  | nil => exact fun a h he => Or.inr ⟨a, rfl, h, he⟩
  | cons f fs ih =>
    intro a h he
    rw [List.foldlM_cons]
    rcases call_keeps_wf c hbc d a h f with h1 | ⟨a', h1, h2, h3⟩
    · left; rw [h1, bind_err]
    · rw [h1, bind_ok]; exact ih a' h2 (h3.trans he)

/-! ## Copies -/

/-- **C12** for every number of dimensions: after `a = rhs` (or copy construction) `a` has the shape and resize index of
`rhs` and reads the same at every index; later changes cannot reach `rhs`, whose buffer is not part of the result. -/
theorem C12_copy_nd (c : Cfg) (a rhs : ArrayN T) (v : T) (h : Wf a) (hr : Wf rhs) (hp : a.perm = rhs.perm) :
    (a.buf.room rhs.size → ∃ a', a.copyAssign c rhs v = .ok a' ∧ Wf a' ∧ a'.dims = rhs.dims ∧
      a'.resizeIndex = rhs.resizeIndex ∧ (∀ idx, InBounds rhs.dims idx → a'.get c idx = rhs.get c idx) ∧
      a'.buf.lostLive = a.buf.lostLive ∧ a'.buf.kind = a.buf.kind) ∧
    (¬ a.buf.room rhs.size → a.copyAssign c rhs v = .error .abort) := by
  have hpr := hr.isPerm
  obtain ⟨hpv, hlen, hst, hix, xs, hrep, hxs⟩ := h
  obtain ⟨hpv2, hlen2, hst2, hix2, ys, hrep2, hys⟩ := hr
  have hsz : a.size = xs.length := by rw [hxs]; exact multiplyAll_eq _
  have hsz2 : rhs.size = ys.length := by rw [hys]; exact multiplyAll_eq _
  rw [hsz2]
  refine ⟨fun hroom => ?_, fun hroom => ?_⟩
  · unfold ArrayN.copyAssign ArrayN.setSingleParameterResizeIndex
    rw [hsz, hsz2, copyInto_rep c hrep hrep2 v hroom, bind_ok]
    dsimp only
    rw [show decide ((rhs.resizeIndex : Int) < 0) = false by simp,
      show decide ((rhs.resizeIndex : Int) ≥ (rhs.dims.length : Nat)) = false by simp; omega,
      errorIf_false, bind_ok, bind_ok]
    have hdat : Rep { a.buf with cap := max a.buf.cap ys.length, moves := a.buf.moves + a.buf.growMoves xs.length ys.length, cell := cellsOf ys } ys :=
      ⟨rfl, Nat.le_max_right _ _⟩
    refine ⟨_, rfl, ⟨hpv, by rw [hp]; exact hlen2, by rw [hp]; exact hst2, by simpa using hix2, ys, hdat, hys⟩, rfl,
      by simp, fun idx hi => ?_, rfl, rfl⟩
    obtain ⟨m, hm, hm0, hm1⟩ := (C01_bijection c rhs.perm rhs.dims hpv2 hlen2).2.1 idx hi
    have := call_ok hpr c hi
    rw [hm] at this
    have hmc : (m.toNat : Int) = m := by omega
    have hmx : m.toNat < ys.length := by omega
    have e1 : horner (reorder rhs.perm rhs.dims) (reorder rhs.perm idx) = (m.toNat : Int) := by
      rw [hmc]; exact (Except.ok.inj this).symm
    rw [get_of_cell hst2 hpr c hi e1 (by have := hrep2.2; omega) (by rw [hrep2.1, cellsOf_lt hmx])]
    exact get_of_cell (by rw [hp]; exact hst2) (by rw [hp]; exact hpr) c hi (by rw [← e1, hp])
      (by have := hdat.2; exact Nat.lt_of_lt_of_le hmx this) (by show cellsOf _ _ = _; rw [cellsOf_lt hmx])
  · unfold ArrayN.copyAssign
    rw [hsz, hsz2]
    unfold copyInto
    rw [check_ok c a.buf _ hrep.2, bind_ok, check_ok c rhs.buf _ hrep2.2, bind_ok,
      buf_resize_abort c hrep _ v hroom, bind_err, bind_err]

/-- **C13** disagreement: a moved-from array does not have the index mapping of its (all zero) shape.  Its strides are
zero, while a default constructed array of the same shape has unit stride in the fastest dimension.  (The consequence:
growing it with `emplace_back` keeps stride 0, and stride comparisons such as the one in `setValues( view )` abort.) -/
theorem C13_moved_from_strides (a : ArrayN T) : ¬ Wf a.movedFrom := by
  intro h2
  have hu := stride_usd h2.isPerm (fun e => by have := h2.index; rw [e] at this; simp at this)
  rw [← h2.strides] at hu
  simp only [ArrayN.movedFrom, List.getD_eq_getElem?_getD, List.getElem?_map] at hu
  cases hx : a.strides[typeManipulation.getStrideOneDimension a.perm]? <;> simp [hx] at hu

/-- **C13**, reuse of a moved-from array of any number of dimensions: a full resize makes it an ordinary array again. -/
theorem C13_moved_from_resize (c : Cfg) (a : ArrayN T) (h : Wf a) (dims : List Int) (v : T)
    (hl : dims.length = a.dims.length) (hd : ∀ d ∈ dims, 0 ≤ d) :
    ∃ a', a.movedFrom.resize c dims v = .ok a' ∧ Wf a' ∧ a'.dims = dims.map Int.toNat ∧
      ∀ m, m < a'.size → a'.buf.read m = .ok v := by
  let a0 : ArrayN T := { a.movedFrom with strides := calculateStrides a.perm (a.dims.map (fun _ => 0)) }
  have hprod : (a.dims.map (fun _ => 0)).prod = 0 := by
    have := h.index
    cases hx : a.dims with
    | nil => rw [hx] at this; simp at this
    | cons d ds => simp
  have hw : Wf a0 := by
    refine ⟨h.perm, by show a.perm.length = (a.dims.map _).length; simpa using h.len, rfl,
      by show a.resizeIndex < (a.dims.map _).length; simpa using h.index, [], ⟨?_, Nat.zero_le _⟩, by show 0 = _; exact hprod.symm⟩
    funext k; simp [a0, ArrayN.movedFrom, Buf.empty, cellsOf]
  have hlen : a0.dims.length = a.dims.length := by show (a.dims.map _).length = _; simp
  obtain ⟨a', e, r⟩ := ((C11_resize c a0 hw dims v).2 (by rw [hl, hlen]) hd).1 (Or.inl rfl)
  refine ⟨a', e, r.1, r.2.2.2.1, fun m hm => ?_⟩
  rw [r.2.2.2.2.2.1 m hm, if_neg]
  show ¬ m < multiplyAll (a.dims.map _)
  rw [multiplyAll_eq, hprod]; omega

example : Wf (ArrayN.init Int [1, 0]) := init_wf _ (by decide) (by decide)

/-- Arrays that are not empty meet the hypotheses as well: every 2-D array with either layout is, after `resize( 2, 3 )`, well formed and
has room for any further `resize` or copy. -/
example (c : Cfg) (perm : List Nat) (hp : perm = [1, 0] ∨ perm = [0, 1]) : ∃ a : ArrayN Int,
    (ArrayN.init Int perm).resize c [2, 3] 7 = .ok a ∧ Wf a ∧ a.perm = perm ∧ a.dims = [2, 3] ∧ a.size = 6 ∧ ∀ n, a.buf.room n := by
  have hw : Wf (ArrayN.init Int perm) := by rcases hp with rfl | rfl <;> exact init_wf _ (by decide) (by decide)
  have hl : (ArrayN.init Int perm).dims.length = 2 := by rcases hp with rfl | rfl <;> rfl
  obtain ⟨a, h1, h2, h3, _, h5, h6, _, h8, _⟩ := ((C11_resize c (ArrayN.init Int perm) hw [2, 3] 7).2 (by rw [hl]; rfl) (by decide)).1
    (.inl rfl)
  exact ⟨a, h1, h2, h3, h5, by rw [h6]; decide, fun n => .inl (by rw [h8]; rfl)⟩

end LvArray.Props

import Verif.AoA
import Verif.RowsLemmas
import Verif.Spec.VecVec

/-!
# Lemmas about `ArrayOfArrays`
-/

namespace LvArray

open Layout

variable {T : Type}

/-- One operation of the modelled class. -/
def AoA.step [Inhabited T] (c : Cfg) (a : AoA T) : AoAOp T → R (AoA T)
  | .resize n d => a.resize c n d
  | .reserve n => a.reserve c n
  | .reserveValues n => a.reserveValues c n
  | .compress => a.compress c
  | .appendArraySize n => a.appendArraySize c n
  | .appendArray vs => a.appendArray c vs
  | .insertArray i vs => a.insertArray c i vs
  | .eraseArray i => a.eraseArray c i
  | .emplaceBack i v => a.emplaceBack c i v
  | .appendToArray i vs => a.appendToArray c i vs
  | .emplace i j v => a.emplace c i j v
  | .insertIntoArray i j vs => a.insertIntoArray c i j vs
  | .eraseFromArray i j n => a.eraseFromArray c i j n
  | .resizeArray i n v => a.resizeArray c i n v
  | .clearArray i => a.clearArray c i
  | .setCapacityOfArray i n => a.setCapacityOfArray c i n
  | .set i j v => a.set c i j v
  | .resizeFromCapacities cs => a.resizeFromCapacities c cs

/-- A history of operations. -/
def AoA.run [Inhabited T] (c : Cfg) : AoA T → List (AoAOp T) → R (AoA T)
  | a, [] => .ok a
  | a, op :: ops => a.step c op >>= fun a => AoA.run c a ops

/-- The object holds the rows of `L` with these capacities. -/
structure AGood (a : AoA T) (L : Layout T) : Prop where
  shape : LShape a.shape L
  lay : Lay a.values L

/-- The allocation for the values may be grown to `need`: it already is that large, or the elements can be relocated with the
gaps between them. -/
def Room (c : Cfg) (a : AoA T) (L : Layout T) (need : Nat) : Prop := need ≤ a.values.cap ∨ Lay.Movable c L

/-- If there is `Room` the result is a well-formed object with layout `L`, otherwise memory without objects is moved. -/
def Out (cap : Nat) (P : Prop) (r : R (AoA T)) (L : Layout T) : Prop :=
  (P ∧ ∃ a, r = .ok a ∧ AGood a L ∧ cap ≤ a.values.cap) ∨ (¬ P ∧ r = .error (.ub .rawRead))

theorem Out.bind {cap : Nat} {P : Prop} {r : R (AoA T)} {L L' : Layout T} {f : AoA T → R (AoA T)} (h : Out cap P r L)
    (hf : ∀ a, AGood a L → ∃ a', f a = .ok a' ∧ AGood a' L' ∧ a.values.cap ≤ a'.values.cap) :
    Out cap P (r >>= f) L' := by
  rcases h with ⟨hp, a, rfl, hg, hc⟩ | ⟨h1, rfl⟩
  · obtain ⟨a', h1, h2, h3⟩ := hf a hg
    exact .inl ⟨hp, a', h1, h2, by omega⟩
  · exact .inr ⟨h1, rfl⟩

theorem Out.ofOk {cap : Nat} {P : Prop} {r : R (AoA T)} {L : Layout T} (hp : P)
    (h : ∃ a', r = .ok a' ∧ AGood a' L ∧ cap ≤ a'.values.cap) : Out cap P r L := .inl ⟨hp, h⟩

theorem Out.congr {cap : Nat} {P Q : Prop} {r : R (AoA T)} {L : Layout T} (h : Out cap P r L) (hp : P ↔ Q) :
    Out cap Q r L := by
  have : P = Q := propext hp
  rw [← this]; exact h

namespace AGood

variable {a : AoA T} {L A B : Layout T} {xs : List T} {cap : Nat} {c : Cfg}

theorem checkBounds (h : AGood a L) {i : Nat} (hi : i < L.length) : a.shape.checkBounds c i = .ok () :=
  ShGood.checkBounds h.shape (by simpa using hi)

theorem ptr (h : AGood a (A ++ B)) : a.ptr A.length = .ok (total A) := h.shape.readOffAt rfl

theorem setSizeAt {s : Shape} (h : LShape s (A ++ (xs, cap) :: B)) (ys : List T) :
    ∃ s', s.setSize c A.length ys.length = .ok s' ∧ LShape s' (A ++ (ys, cap) :: B) := by
  obtain ⟨s', h1, h2⟩ := ShGood.setSize (c := c) h (i := A.length) (by simp) ys.length
  refine ⟨s', h1, ?_⟩
  have : (szs (A ++ (xs, cap) :: B)).set A.length ys.length = szs (A ++ (ys, cap) :: B) := by
    simp only [szs_append, szs_cons]
    rw [List.set_append_right _ _ (by simp)]
    simp
  rw [this] at h2
  have hc : caps (A ++ (xs, cap) :: B) = caps (A ++ (ys, cap) :: B) := by simp
  rw [hc] at h2
  exact h2

/-- After a row has been changed in place. -/
theorem afterRow (h : AGood a (A ++ (xs, cap) :: B)) {Q : Cell T → Prop} {b' : Buf T} {ys : List T}
    (w : Win Q a.values b' (total A) cap ys 0 []) :
    ∃ s', a.shape.setSize c A.length ys.length = .ok s' ∧ AGood ⟨s', b'⟩ (A ++ (ys, cap) :: B) := by
  obtain ⟨s', h1, h2⟩ := setSizeAt (c := c) h.shape ys
  exact ⟨s', h1, h2, h.lay.ofWin w⟩

/-! ### View operations -/

theorem get (h : AGood a (A ++ (xs, cap) :: B)) (j : Nat) (hj : j < xs.length) : a.get c A.length j = .ok xs[j] := by
  unfold AoA.get
  rw [ShGood.checkBounds2 h.shape (by simp) (by simpa [szs] using hj), bind_ok, h.ptr, bind_ok]
  exact (h.lay.toWin IsRaw).read_front j hj

theorem set (h : AGood a (A ++ (xs, cap) :: B)) (j : Nat) (hj : j < xs.length) (v : T) :
    ∃ a', a.set c A.length j v = .ok a' ∧ AGood a' (A ++ (xs.set j v, cap) :: B) ∧ a.values.cap ≤ a'.values.cap := by
  unfold AoA.set
  obtain ⟨b1, h1, w⟩ := (h.lay.toWin IsRaw).writeAt (c := c) j hj v
  rw [ShGood.checkBounds2 h.shape (by simp) (by simpa [szs] using hj), bind_ok, h.ptr, bind_ok, h1, bind_ok]
  refine ⟨_, rfl, ⟨?_, h.lay.ofWin w⟩, by rw [w.capEq]; exact Nat.le_refl _⟩
  have e1 : szs (A ++ (xs, cap) :: B) = szs (A ++ (xs.set j v, cap) :: B) := by simp
  have e2 : caps (A ++ (xs, cap) :: B) = caps (A ++ (xs.set j v, cap) :: B) := by simp
  show ShGood a.shape _ _
  rw [← e1, ← e2]; exact h.shape

theorem capCheck (h : AGood a (A ++ (xs, cap) :: B)) {n : Nat} (hn : xs.length + n ≤ cap) :
    a.shape.capacityCheck c A.length n = .ok () :=
  ShGood.capacityCheck h.shape (by simp) (by simpa [szs, caps] using hn)

theorem viewEmplaceBack (h : AGood a (A ++ (xs, cap) :: B)) (v : T) (hr : xs.length + 1 ≤ cap) :
    ∃ a', a.viewEmplaceBack c A.length v = .ok a' ∧ AGood a' (A ++ (xs ++ [v], cap) :: B) ∧
      a.values.cap ≤ a'.values.cap := by
  unfold AoA.viewEmplaceBack
  obtain ⟨b1, h1, w⟩ := (h.lay.toWin IsRaw).pushBack (c := c) v hr
  obtain ⟨s', h2, hg⟩ := h.afterRow (c := c) w
  rw [List.length_append, List.length_singleton] at h2
  rw [h.checkBounds (by simp), bind_ok, h.capCheck hr, bind_ok, h.ptr, bind_ok, h.shape.sizeOfAt rfl, bind_ok, h1, bind_ok,
    h2, bind_ok]
  exact ⟨_, rfl, hg, by rw [w.capEq]; exact Nat.le_refl _⟩

theorem viewAppend [Inhabited T] (h : AGood a (A ++ (xs, cap) :: B)) (vs : List T) (hr : xs.length + vs.length ≤ cap) :
    ∃ a', a.viewAppendToArray c A.length vs = .ok a' ∧ AGood a' (A ++ (xs ++ vs, cap) :: B) ∧
      a.values.cap ≤ a'.values.cap := by
  unfold AoA.viewAppendToArray
  obtain ⟨b1, h1, w⟩ := (h.lay.toWin IsRaw).appendMany (c := c) vs hr
  obtain ⟨s', h2, hg⟩ := h.afterRow (c := c) w
  rw [List.length_append] at h2
  rw [h.checkBounds (by simp), bind_ok, h.ptr, bind_ok, h.shape.sizeOfAt rfl, bind_ok, h1, bind_ok, h.capCheck hr, bind_ok,
    h2, bind_ok]
  exact ⟨_, rfl, hg, by rw [w.capEq]; exact Nat.le_refl _⟩

theorem viewEmplace (h : AGood a (A ++ (xs, cap) :: B)) (j : Nat) (hj : j ≤ xs.length) (v : T)
    (hr : xs.length + 1 ≤ cap) :
    ∃ a', a.viewEmplace c A.length j v = .ok a' ∧ AGood a' (A ++ (xs.take j ++ v :: xs.drop j, cap) :: B) ∧
      a.values.cap ≤ a'.values.cap := by
  unfold AoA.viewEmplace
  have hw := h.lay.toWin IsRaw
  rw [← List.take_append_drop j xs] at hw
  obtain ⟨b1, h1, w⟩ := hw.emplace c v (by rw [List.take_append_drop]; exact hr)
  rw [List.take_append_drop, List.length_take, Nat.min_eq_left hj] at h1
  obtain ⟨s', h2, hg⟩ := h.afterRow (c := c) w
  have hl : (xs.take j ++ v :: xs.drop j).length = xs.length + 1 := by simp; omega
  rw [hl] at h2
  rw [ShGood.checkInsertBounds2 h.shape (by simp) (by simpa [szs] using hj), bind_ok, h.capCheck hr, bind_ok, h.ptr, bind_ok,
    h.shape.sizeOfAt rfl, bind_ok, h1, bind_ok, h2, bind_ok]
  exact ⟨_, rfl, hg, by rw [w.capEq]; exact Nat.le_refl _⟩

theorem viewInsert [Inhabited T] (h : AGood a (A ++ (xs, cap) :: B)) (j : Nat) (hj : j ≤ xs.length) (vs : List T)
    (hr : xs.length + vs.length ≤ cap) (hd : c.debug = true → vs ≠ [] ∨ 0 < a.values.cap) :
    ∃ a', a.viewInsertIntoArray c A.length j vs = .ok a' ∧ AGood a' (A ++ (xs.take j ++ vs ++ xs.drop j, cap) :: B) ∧
      a.values.cap ≤ a'.values.cap := by
  unfold AoA.viewInsertIntoArray
  have hroom := h.lay.room
  simp at hroom
  obtain ⟨b1, h1, w⟩ := (h.lay.toWin IsRaw).insertMany (c := c) j hj vs hr (fun hdb => by
    rcases hd hdb with hv | hv
    · have : 0 < vs.length := List.length_pos_iff.2 hv
      omega
    · exact hv)
  obtain ⟨s', h2, hg⟩ := h.afterRow (c := c) w
  have hl : (xs.take j ++ vs ++ xs.drop j).length = xs.length + vs.length := by simp; omega
  rw [hl] at h2
  rw [ShGood.checkInsertBounds2 h.shape (by simp) (by simpa [szs] using hj), bind_ok, h.capCheck hr, bind_ok, h.ptr, bind_ok,
    h.shape.sizeOfAt rfl, bind_ok, h1, bind_ok, h2, bind_ok]
  exact ⟨_, rfl, hg, by rw [w.capEq]; exact Nat.le_refl _⟩

theorem eraseFromArray (h : AGood a (A ++ (xs, cap) :: B)) (j n : Nat) (hj : j < xs.length) (hn : j + n ≤ xs.length) :
    ∃ a', a.eraseFromArray c A.length j n = .ok a' ∧ AGood a' (A ++ (xs.take j ++ xs.drop (j + n), cap) :: B) ∧
      a.values.cap ≤ a'.values.cap := by
  unfold AoA.eraseFromArray
  obtain ⟨b1, h1, w⟩ := (h.lay.toWin IsRaw).eraseMany (c := c) j n hn
  obtain ⟨s', h2, hg⟩ := h.afterRow (c := c) w
  have hl : (xs.take j ++ xs.drop (j + n)).length = xs.length - n := by simp; omega
  rw [hl] at h2
  rw [ShGood.checkBounds2 h.shape (by simp) (by simpa [szs] using hj), bind_ok, h.ptr, bind_ok,
    h.shape.sizeOfAt rfl, bind_ok, h1, bind_ok, h2, bind_ok]
  exact ⟨_, rfl, hg, by rw [w.capEq]; exact Nat.le_refl _⟩

/-! ### Capacity of one array -/

theorem updateOffsetsAt {s : Shape} (h : LShape s (A ++ (xs, cap) :: B)) (f : Nat → Nat) (n : Nat)
    (hf : ∀ x, f (x + cap) = x + n) :
    ∃ s', s.updateOffsets c A.length f = .ok s' ∧ ShGood s' (szs (A ++ (xs, cap) :: B)) (caps (A ++ (xs, n) :: B)) := by
  have e : (caps (A ++ (xs, cap) :: B)).set A.length n = caps (A ++ (xs, n) :: B) := by
    simp only [caps_append, caps_cons]
    rw [List.set_append_right _ _ (by simp)]
    simp
  rw [← e]
  refine ShGood.updateOffsets h f (by simp) n ?_
  intro k hk1 hk2
  have hget : (caps (A ++ (xs, cap) :: B))[A.length]'(by simp) = cap := by simp [caps]
  have hs := take_set_sum (caps (A ++ (xs, cap) :: B)) (i := A.length) (by simp) n k hk2
  rw [if_pos hk1, if_pos hk1, hget] at hs
  obtain ⟨y, hy⟩ : ∃ y, ((caps (A ++ (xs, cap) :: B)).take k).sum = y + cap := by
    refine ⟨((caps (A ++ (xs, cap) :: B)).take k).sum - cap, ?_⟩
    have h1 := take_sum_le (caps (A ++ (xs, cap) :: B)) (i := A.length + 1) (j := k) hk1
    have h2 := take_sum_succ (caps (A ++ (xs, cap) :: B)) (i := A.length) (by simp)
    rw [hget] at h2
    omega
  rw [hy, hf]
  omega

theorem setCapacity (h : AGood a (A ++ (xs, cap) :: B)) (n : Nat) :
    Out a.values.cap (Room c a (A ++ (xs, cap) :: B) (total (A ++ (xs.take n, n) :: B)))
      (a.setCapacityOfArray c A.length n) (A ++ (xs.take n, n) :: B) := by
  unfold AoA.setCapacityOfArray
  have hfx := h.lay.fits (xs, cap) (by simp)
  simp only at hfx
  rw [h.checkBounds (by simp), bind_ok, h.shape.capacityOfAt rfl, bind_ok]
  simp only
  by_cases he : n = cap
  · subst he
    rw [if_pos rfl, List.take_of_length_le hfx]
    exact .inl ⟨.inl (by have := h.lay.room; simpa using this), a, rfl, h, Nat.le_refl _⟩
  rw [if_neg he]
  by_cases hlt : cap < n
  · rw [if_pos hlt, List.take_of_length_le (by omega)]
    have hbump : bump (A ++ (xs, cap) :: B) A.length (n - cap) = A ++ (xs, n) :: B := by
      rw [bump_at]
      simp only
      rw [show cap + (n - cap) = n by omega]
    have htot : total (A ++ (xs, cap) :: B) + (n - cap) = total (A ++ (xs, n) :: B) := by simp; omega
    rcases h.shape.growRow (c := c) (i := A.length) (by simp) (n - cap) h.lay with ⟨hp, b', h1, h2, hc⟩ | ⟨hp, h1⟩
    · obtain ⟨s', h3, h4⟩ := updateOffsetsAt (c := c) h.shape (· + (n - cap)) n (fun x => by omega)
      rw [h1, bind_ok, h3, bind_ok]
      rw [hbump] at h2
      rw [htot] at hp
      refine .inl ⟨hp, _, rfl, ⟨?_, h2⟩, hc⟩
      have e1 : szs (A ++ (xs, cap) :: B) = szs (A ++ (xs, n) :: B) := by simp
      rw [e1] at h4
      exact h4
    · rw [htot] at hp
      rw [h1, bind_err]
      exact .inr ⟨hp, rfl⟩
  · rw [if_neg hlt]
    have hlt' : n < cap := by omega
    left
    refine ⟨.inl (by have := h.lay.room; simp at this ⊢; omega), ?_⟩
    have hmin : min xs.length n = (xs.take n).length := by simp; omega
    obtain ⟨s1, h1, hs1⟩ := setSizeAt (c := c) h.shape (xs.take n)
    rw [← hmin] at h1
    have e1 : a.shape.offsets.read A.length = .ok (total A) := h.shape.readOffAt rfl
    have e2 : a.shape.sizeOfArray c A.length = .ok xs.length := h.shape.sizeOfAt rfl
    obtain ⟨b1, h2, w, hcap1⟩ := (h.lay.toWin IsRaw).truncate (c := c) (min xs.length n) (by omega)
    have ht : xs.take (min xs.length n) = xs.take n := by
      rw [Nat.min_comm, ← List.take_take, List.take_length]
    rw [ht] at w
    have hl1 := h.lay.ofWin w
    -- shift the later rows down
    have hbump : bump (A ++ (xs.take n, n) :: B) A.length (cap - n) = A ++ (xs.take n, cap) :: B := by
      rw [bump_at]
      simp only
      rw [show n + (cap - n) = cap by omega]
    have hshift : ∃ b2, s1.shiftRowsDown c A.length (cap - n) b1 = .ok b2 ∧ Lay b2 (A ++ (xs.take n, n) :: B) ∧
        b2.cap = b1.cap := by
      refine LShape.shiftRowsDown (L := A ++ (xs.take n, n) :: B) (cs := caps (A ++ (xs.take n, cap) :: B)) ?_ (by simp)
        ?_ (by simp) (by rw [hbump]; exact hl1) ?_
      · have : szs (A ++ (xs.take n, n) :: B) = szs (A ++ (xs.take n, cap) :: B) := by simp
        rw [this]; exact hs1
      · intro k hk1 hk2
        rw [caps_take, caps_sum, List.take_append, List.take_append]
        simp only [total_append]
        obtain ⟨m, hm⟩ : ∃ m, k - A.length = m + 1 := ⟨k - A.length - 1, by omega⟩
        rw [hm]
        simp; omega
      · intro r hr
        simp only [List.mem_append, List.mem_cons] at hr
        rcases hr with hr | rfl | hr
        · exact h.lay.fits r (by simp [hr])
        · simp; omega
        · exact h.lay.fits r (by simp [hr])
    obtain ⟨b2, h3, hl2, hcap2⟩ := hshift
    obtain ⟨s2, h4, hs2⟩ := updateOffsetsAt (c := c) hs1 (· - (cap - n)) n (fun x => by omega)
    rw [e1, bind_ok, e2, bind_ok, h1, bind_ok]
    unfold Shape.shrinkRow
    rw [h2, bind_ok, h3, bind_ok, h4, bind_ok]
    refine ⟨_, rfl, ⟨?_, hl2⟩, by simp only; omega⟩
    have e3 : szs (A ++ (xs.take n, cap) :: B) = szs (A ++ (xs.take n, n) :: B) := by simp
    rw [e3] at hs2
    exact hs2

/-- Shrinking the capacity of an array never fails. -/
theorem setCapacityZero (h : AGood a (A ++ (xs, cap) :: B)) :
    ∃ a', a.setCapacityOfArray c A.length 0 = .ok a' ∧ AGood a' (A ++ ([], 0) :: B) ∧ a.values.cap ≤ a'.values.cap := by
  have hroom := h.lay.room
  simp at hroom
  rcases h.setCapacity (c := c) 0 with h1 | ⟨h2, _⟩
  · simpa using h1.2
  · exact absurd (.inl (by simp; omega)) h2

/-- The capacity `dynamicallyGrowArray` gives a row that is to receive `k` more elements. -/
def grownTo (xs : List T) (cap k : Nat) : Nat := if cap < xs.length + k then 2 * (xs.length + k) else cap

theorem le_grownTo (xs : List T) (cap k : Nat) : xs.length + k ≤ grownTo xs cap k := by
  unfold grownTo; split <;> omega

theorem cap_le_grownTo (xs : List T) (cap k : Nat) : cap ≤ grownTo xs cap k := by
  unfold grownTo; split <;> omega

theorem dynamicallyGrow (h : AGood a (A ++ (xs, cap) :: B)) (k : Nat) :
    Out a.values.cap (Room c a (A ++ (xs, cap) :: B) (total (A ++ (xs, grownTo xs cap k) :: B)))
      (a.dynamicallyGrowArray c A.length k) (A ++ (xs, grownTo xs cap k) :: B) := by
  unfold AoA.dynamicallyGrowArray AoA.growIf grownTo
  rw [h.shape.sizeOfAt rfl, bind_ok, h.shape.capacityOfAt rfl, bind_ok]
  simp only
  by_cases hg : cap < xs.length + k
  · simp only [hg, decide_true, if_true]
    have := h.setCapacity (c := c) (2 * (xs.length + k))
    rw [List.take_of_length_le (by omega)] at this
    exact this
  · simp only [hg, decide_false, if_false, Bool.false_eq_true]
    exact .inl ⟨.inl h.lay.room, a, rfl, h, Nat.le_refl _⟩

/-! ### Owning operations on one row -/

theorem emplaceBack (h : AGood a (A ++ (xs, cap) :: B)) (v : T) :
    Out a.values.cap (Room c a (A ++ (xs, cap) :: B) (total (A ++ (xs ++ [v], grownTo xs cap 1) :: B)))
      (a.emplaceBack c A.length v) (A ++ (xs ++ [v], grownTo xs cap 1) :: B) :=
  Out.congr ((h.dynamicallyGrow 1).bind (fun _ hg => hg.viewEmplaceBack v (le_grownTo _ _ _))) (by simp [Room])

theorem appendToArray [Inhabited T] (h : AGood a (A ++ (xs, cap) :: B)) (vs : List T) :
    Out a.values.cap (Room c a (A ++ (xs, cap) :: B) (total (A ++ (xs ++ vs, grownTo xs cap vs.length) :: B)))
      (a.appendToArray c A.length vs) (A ++ (xs ++ vs, grownTo xs cap vs.length) :: B) :=
  Out.congr ((h.dynamicallyGrow vs.length).bind (fun _ hg => hg.viewAppend vs (le_grownTo _ _ _))) (by simp [Room])

theorem emplace (h : AGood a (A ++ (xs, cap) :: B)) (j : Nat) (hj : j ≤ xs.length) (v : T) :
    Out a.values.cap (Room c a (A ++ (xs, cap) :: B) (total (A ++ (xs.take j ++ v :: xs.drop j, grownTo xs cap 1) :: B)))
      (a.emplace c A.length j v) (A ++ (xs.take j ++ v :: xs.drop j, grownTo xs cap 1) :: B) :=
  Out.congr ((h.dynamicallyGrow 1).bind (fun _ hg => hg.viewEmplace j hj v (le_grownTo _ _ _))) (by simp [Room])

theorem insertIntoArray [Inhabited T] (h : AGood a (A ++ (xs, cap) :: B)) (j : Nat) (hj : j ≤ xs.length) (vs : List T)
    (hd : c.debug = true → vs ≠ []) :
    Out a.values.cap (Room c a (A ++ (xs, cap) :: B) (total (A ++ (xs.take j ++ vs ++ xs.drop j, grownTo xs cap vs.length) :: B)))
      (a.insertIntoArray c A.length j vs) (A ++ (xs.take j ++ vs ++ xs.drop j, grownTo xs cap vs.length) :: B) :=
  Out.congr ((h.dynamicallyGrow vs.length).bind
    (fun _ hg => hg.viewInsert j hj vs (le_grownTo _ _ _) (fun hdb => .inl (hd hdb)))) (by simp [Room])

theorem resizeArray (h : AGood a (A ++ (xs, cap) :: B)) (n : Nat) (v : T) :
    Out a.values.cap (Room c a (A ++ (xs, cap) :: B) (total (A ++ (xs.take n ++ List.replicate (n - xs.length) v, max cap n) :: B)))
      (a.resizeArray c A.length n v) (A ++ (xs.take n ++ List.replicate (n - xs.length) v, max cap n) :: B) := by
  have hfx := h.lay.fits (xs, cap) (by simp)
  simp only at hfx
  unfold AoA.resizeArray
  rw [h.checkBounds (by simp), bind_ok, h.shape.capacityOfAt rfl, bind_ok]
  have hgrow : Out a.values.cap (Room c a (A ++ (xs, cap) :: B) (total (A ++ (xs, max cap n) :: B)))
      (AoA.growIf c (decide (cap < n)) a A.length n) (A ++ (xs, max cap n) :: B) := by
    unfold AoA.growIf
    by_cases hg : cap < n
    · simp only [hg, decide_true, if_true]
      have := h.setCapacity (c := c) n
      rw [List.take_of_length_le (by omega)] at this
      rw [Nat.max_eq_right (by omega)]
      exact this
    · simp only [hg, decide_false, if_false, Bool.false_eq_true]
      rw [Nat.max_eq_left (by omega)]
      exact .inl ⟨.inl h.lay.room, a, rfl, h, Nat.le_refl _⟩
  refine Out.congr (hgrow.bind (fun a1 hg => ?_)) (by simp [Room])
  obtain ⟨b1, h1, w⟩ := (hg.lay.toWin IsRaw).resizeTo (c := c) n (by omega) v
  obtain ⟨s', h2, hg2⟩ := hg.afterRow (c := c) w
  have hl : (xs.take n ++ List.replicate (n - xs.length) v).length = n := by simp; omega
  rw [hl] at h2
  rw [hg.shape.sizeOfAt rfl, bind_ok, hg.checkBounds (by simp), bind_ok, hg.ptr, bind_ok, h1, bind_ok, h2, bind_ok]
  exact ⟨_, rfl, hg2, by rw [w.capEq]; exact Nat.le_refl _⟩

/-! ### Operations on the array of rows -/

theorem appendRow (h : AGood a L) :
    ∃ s', a.shape.appendRow c = .ok s' ∧ s'.numArrays = L.length + 1 ∧ AGood { a with shape := s' } (L ++ [([], 0)]) := by
  obtain ⟨s', h1, h2⟩ := ShGood.appendRow (c := c) h.shape
  refine ⟨s', h1, by rw [h2.num]; simp, ?_, ?_⟩
  · have e1 : L.szs ++ [0] = szs (L ++ [([], 0)]) := by simp
    have e2 : L.caps ++ [0] = caps (L ++ [([], 0)]) := by simp
    rw [e1, e2] at h2
    exact h2
  · exact h.lay.addEmpty (by simp) (by have := h.lay.room; simpa using this)

theorem movable_addEmpty : Lay.Movable c (A ++ ([], 0) :: B) ↔ Lay.Movable c (A ++ B) := by
  unfold Lay.Movable Packed
  simp only [List.mem_append, List.mem_cons]
  grind

theorem appendArraySize [Inhabited T] (h : AGood a L) (n : Nat) :
    Out a.values.cap (Room c a L (total (L ++ [(List.replicate n default, n)]))) (a.appendArraySize c n)
      (L ++ [(List.replicate n default, n)]) := by
  unfold AoA.appendArraySize
  obtain ⟨s', h1, h2, h3⟩ := h.appendRow (c := c)
  rw [h1, bind_ok, h2, Nat.add_sub_cancel]
  have := (h3.resizeArray (c := c) n (default : T)).congr (Q := Room c a L (total (L ++ [(List.replicate n default, n)])))
    (by unfold Room; rw [movable_addEmpty (B := [])]; simp)
  simpa using this

theorem appendArray [Inhabited T] (h : AGood a L) (vs : List T) :
    Out a.values.cap (Room c a L (total (L ++ [(vs, 2 * vs.length)]))) (a.appendArray c vs) (L ++ [(vs, 2 * vs.length)]) := by
  unfold AoA.appendArray
  obtain ⟨s', h1, h2, h3⟩ := h.appendRow (c := c)
  rw [h1, bind_ok, h2, Nat.add_sub_cancel]
  have := h3.appendToArray (c := c) vs
  have hg : grownTo ([] : List T) 0 vs.length = 2 * vs.length := by
    unfold grownTo; simp only [List.length_nil, Nat.zero_add]; split <;> omega
  rw [hg] at this
  have := this.congr (Q := Room c a L (total (L ++ [(vs, 2 * vs.length)])))
    (by unfold Room; rw [movable_addEmpty (B := [])]; simp)
  simpa using this

theorem insertRow (h : AGood a (A ++ B)) :
    ∃ s', a.shape.insertRow c A.length = .ok s' ∧ AGood { a with shape := s' } (A ++ ([], 0) :: B) := by
  obtain ⟨s', h1, h2⟩ := ShGood.insertRow (c := c) h.shape (i := A.length) (by simp)
  have e1 : (szs (A ++ B)).take A.length ++ 0 :: (szs (A ++ B)).drop A.length = szs (A ++ ([], 0) :: B) := by
    rw [szs_append, List.take_append_of_le_length (by simp), List.take_of_length_le (by simp),
      List.drop_append_of_le_length (by simp), List.drop_of_length_le (by simp)]
    simp
  have e2 : (caps (A ++ B)).take A.length ++ 0 :: (caps (A ++ B)).drop A.length = caps (A ++ ([], 0) :: B) := by
    rw [caps_append, List.take_append_of_le_length (by simp), List.take_of_length_le (by simp),
      List.drop_append_of_le_length (by simp), List.drop_of_length_le (by simp)]
    simp
  rw [e1, e2] at h2
  exact ⟨s', h1, h2, h.lay.insertEmpty⟩

theorem insertArray [Inhabited T] (h : AGood a (A ++ B)) (vs : List T) :
    Out a.values.cap (Room c a (A ++ B) (total (A ++ (vs, 2 * vs.length) :: B))) (a.insertArray c A.length vs)
      (A ++ (vs, 2 * vs.length) :: B) := by
  unfold AoA.insertArray
  obtain ⟨s', h1, h3⟩ := h.insertRow (c := c)
  rw [h1, bind_ok]
  have := h3.appendToArray (c := c) vs
  have hg : grownTo ([] : List T) 0 vs.length = 2 * vs.length := by
    unfold grownTo; simp only [List.length_nil, Nat.zero_add]; split <;> omega
  rw [hg] at this
  have := this.congr (Q := Room c a (A ++ B) (total (A ++ (vs, 2 * vs.length) :: B)))
    (by unfold Room; rw [movable_addEmpty]; simp)
  simpa using this

theorem eraseArray (h : AGood a (A ++ (xs, cap) :: B)) :
    ∃ a', a.eraseArray c A.length = .ok a' ∧ AGood a' (A ++ B) ∧ a.values.cap ≤ a'.values.cap := by
  unfold AoA.eraseArray
  obtain ⟨a1, h1, hg, hc⟩ := h.setCapacityZero (c := c)
  obtain ⟨s', h2, h3⟩ := ShGood.eraseRow (c := c) hg.shape (i := A.length) (by simp) (by simp [caps])
  rw [h.checkBounds (by simp), bind_ok, h1, bind_ok, h2, bind_ok]
  refine ⟨_, rfl, ⟨?_, hg.lay.removeEmpty⟩, hc⟩
  have e1 : (szs (A ++ ([], 0) :: B)).eraseIdx A.length = szs (A ++ B) := by
    rw [szs_append, List.eraseIdx_append_of_length_le (by simp)]
    simp
  have e2 : (caps (A ++ ([], 0) :: B)).eraseIdx A.length = caps (A ++ B) := by
    rw [caps_append, List.eraseIdx_append_of_length_le (by simp)]
    simp
  rw [e1, e2] at h3
  exact h3

theorem reserve (h : AGood a L) (n : Nat) :
    ∃ a', a.reserve c n = .ok a' ∧ AGood a' L ∧ a.values.cap ≤ a'.values.cap := by
  unfold AoA.reserve
  obtain ⟨s', h1, h2⟩ := ShGood.reserve (c := c) h.shape n
  rw [h1, bind_ok]
  exact ⟨_, rfl, ⟨h2, h.lay⟩, Nat.le_refl _⟩

theorem reserveValues (h : AGood a L) (n : Nat) :
    Out a.values.cap (Room c a L n) (a.reserveValues c n) L ∧ ∀ a', a.reserveValues c n = .ok a' → n ≤ a'.values.cap := by
  unfold AoA.reserveValues Shape.reserveValues
  have hread : a.shape.offsets.read a.shape.numArrays = .ok (total L) := ShGood.readLast h.shape
  rw [hread, bind_ok]
  by_cases hp : Room c a L n
  · obtain ⟨b', h1, h2, h3, h4⟩ := h.lay.reserve (c := c) n hp
    rw [h1, bind_ok]
    exact ⟨.inl ⟨hp, _, rfl, ⟨h.shape, h2⟩, h4⟩, fun a' ha => by cases ha; exact h3⟩
  · have hp' := hp
    unfold Room at hp'
    rw [h.lay.reserve_ub (c := c) n (by grind) (by grind), bind_err]
    exact ⟨.inr ⟨hp, rfl⟩, fun a' ha => by cases ha⟩

theorem compress (h : AGood a L) :
    ∃ a', a.compress c = .ok a' ∧ AGood a' (L.map LShape.tight) ∧ a.values.cap ≤ a'.values.cap := by
  unfold AoA.compress
  obtain ⟨s', b', h1, h2, h3, h4⟩ := h.shape.compress (c := c) h.lay
  rw [h1, bind_ok]
  exact ⟨_, rfl, ⟨h2, h3⟩, by simp only; omega⟩

end AGood

/-- Like `AGood`, but the offsets of an object without arrays need not be allocated (default-constructed buffers, `free`). -/
structure AWeak (a : AoA T) (L : Layout T) : Prop where
  shape : ShWeak a.shape L.szs L.caps
  lay : Lay a.values L

theorem AGood.weak {a : AoA T} {L : Layout T} (h : AGood a L) : AWeak a L := ⟨h.shape.weak, h.lay⟩

/-- The state before the constructor body runs. -/
theorem AWeak.fresh : AWeak ({ shape := { numArrays := 0, offsets := .empty, sizes := .empty }, values := .empty } : AoA T) [] :=
  ⟨.inr ⟨⟨rfl, ⟨rfl, fun _ _ => rfl⟩, ⟨⟨rfl, Nat.le_refl _⟩, rfl⟩⟩, rfl, rfl⟩, ⟨rfl, by simp, by simp, rfl, rfl⟩⟩

namespace AWeak

variable {a : AoA T} {L A B : Layout T} {c : Cfg}

theorem numArrays (h : AWeak a L) : a.shape.numArrays = L.length := by rw [h.shape.num]; simp

theorem destroyAll (h : AWeak a L) :
    ∃ b', a.shape.destroyValues c 0 a.shape.numArrays a.values = .ok b' ∧ Lay b' [] ∧ b'.cap = a.values.cap := by
  rcases h.shape with hs | ⟨hs, h1, _⟩
  · exact LShape.destroyValues (A := []) (B := L) hs h.lay
  · have hL : L = [] := by simpa [szs] using h1
    subst hL
    unfold Shape.destroyValues Shape.checkInsertBounds
    rw [hs.1]
    exact ⟨a.values, by simp [errorIf, forUp], h.lay, rfl⟩

theorem resizeShrink (h : AWeak a (A ++ B)) (hB : B ≠ []) (d : Nat) :
    ∃ a', a.resize c A.length d = .ok a' ∧ AGood a' A ∧ a.values.cap ≤ a'.values.cap := by
  have hBl : 0 < B.length := List.length_pos_iff.2 hB
  have hs : ShGood a.shape (szs (A ++ B)) (caps (A ++ B)) := by
    rcases h.shape with hs | ⟨hs, h1, _⟩
    · exact hs
    · have := congrArg List.length h1; simp only [szs_length, List.length_append, List.length_nil] at this; omega
  unfold AoA.resize
  rw [h.numArrays, if_pos (by simp; omega)]
  obtain ⟨b', h1, h2, h3⟩ := LShape.destroyValues (c := c) hs h.lay
  rw [ShGood.num hs] at h1
  simp only [caps_length, List.length_append] at h1
  obtain ⟨s', h4, h5⟩ := hs.dropRows (c := c) (n := A.length) (by simp; omega)
  rw [List.length_append, h1, bind_ok, h4, bind_ok]
  refine ⟨_, rfl, ⟨?_, h2⟩, by simp only; omega⟩
  have e1 : (szs (A ++ B)).take A.length = szs A := by rw [szs_take]; simp
  have e2 : (caps (A ++ B)).take A.length = caps A := by rw [caps_take]; simp
  rw [e1, e2] at h5
  exact h5

theorem resizeGrow (h : AWeak a L) (n d : Nat) (hn : L.length ≤ n) :
    Out a.values.cap (Room c a L (total (L ++ List.replicate (n - L.length) ([], d)))) (a.resize c n d)
      (L ++ List.replicate (n - L.length) ([], d)) := by
  unfold AoA.resize
  rw [h.numArrays, if_neg (by omega)]
  obtain ⟨s', h1, h2, h3⟩ := h.shape.addRows (c := c) (n := n) (by simpa using hn) d
  rw [h1, bind_ok]
  have e1 : L.szs ++ List.replicate (n - L.caps.length) 0 = szs (L ++ List.replicate (n - L.length) ([], d)) := by
    simp [szs]
  have e2 : L.caps ++ List.replicate (n - L.caps.length) d = caps (L ++ List.replicate (n - L.length) ([], d)) := by
    simp [caps]
  rw [e1, e2] at h3
  have hlen : (L ++ List.replicate (n - L.length) (([] : List T), d)).length = n := by simp; omega
  have hempty : ∀ r ∈ List.replicate (n - L.length) (([] : List T), d), r.1 = [] := by
    intro r hr; rw [List.eq_of_mem_replicate hr]
  unfold Shape.addRowsReserve
  by_cases hd : 0 < d
  · rw [if_pos hd]
    have r1 : s'.offsets.read n = .ok (total (L ++ List.replicate (n - L.length) ([], d))) := by
      have := ShGood.readLast h3
      rw [caps_sum] at this
      exact this
    have r2 : s'.offsets.read s'.numArrays = .ok (total L) := by
      rw [h2]
      simp only [caps_length]
      exact LShape.readOffAt (s := { s' with numArrays := n }) h3 rfl
    rw [r1, bind_ok, r2, bind_ok]
    by_cases hp : Room c a L (total (L ++ List.replicate (n - L.length) ([], d)))
    · obtain ⟨b', h4, h5, h6, h7⟩ := h.lay.reserve (c := c) _ hp
      rw [h4, bind_ok]
      refine .inl ⟨hp, _, rfl, ⟨h3, h5.addEmpty hempty (by simpa using h6)⟩, h7⟩
    · have hp' := hp
      unfold Room at hp'
      rw [h.lay.reserve_ub (c := c) _ (by grind) (by grind), bind_err]
      exact .inr ⟨hp, rfl⟩
  · rw [if_neg hd]
    have hd0 : d = 0 := by omega
    subst hd0
    have ht : total (L ++ List.replicate (n - L.length) (([] : List T), 0)) = total L := by
      simp [total]
    have hroom := h.lay.room
    refine .inl ⟨.inl (by rw [ht]; exact hroom), _, rfl, ⟨h3, h.lay.addEmpty hempty ?_⟩, Nat.le_refl _⟩
    rw [← total_append, ht]; exact hroom

theorem resizeFromCapacities (h : AWeak a L) (cs : List Nat) :
    ∃ a', a.resizeFromCapacities c cs = .ok a' ∧ AGood a' (cs.map fun n => (([] : List T), n)) ∧
      a.values.cap ≤ a'.values.cap := by
  unfold AoA.resizeFromCapacities
  obtain ⟨b', h1, h2, h3⟩ := h.destroyAll (c := c)
  obtain ⟨s', h4, h5⟩ := h.shape.fromCapacities (c := c) cs
  rw [h1, bind_ok, h4, bind_ok]
  unfold Shape.fromCapacitiesReserve
  have e1 : List.replicate cs.length 0 = szs (cs.map fun n => (([] : List T), n)) := by
    simp [szs, Function.comp_def, List.map_const']
  have e2 : cs = caps (cs.map fun n => (([] : List T), n)) := by simp [caps, Function.comp_def]
  have h5' : LShape s' (cs.map fun n => (([] : List T), n)) := by
    show ShGood s' _ _
    rw [← e1, ← e2]; exact h5
  have hread : s'.offsets.read s'.numArrays = .ok (total (cs.map fun n => (([] : List T), n))) := ShGood.readLast h5'
  rw [hread, bind_ok]
  obtain ⟨b2, h6, h7, h8, h9⟩ := h2.reserve (c := c) (total (cs.map fun n => (([] : List T), n)))
    (.inr (.inr (by intro r hr; simp at hr)))
  simp only [total_nil] at h6
  rw [h6, bind_ok]
  refine ⟨_, rfl, ⟨h5', ?_⟩, by simp only; omega⟩
  have := h7.addEmpty (B := cs.map fun n => (([] : List T), n)) (by
    intro r hr
    simp only [List.mem_map] at hr
    obtain ⟨_, _, rfl⟩ := hr
    rfl) (by simpa using h8)
  simpa using this

end AWeak

end LvArray

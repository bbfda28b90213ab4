import Verif.OwnRows
import Verif.AoALemmas

/-!
# Lemmas about calls with arguments in the object itself
-/

namespace LvArray

open Layout Spec

variable {T : Type}

/-! ### Rows in memory -/

/-- The element in a slot. -/
def Cell.value? : Cell T → Option T
  | .live v => some v
  | _ => none

/-- `slots` position by position. -/
def slotAt : List (List (Option T) × Nat) → Nat → Option T
  | [], _ => none
  | (xs, cap) :: S, k => if k < cap then xs[k]?.join else slotAt S (k - cap)

theorem slots_at {S : List (List (Option T) × Nat)} (hf : ∀ r ∈ S, r.1.length ≤ r.2) (k : Nat) :
    (slots S)[k]?.join = slotAt S k := by
  induction S generalizing k with
  | nil => simp [slots, slotAt]
  | cons r S ih =>
    obtain ⟨xs, cap⟩ := r
    have hx : xs.length ≤ cap := hf (xs, cap) (by simp)
    have ih := ih (fun q hq => hf q (by simp [hq]))
    unfold slots at ih ⊢
    rw [List.flatMap_cons, slotAt]
    by_cases hk : k < cap
    · rw [if_pos hk, List.getElem?_append_left (by simp only [List.length_append, List.length_replicate]; omega)]
      simp only
      by_cases hk2 : k < xs.length
      · rw [List.getElem?_append_left hk2]
      · rw [List.getElem?_append_right (by omega), List.getElem?_replicate, if_pos (by omega),
          List.getElem?_eq_none (l := xs) (by omega)]
        rfl
    · rw [if_neg hk, List.getElem?_append_right (by simp only [List.length_append, List.length_replicate]; omega), ← ih]
      simp only [List.length_append, List.length_replicate]
      rw [show xs.length + (cap - xs.length) = cap by omega]

theorem slotAt_stored (L : Layout T) (k : Nat) : slotAt (stored L) k = (cells L k).value? := by
  induction L generalizing k with
  | nil => rfl
  | cons r L ih =>
    obtain ⟨xs, cap⟩ := r
    simp only [stored, List.map_cons, slotAt, cells] at ih ⊢
    by_cases hk : k < cap
    · rw [if_pos hk, if_pos hk, List.getElem?_map]
      by_cases hx : k < xs.length
      · rw [List.getElem?_eq_getElem hx, cellsOf_lt hx]; rfl
      · rw [List.getElem?_eq_none (by omega), cellsOf_ge (by omega)]; rfl
    · rw [if_neg hk, if_neg hk]; exact ih _

theorem slotAt_append (S S' : List (List (Option T) × Nat)) (k : Nat) :
    slotAt (S ++ S') k = if k < extent S then slotAt S k else slotAt S' (k - extent S) := by
  induction S generalizing k with
  | nil => simp [extent]
  | cons r S ih =>
    obtain ⟨xs, cap⟩ := r
    have he : extent ((xs, cap) :: S) = cap + extent S := by simp [extent]
    rw [List.cons_append, slotAt, he]
    by_cases h1 : k < cap
    · rw [if_pos h1, if_pos (by omega), slotAt, if_pos h1]
    · rw [if_neg h1, ih]
      by_cases h2 : k - cap < extent S
      · rw [if_pos h2, if_pos (by omega), slotAt, if_neg h1]
      · rw [if_neg h2, if_neg (by omega), Nat.sub_sub]

@[simp] theorem stored_append (A B : Layout T) : stored (A ++ B) = stored A ++ stored B := by simp [stored]
@[simp] theorem stored_cons (r : List T × Nat) (B : Layout T) : stored (r :: B) = (r.1.map some, r.2) :: stored B := rfl
@[simp] theorem stored_length (A : Layout T) : (stored A).length = A.length := by simp [stored]
@[simp] theorem extent_stored (A : Layout T) : extent (stored A) = total A := by
  simp [extent, stored, total, List.map_map, Function.comp_def]
@[simp] theorem extent_append (S S' : List (List (Option T) × Nat)) : extent (S ++ S') = extent S + extent S' := by
  simp [extent]
@[simp] theorem extent_cons (r : List (Option T) × Nat) (S : List (List (Option T) × Nat)) : extent (r :: S) = r.2 + extent S := by
  simp [extent]

theorem modify_middle {α : Type} (A B : List α) (r : α) (f : α → α) : (A ++ r :: B).modify A.length f = A ++ f r :: B := by
  induction A with
  | nil => rfl
  | cons x A ih => simp only [List.cons_append, List.length_cons, List.modify_succ_cons, ih]

theorem stored_modify (A B : Layout T) (r : List T × Nat) (f : List (Option T) × Nat → List (Option T) × Nat) :
    (stored (A ++ r :: B)).modify A.length f = stored A ++ f (r.1.map some, r.2) :: stored B := by
  have := modify_middle (stored A) (stored B) (r.1.map some, r.2) f
  rw [stored_length] at this
  rw [stored_append, stored_cons, this]

/-! ### Reading the argument -/

theorem read_live {b : Buf T} {p : Nat} {v : T} (hp : p < b.cap) (h : b.cell p = .live v) : b.read p = .ok v := by
  unfold Buf.read; rw [if_pos hp, h]

theorem read_raw {b : Buf T} {p : Nat} (hp : p < b.cap) (h : b.cell p = .raw) : b.read p = .error (.ub .rawRead) := by
  unfold Buf.read; rw [if_pos hp, h]

theorem cells_cell (L : Layout T) (k : Nat) : cells L k = .raw ∨ ∃ v, cells L k = .live v := by
  induction L generalizing k with
  | nil => exact .inl rfl
  | cons r L ih =>
    obtain ⟨xs, cap⟩ := r
    unfold cells
    split
    · by_cases hx : k < xs.length
      · exact .inr ⟨_, cellsOf_lt hx⟩
      · exact .inl (cellsOf_ge (by omega))
    · exact ih _

/-- A slot with an optional element. -/
def Cell.ofOption : Option T → Cell T
  | some v => .live v
  | none => .raw

/-- The outcome of reading an optional value. -/
def orRaw : Option T → R T
  | some v => .ok v
  | none => .error (.ub .rawRead)

/-- What is found in a slot that held `v`. -/
def staleValue (bytesStay : Bool) (v : T) : Option T → Option T
  | some w => some w
  | none => if bytesStay then some v else none

theorem cells_ofOption (L : Layout T) (k : Nat) : cells L k = Cell.ofOption (cells L k).value? := by
  rcases cells_cell L k with h | ⟨v, h⟩ <;> rw [h] <;> rfl

/-- Reading a slot of a block that was not replaced. -/
theorem readOwn_same (c : Cfg) {a : AoA T} {b : Buf T} {p : Nat} (hcap : b.cap = a.values.cap) (hp : p < b.cap)
    {v : T} (hold : a.values.cell p = .live v) {x : Option T} (hb : b.cell p = Cell.ofOption x) :
    a.readOwn c b p = orRaw (staleValue c.trivial v x) := by
  unfold AoA.readOwn Buf.readStale
  rw [if_neg (by omega)]
  cases x with
  | some w => rw [hb]; exact read_live hp hb
  | none =>
    rw [hb]
    simp only [Cell.ofOption, staleValue]
    split
    · exact read_live (by omega) hold
    · exact read_raw hp hb

/-- The loop reads what is in the block when it begins: no slot is read after it was constructed. -/
theorem constructOwn_ok (c : Cfg) (a : AoA T) (b : Buf T) (q p : Nat) (vs : List T) [Inhabited T]
    (happ : p + vs.length ≤ q ∨ q ≤ p) (hcap : vs.length = 0 ∨ q + vs.length ≤ b.cap)
    (hr : ∀ k, q ≤ k → k < q + vs.length → b.cell k = .raw)
    (hv : ∀ k (hk : k < vs.length), a.readOwn c b (p + k) = .ok vs[k]) :
    a.constructOwn c b q p vs.length = arrayManipulation.constructRange c b q vs.length (fun i => vs.getD i default) := by
  rw [arrayManipulation.constructRange_eq c b q vs.length _ hcap hr]
  unfold AoA.constructOwn
  have := forUp_eq (f := fun k (b : Buf T) => do
      let v ← a.readOwn c b (p + k)
      b.construct c (q + k) v)
    (fun i => { b with cell := fun k => if q ≤ k ∧ k < q + i then .live (vs.getD (k - q) default) else b.cell k })
    vs.length 0 (s := b) ?_ ?_
  · rw [this, Nat.zero_add]
  · cases b; simp only [Buf.mk.injEq, true_and, and_true]; funext k; grind
  · intro i _ hi
    have hi' : i < vs.length := by omega
    have hread : a.readOwn c { b with cell := fun k => if q ≤ k ∧ k < q + i then .live (vs.getD (k - q) default) else b.cell k }
        (p + i) = .ok vs[i] := by
      rw [← hv i hi']
      unfold AoA.readOwn Buf.readStale Buf.read
      simp only
      have : ¬ (q ≤ p + i ∧ p + i < q + i) := by omega
      simp only [this, if_false]
    rw [hread, bind_ok, arrayManipulation.construct_eq]
    · simp only [Except.ok.injEq, Buf.mk.injEq, true_and, and_true]
      funext k
      unfold upd
      by_cases hk : k = q + i
      · subst hk
        rw [if_pos rfl, if_pos (by omega), Nat.add_sub_cancel_left, List.getD_eq_getElem?_getD, List.getElem?_eq_getElem hi']
        rfl
      · rw [if_neg hk]
        show (if q ≤ k ∧ k < q + i then Cell.live (vs.getD (k - q) default) else b.cell k) = _
        by_cases hk2 : q ≤ k ∧ k < q + i
        · rw [if_pos hk2, if_pos (by omega)]
        · rw [if_neg hk2, if_neg (by omega)]
    · show q + i < b.cap; omega
    · show (if _ then _ else _) = _
      rw [if_neg (by omega)]
      exact hr _ (by omega) (by omega)

/-- The loop stops at the first element of the argument that cannot be read. -/
theorem constructOwn_error (c : Cfg) (a : AoA T) (b : Buf T) (q p n : Nat) [Inhabited T] {e : Err}
    (happ : p + n ≤ q ∨ q ≤ p) (hcap : q + n ≤ b.cap) (hr : ∀ k, q ≤ k → k < q + n → b.cell k = .raw)
    (hv : ∀ k, k < n → (∃ v, a.readOwn c b (p + k) = .ok v) ∨ a.readOwn c b (p + k) = .error e)
    (hex : ∃ k, k < n ∧ a.readOwn c b (p + k) = .error e) :
    a.constructOwn c b q p n = .error e := by
  -- the first one
  have hmin : ∃ k, k < n ∧ a.readOwn c b (p + k) = .error e ∧ ∀ i, i < k → ∃ v, a.readOwn c b (p + i) = .ok v := by
    obtain ⟨k, hk, he⟩ := hex
    induction k using Nat.strongRecOn with
    | ind k ih =>
      by_cases h : ∃ i, i < k ∧ a.readOwn c b (p + i) = .error e
      · obtain ⟨i, hi, hie⟩ := h
        exact ih i hi (by omega) hie
      · refine ⟨k, hk, he, fun i hi => ?_⟩
        rcases hv i (by omega) with h1 | h1
        · exact h1
        · exact absurd ⟨i, hi, h1⟩ h
  obtain ⟨k0, hk0, he, hbefore⟩ := hmin
  let val : Nat → T := fun i => match a.readOwn c b (p + i) with | .ok v => v | .error _ => default
  let g : Nat → Buf T := fun i => { b with cell := fun k => if q ≤ k ∧ k < q + i then .live (val (k - q)) else b.cell k }
  have hread : ∀ (i : Nat), i ≤ k0 → a.readOwn c (g i) (p + i) = a.readOwn c b (p + i) := by
    intro i hi
    unfold AoA.readOwn Buf.readStale Buf.read
    simp only [g]
    have : ¬ (q ≤ p + i ∧ p + i < q + i) := by omega
    simp only [this, if_false]
  unfold AoA.constructOwn
  refine forUp_error g n 0 k0 b ?_ (by omega) (by omega) ?_ ?_
  · cases b; simp only [g, Buf.mk.injEq, true_and, and_true]; funext k; grind
  · intro i _ hi
    obtain ⟨v, hv⟩ := hbefore i hi
    rw [hread i (by omega), hv, bind_ok, arrayManipulation.construct_eq]
    · simp only [g, Except.ok.injEq, Buf.mk.injEq, true_and, and_true]
      funext k
      unfold upd
      by_cases hk : k = q + i
      · subst hk
        rw [if_pos rfl, if_pos (by omega), Nat.add_sub_cancel_left]
        simp only [val, hv]
      · rw [if_neg hk]
        show (if q ≤ k ∧ k < q + i then Cell.live (val (k - q)) else b.cell k) = _
        by_cases hk2 : q ≤ k ∧ k < q + i
        · rw [if_pos hk2, if_pos (by omega)]
        · rw [if_neg hk2, if_neg (by omega)]
    · show q + i < b.cap; omega
    · show (if _ then _ else _) = _
      rw [if_neg (by omega)]
      exact hr _ (by omega) (by omega)
  · rw [hread k0 (by omega), he, bind_err]

/-! ### Making room without a new allocation -/

theorem dynamicReserve_id (c : Cfg) {b : Buf T} {L : Layout T} (hb : Lay b L) {n : Nat} (hn : n ≤ b.cap) :
    bufferManipulation.dynamicReserve c b (total L) n = .ok b := by
  unfold bufferManipulation.dynamicReserve
  rw [bufferManipulation.check_ok c b _ hb.room, bind_ok, if_neg (by omega)]

theorem growRow_cap (c : Cfg) {s : Shape} {b b' : Buf T} {L : Layout T} {i d : Nat} (h : LShape s L) (hi : i < L.length)
    (hb : Lay b L) (hn : total L + d ≤ b.cap) (hg : s.growRow c i d b = .ok b') : b'.cap = b.cap := by
  unfold Shape.growRow at hg
  have hread : s.offsets.read s.numArrays = .ok (total L) := ShGood.readLast h
  rw [hread, bind_ok, dynamicReserve_id c hb hn, bind_ok] at hg
  have hbump : Lay b (bump L (L.length - 1) d) := by
    obtain ⟨A, xs, cap, B, rfl, hA, _⟩ := split1 (L := L) (i := L.length - 1) (by omega)
    have hB : B = [] := by
      simp only [List.length_append, List.length_cons] at hA
      exact List.eq_nil_of_length_eq_zero (by omega)
    subst hB
    rw [← hA, bump_at]
    have hf := hb.fits (xs, cap) (by simp)
    simp only at hf
    exact hb.growLast _ (by simp at hn; omega) (by omega)
  obtain ⟨b2, h4, _, h7⟩ := h.shiftRowsUp (c := c) hi hbump hb.fits
  rw [h4] at hg
  cases hg
  exact h7

namespace AGood

variable {a a1 : AoA T} {A B L : Layout T} {xs : List T} {cap : Nat} {c : Cfg}

theorem growInPlace (h : AGood a (A ++ (xs, cap) :: B)) (k : Nat)
    (hn : total (A ++ (xs, grownTo xs cap k) :: B) ≤ a.values.cap) :
    ∃ a1, a.dynamicallyGrowArray c A.length k = .ok a1 ∧ AGood a1 (A ++ (xs, grownTo xs cap k) :: B) ∧
      a1.values.cap = a.values.cap := by
  rcases h.dynamicallyGrow (c := c) k with ⟨_, a1, h1, h2, _⟩ | ⟨h1, _⟩
  · refine ⟨a1, h1, h2, ?_⟩
    unfold AoA.dynamicallyGrowArray AoA.growIf at h1
    rw [h.shape.sizeOfAt rfl, bind_ok, h.shape.capacityOfAt rfl, bind_ok] at h1
    simp only at h1
    unfold grownTo at hn
    by_cases hg : cap < xs.length + k
    · simp only [hg, decide_true, if_true] at h1 hn
      unfold AoA.setCapacityOfArray at h1
      rw [h.checkBounds (by simp), bind_ok, h.shape.capacityOfAt rfl, bind_ok] at h1
      simp only at h1
      rw [if_neg (by omega), if_pos (by omega)] at h1
      cases hr : a.shape.growRow c A.length (2 * (xs.length + k) - cap) a.values with
      | error e => rw [hr, bind_err] at h1; cases h1
      | ok b' =>
        rw [hr, bind_ok] at h1
        have := growRow_cap c h.shape (by simp) h.lay (by simp at hn ⊢; omega) hr
        cases hs : a.shape.updateOffsets c A.length (· + (2 * (xs.length + k) - cap)) with
        | error e => rw [hs, bind_err] at h1; cases h1
        | ok s => rw [hs, bind_ok] at h1; cases h1; exact this
    · simp only [hg, decide_false, if_false, Bool.false_eq_true] at h1
      cases h1; rfl
  · exact absurd (.inl hn) h1

/-- The position of an element. -/
theorem element (h : AGood a (A ++ (xs, cap) :: B)) {k : Nat} (hk : k < xs.length) :
    a.element c A.length k = .ok (total A + k) := by
  unfold AoA.element
  rw [ShGood.checkBounds2 h.shape (by simp) (by simpa [szs] using hk), bind_ok, h.ptr, bind_ok]

theorem iterator (h : AGood a (A ++ B)) (hB : B ≠ []) (lo : Nat) : a.iterator c A.length lo = .ok (total A + lo) := by
  unfold AoA.iterator
  have : 0 < B.length := List.length_pos_iff.2 hB
  rw [h.checkBounds (by simp; omega), bind_ok, h.ptr, bind_ok]

end AGood

/-! ### What the calls do -/

/-- The loop in terms of what is found in the slots of the argument. -/
theorem constructOwn_found (c : Cfg) [Inhabited T] {a : AoA T} {b : Buf T} {q p : Nat} {src : List T} (x : Nat → Option T)
    (hsame : b.cap = a.values.cap) (happ : p + src.length ≤ q ∨ q ≤ p) (hcap : src.length = 0 ∨ q + src.length ≤ b.cap)
    (hr : ∀ k, q ≤ k → k < q + src.length → b.cell k = .raw) (hp : p + src.length ≤ b.cap)
    (hold : ∀ k (hk : k < src.length), a.values.cell (p + k) = .live src[k])
    (hb : ∀ k, k < src.length → b.cell (p + k) = Cell.ofOption (x k)) :
    (∀ vs : List T, vs.length = src.length →
      (∀ k (hk : k < src.length) (hk' : k < vs.length), staleValue c.trivial src[k] (x k) = some vs[k]) →
      a.constructOwn c b q p src.length = arrayManipulation.constructRange c b q vs.length (fun i => vs.getD i default)) ∧
    ((∃ k, ∃ hk : k < src.length, staleValue c.trivial src[k] (x k) = none) →
      a.constructOwn c b q p src.length = .error (.ub .rawRead)) := by
  have hread : ∀ k (hk : k < src.length), a.readOwn c b (p + k) = orRaw (staleValue c.trivial src[k] (x k)) :=
    fun k hk => readOwn_same c hsame (by omega) (hold k hk) (hb k hk)
  constructor
  · intro vs hl hv
    rw [← hl] at hcap hr happ ⊢
    refine constructOwn_ok c a b q p vs happ hcap hr fun k hk => ?_
    rw [hread k (by omega), hv k (by omega) hk]; rfl
  · rintro ⟨k, hk, hn⟩
    refine constructOwn_error c a b q p _ happ (by omega) hr (fun i hi => ?_) ⟨k, hk, by rw [hread k hk, hn]; rfl⟩
    rw [hread i hi]
    cases staleValue c.trivial src[i] (x i) with
    | some v => exact .inl ⟨v, rfl⟩
    | none => exact .inr rfl

/-- The loop when the block was replaced. -/
theorem constructOwn_dangling (c : Cfg) [Inhabited T] {a : AoA T} {b : Buf T} {q p n : Nat} (h : a.values.cap < b.cap) (hn : 0 < n)
    : a.constructOwn c b q p n = .error (.ub .dangling) := by
  obtain ⟨n, rfl⟩ : ∃ m, n = m + 1 := ⟨n - 1, by omega⟩
  unfold AoA.constructOwn AoA.readOwn
  simp only [forUp]
  rw [if_pos h]
  rfl

namespace AGood

variable {a a0 a1 : AoA T} {A B L : Layout T} {xs src : List T} {cap : Nat} {c : Cfg} {p : Nat}

/-- `appendToArray` when there is room. -/
theorem viewAppendOwn [Inhabited T] (h : AGood a1 (A ++ (xs, cap) :: B)) (hsame : a1.values.cap = a.values.cap)
    (hroom : xs.length + src.length ≤ cap) (happ : p + src.length ≤ total A + xs.length ∨ total A + xs.length ≤ p)
    (hp : p + src.length ≤ a.values.cap) (hold : ∀ k (hk : k < src.length), a.values.cell (p + k) = .live src[k]) :
    (∀ vs : List T, vs.length = src.length → (∀ k (hk : k < src.length) (hk' : k < vs.length),
        staleValue c.trivial src[k] (cells (A ++ (xs, cap) :: B) (p + k)).value? = some vs[k]) →
      AoA.viewAppendOwn c a a1 A.length p src.length = a1.viewAppendToArray c A.length vs) ∧
    ((∃ k, ∃ hk : k < src.length, staleValue c.trivial src[k] (cells (A ++ (xs, cap) :: B) (p + k)).value? = none) →
      AoA.viewAppendOwn c a a1 A.length p src.length = .error (.ub .rawRead)) := by
  have hrm := h.lay.room
  simp at hrm
  have key := constructOwn_found c (a := a) (b := a1.values) (q := total A + xs.length) (p := p) (src := src)
    (fun k => (cells (A ++ (xs, cap) :: B) (p + k)).value?) hsame happ (.inr (by omega))
    (fun k h1 h2 => by
      obtain ⟨j, rfl⟩ : ∃ j, k = total A + j := ⟨k - total A, by omega⟩
      rw [h.lay.cell, cells_row _ _ _ _ _ (by omega)]
      exact cellsOf_ge (by omega))
    (by omega) hold (fun k _ => by rw [h.lay.cell]; exact cells_ofOption _ _)
  constructor
  · intro vs hl hv
    unfold AoA.viewAppendOwn AoA.viewAppendToArray arrayManipulation.append
    rw [h.checkBounds (by simp), bind_ok, h.ptr, bind_ok, h.shape.sizeOfAt rfl, bind_ok]
    simp only
    rw [key.1 vs hl hv, hl]
    rfl
  · intro hn
    unfold AoA.viewAppendOwn
    rw [h.checkBounds (by simp), bind_ok, h.ptr, bind_ok, h.shape.sizeOfAt rfl, bind_ok]
    simp only
    rw [key.2 hn, bind_err]

/-- `emplaceBack` when there is room. -/
theorem viewEmplaceBackOwn [Inhabited T] {v : T} (h : AGood a1 (A ++ (xs, cap) :: B)) (hsame : a1.values.cap = a.values.cap)
    (hroom : xs.length + 1 ≤ cap) (hp : p + 1 ≤ a.values.cap) (hold : a.values.cell p = .live v) :
    AoA.viewEmplaceBackOwn c a a1 A.length p =
      (orRaw (staleValue c.trivial v (cells (A ++ (xs, cap) :: B) p).value?) >>= fun w => a1.viewEmplaceBack c A.length w) := by
  have hrm := h.lay.room
  simp at hrm
  unfold AoA.viewEmplaceBackOwn AoA.viewEmplaceBack arrayManipulation.emplaceBack
  rw [readOwn_same c hsame (by omega) hold (by rw [h.lay.cell]; exact cells_ofOption _ _)]
  rw [h.checkBounds (by simp), bind_ok, h.capCheck hroom, bind_ok, h.ptr, bind_ok, h.shape.sizeOfAt rfl, bind_ok,
    arrayManipulation.assertNonNull_ok c _ _ (by omega), bind_ok]
  cases staleValue c.trivial v (cells (A ++ (xs, cap) :: B) p).value? with
  | none => rfl
  | some w =>
    simp only [orRaw, bind_ok]
    rw [arrayManipulation.assertNonNull_ok c a1.values _ (by omega)]
    rfl

/-- The row with a gap. -/
def gapRow (xs : List T) (pos n : Nat) : List (Option T) :=
  (xs.map some).take pos ++ List.replicate n none ++ (xs.map some).drop pos

/-- `insertIntoArray` when there is room. -/
theorem viewInsertOwn [Inhabited T] {pos : Nat} (h : AGood a1 (A ++ (xs, cap) :: B)) (hsame : a1.values.cap = a.values.cap)
    (hpos : pos ≤ xs.length) (hsrc : 0 < src.length)
    (hroom : xs.length + src.length ≤ cap) (happ : p + src.length ≤ total A + pos ∨ total A + pos ≤ p)
    (hp : p + src.length ≤ a.values.cap) (hold : ∀ k (hk : k < src.length), a.values.cell (p + k) = .live src[k]) :
    (∀ vs : List T, vs.length = src.length → (∀ k (hk : k < src.length) (hk' : k < vs.length),
        staleValue c.trivial src[k] (slotAt (stored A ++ (gapRow xs pos src.length, cap) :: stored B) (p + k)) = some vs[k]) →
      AoA.viewInsertOwn c a a1 A.length pos p src.length = a1.viewInsertIntoArray c A.length pos vs) ∧
    ((∃ k, ∃ hk : k < src.length,
        staleValue c.trivial src[k] (slotAt (stored A ++ (gapRow xs pos src.length, cap) :: stored B) (p + k)) = none) →
      AoA.viewInsertOwn c a a1 A.length pos p src.length = .error (.ub .rawRead)) := by
  have hrm := h.lay.room
  simp at hrm
  have hcell : ∀ j, j < cap → a1.values.cell (total A + j) = cellsOf xs j := fun j hj => by
    rw [h.lay.cell, cells_row _ _ _ _ _ hj]
  have hshift := arrayManipulation.shiftUp_eq c a1.values (total A) xs.length pos src.length hpos (by omega)
    (fun k h1 h2 => by
      obtain ⟨j, rfl⟩ : ∃ j, k = total A + j := ⟨k - total A, by omega⟩
      rw [hcell j (by omega)]; exact cellsOf_isLive (by omega))
    (fun k h1 h2 => by
      obtain ⟨j, rfl⟩ : ∃ j, k = total A + j := ⟨k - total A, by omega⟩
      rw [hcell j (by omega)]; exact cellsOf_ge (by omega))
  generalize hb : ({ a1.values with
        cell := fun k =>
          if k < total A + pos then a1.values.cell k
          else if k < total A + pos + src.length then .raw
          else if k < total A + xs.length + src.length then a1.values.cell (k - src.length)
          else a1.values.cell k
        lostMoved := a1.values.lostMoved + arrayManipulation.shiftUpLost c xs.length pos src.length
        moves := a1.values.moves + arrayManipulation.shiftMoves xs.length pos src.length } : Buf T) = b at hshift
  have hbcap : b.cap = a1.values.cap := by rw [← hb]
  have hbcell : b.cell = fun k =>
          if k < total A + pos then a1.values.cell k
          else if k < total A + pos + src.length then .raw
          else if k < total A + xs.length + src.length then a1.values.cell (k - src.length)
          else a1.values.cell k := by rw [← hb]
  have hglen : (gapRow xs pos src.length).length = xs.length + src.length := by simp [gapRow]; omega
  have hslots : ∀ k, b.cell k = Cell.ofOption (slotAt (stored A ++ (gapRow xs pos src.length, cap) :: stored B) k) := by
    intro k
    rw [slotAt_append, extent_stored, hbcell]
    simp only
    have hcells : a1.values.cell k = Cell.ofOption (slotAt (stored (A ++ (xs, cap) :: B)) k) := by
      rw [h.lay.cell, slotAt_stored]; exact cells_ofOption _ _
    rw [stored_append, slotAt_append, extent_stored] at hcells
    by_cases h1 : k < total A
    · rw [if_pos h1] at hcells ⊢
      rw [if_pos (by omega), hcells]
    · rw [if_neg h1] at hcells ⊢
      rw [stored_cons] at hcells
      simp only [slotAt] at hcells ⊢
      obtain ⟨j, rfl⟩ : ∃ j, k = total A + j := ⟨k - total A, by omega⟩
      rw [Nat.add_sub_cancel_left] at hcells ⊢
      by_cases h2 : j < cap
      · rw [if_pos h2]
        unfold gapRow
        by_cases h3 : j < pos
        · rw [if_pos (by omega), hcell j h2, cellsOf_lt (by omega), List.append_assoc,
            List.getElem?_append_left (by simp; omega), List.getElem?_take, if_pos h3, List.getElem?_map,
            List.getElem?_eq_getElem (by omega)]
          rfl
        · rw [if_neg (by omega), List.append_assoc, List.getElem?_append_right (by simp; omega)]
          have hlt : ((xs.map some).take pos).length = pos := by simp; omega
          rw [hlt]
          by_cases h4 : j < pos + src.length
          · rw [if_pos (by omega), List.getElem?_append_left (by simp; omega), List.getElem?_replicate, if_pos (by omega)]
            rfl
          · rw [if_neg (by omega), List.getElem?_append_right (by simp; omega), List.length_replicate, List.getElem?_drop,
              List.getElem?_map]
            by_cases h5 : j < xs.length + src.length
            · rw [if_pos (by omega), show total A + j - src.length = total A + (j - src.length) by omega,
                hcell _ (by omega), cellsOf_lt (by omega), show pos + (j - pos - src.length) = j - src.length by omega,
                List.getElem?_eq_getElem (by omega)]
              rfl
            · rw [if_neg (by omega), hcell j h2, cellsOf_ge (by omega), List.getElem?_eq_none (by omega)]
              rfl
      · rw [if_neg h2] at hcells ⊢
        rw [if_neg (by omega), if_neg (by omega), if_neg (by omega), hcells]
  have key := constructOwn_found c (a := a) (b := b) (q := total A + pos) (p := p) (src := src)
    (fun k => slotAt (stored A ++ (gapRow xs pos src.length, cap) :: stored B) (p + k)) (by omega) happ (.inr (by omega))
    (fun k h1 h2 => by
      rw [hbcell]; simp only
      rw [if_neg (by omega), if_pos (by omega)])
    (by omega) hold (fun k _ => hslots _)
  constructor
  · intro vs hl hv
    unfold AoA.viewInsertOwn AoA.viewInsertIntoArray arrayManipulation.insert
    rw [ShGood.checkInsertBounds2 h.shape (by simp) (by simpa [szs] using hpos), bind_ok, h.capCheck hroom, bind_ok, h.ptr, bind_ok,
      h.shape.sizeOfAt rfl, bind_ok, arrayManipulation.assertNonNull_ok c _ _ (by omega), bind_ok,
      arrayManipulation.checkInsertBounds_ok c _ _ hpos, bind_ok, hl, h.capCheck hroom, bind_ok, bind_ok, bind_ok, bind_ok]
    simp only
    rw [hshift, bind_ok, bind_ok, key.1 vs hl hv, hl, arrayManipulation.assertNonNull_ok c a1.values _ (by omega),
      arrayManipulation.checkInsertBounds_ok c xs.length pos hpos]
    rfl
  · intro hn
    unfold AoA.viewInsertOwn
    rw [ShGood.checkInsertBounds2 h.shape (by simp) (by simpa [szs] using hpos), bind_ok, h.capCheck hroom, bind_ok, h.ptr, bind_ok,
      h.shape.sizeOfAt rfl, bind_ok, arrayManipulation.assertNonNull_ok c _ _ (by omega), bind_ok,
      arrayManipulation.checkInsertBounds_ok c _ _ hpos, bind_ok]
    simp only
    rw [hshift, bind_ok, key.2 hn, bind_err]

/-- Making room: in place, or in a new block. -/
theorem growCases (h : AGood a (A ++ (xs, cap) :: B)) (n : Nat) :
    (total (A ++ (xs, grownTo xs cap n) :: B) ≤ a.values.cap →
      ∃ a1, a.dynamicallyGrowArray c A.length n = .ok a1 ∧ AGood a1 (A ++ (xs, grownTo xs cap n) :: B) ∧
        a1.values.cap = a.values.cap) ∧
    (a.values.cap < total (A ++ (xs, grownTo xs cap n) :: B) → 0 < n ∧
      (Lay.Movable c (A ++ (xs, cap) :: B) → ∃ a1, a.dynamicallyGrowArray c A.length n = .ok a1 ∧
        AGood a1 (A ++ (xs, grownTo xs cap n) :: B) ∧ a.values.cap < a1.values.cap) ∧
      (¬ Lay.Movable c (A ++ (xs, cap) :: B) → a.dynamicallyGrowArray c A.length n = .error (.ub .rawRead))) := by
  refine ⟨h.growInPlace n, fun hlt => ?_⟩
  have hroom := h.lay.room
  have hfx := h.lay.fits (xs, cap) (by simp)
  simp only at hfx
  refine ⟨?_, fun hm => ?_, fun hm => ?_⟩
  · apply Nat.pos_of_ne_zero
    rintro rfl
    have : grownTo xs cap 0 = cap := by unfold grownTo; rw [if_neg (by omega)]
    rw [this] at hlt
    omega
  · rcases h.dynamicallyGrow (c := c) n with ⟨_, a1, h1, h2, _⟩ | ⟨h1, _⟩
    · exact ⟨a1, h1, h2, Nat.lt_of_lt_of_le hlt h2.lay.room⟩
    · exact absurd (.inr hm) h1
  · rcases h.dynamicallyGrow (c := c) n with ⟨h1, _⟩ | ⟨_, h1⟩
    · rcases h1 with h1 | h1
      · omega
      · exact absurd h1 hm
    · exact h1

/-- `appendToArray` of the owning class. -/
theorem appendOwn [Inhabited T] (h : AGood a0 (A ++ (xs, cap) :: B)) (hv : a0.values = a.values)
    (happ : p + src.length ≤ total A + xs.length ∨ total A + xs.length ≤ p)
    (hp : p + src.length ≤ a.values.cap) (hold : ∀ k (hk : k < src.length), a.values.cell (p + k) = .live src[k]) :
    (total (A ++ (xs, grownTo xs cap src.length) :: B) ≤ a.values.cap →
      (∀ vs : List T, vs.length = src.length → (∀ k (hk : k < src.length) (hk' : k < vs.length),
          staleValue c.trivial src[k] (cells (A ++ (xs, grownTo xs cap src.length) :: B) (p + k)).value? = some vs[k]) →
        ∃ a', AoA.appendOwn c a a0 A.length p src.length = .ok a' ∧
          AGood a' (A ++ (xs ++ vs, grownTo xs cap src.length) :: B)) ∧
      ((∃ k, ∃ hk : k < src.length,
          staleValue c.trivial src[k] (cells (A ++ (xs, grownTo xs cap src.length) :: B) (p + k)).value? = none) →
        AoA.appendOwn c a a0 A.length p src.length = .error (.ub .rawRead))) ∧
    (a.values.cap < total (A ++ (xs, grownTo xs cap src.length) :: B) →
      (Lay.Movable c (A ++ (xs, cap) :: B) → AoA.appendOwn c a a0 A.length p src.length = .error (.ub .dangling)) ∧
      (¬ Lay.Movable c (A ++ (xs, cap) :: B) → AoA.appendOwn c a a0 A.length p src.length = .error (.ub .rawRead))) := by
  obtain ⟨hin, hout⟩ := h.growCases (c := c) src.length
  rw [hv] at hin hout
  unfold AoA.appendOwn
  refine ⟨fun hle => ?_, fun hlt => ?_⟩
  · obtain ⟨a1, h1, h2, h3⟩ := hin hle
    rw [h1, bind_ok]
    obtain ⟨k1, k2⟩ := h2.viewAppendOwn (c := c) (a := a) h3 (le_grownTo _ _ _) happ hp hold
    refine ⟨fun vs hl hvs => ?_, k2⟩
    obtain ⟨a', e, g, _⟩ := h2.viewAppend (c := c) vs (by rw [hl]; exact le_grownTo _ _ _)
    exact ⟨a', by rw [k1 vs hl hvs, e], g⟩
  · obtain ⟨hn, hm, hnm⟩ := hout hlt
    refine ⟨fun hmov => ?_, fun hmov => by rw [hnm hmov, bind_err]⟩
    obtain ⟨a1, h1, h2, h3⟩ := hm hmov
    rw [h1, bind_ok]
    unfold AoA.viewAppendOwn
    rw [h2.checkBounds (by simp), bind_ok, h2.ptr, bind_ok, h2.shape.sizeOfAt rfl, bind_ok,
      constructOwn_dangling c h3 hn, bind_err]

/-- `emplaceBack` of the owning class. -/
theorem emplaceBackOwn [Inhabited T] {v : T} (h : AGood a (A ++ (xs, cap) :: B)) (hp : p + 1 ≤ a.values.cap)
    (hold : a.values.cell p = .live v) :
    (total (A ++ (xs, grownTo xs cap 1) :: B) ≤ a.values.cap →
      (∀ w, staleValue c.trivial v (cells (A ++ (xs, grownTo xs cap 1) :: B) p).value? = some w →
        ∃ a', (a.dynamicallyGrowArray c A.length 1 >>= fun a1 => AoA.viewEmplaceBackOwn c a a1 A.length p) = .ok a' ∧
          AGood a' (A ++ (xs ++ [w], grownTo xs cap 1) :: B)) ∧
      (staleValue c.trivial v (cells (A ++ (xs, grownTo xs cap 1) :: B) p).value? = none →
        (a.dynamicallyGrowArray c A.length 1 >>= fun a1 => AoA.viewEmplaceBackOwn c a a1 A.length p) = .error (.ub .rawRead))) ∧
    (a.values.cap < total (A ++ (xs, grownTo xs cap 1) :: B) →
      (Lay.Movable c (A ++ (xs, cap) :: B) →
        (a.dynamicallyGrowArray c A.length 1 >>= fun a1 => AoA.viewEmplaceBackOwn c a a1 A.length p) = .error (.ub .dangling)) ∧
      (¬ Lay.Movable c (A ++ (xs, cap) :: B) →
        (a.dynamicallyGrowArray c A.length 1 >>= fun a1 => AoA.viewEmplaceBackOwn c a a1 A.length p) = .error (.ub .rawRead))) := by
  obtain ⟨hin, hout⟩ := h.growCases (c := c) 1
  refine ⟨fun hle => ?_, fun hlt => ?_⟩
  · obtain ⟨a1, h1, h2, h3⟩ := hin hle
    have key := h2.viewEmplaceBackOwn (c := c) (a := a) h3 (le_grownTo _ _ _) hp hold
    refine ⟨fun w hw => ?_, fun hw => ?_⟩
    · obtain ⟨a', e, g, _⟩ := h2.viewEmplaceBack (c := c) w (le_grownTo _ _ _)
      exact ⟨a', by rw [h1, bind_ok, key, hw]; exact e, g⟩
    · rw [h1, bind_ok, key, hw]; rfl
  · obtain ⟨hn, hm, hnm⟩ := hout hlt
    refine ⟨fun hmov => ?_, fun hmov => by rw [hnm hmov, bind_err]⟩
    obtain ⟨a1, h1, h2, h3⟩ := hm hmov
    rw [h1, bind_ok]
    unfold AoA.viewEmplaceBackOwn AoA.readOwn
    rw [h2.checkBounds (by simp), bind_ok, h2.capCheck (le_grownTo _ _ _), bind_ok, h2.ptr, bind_ok, h2.shape.sizeOfAt rfl, bind_ok,
      arrayManipulation.assertNonNull_ok c _ _ (by omega), bind_ok, if_pos h3, bind_err]

/-- `insertIntoArray` of the owning class when the allocation has no room. -/
theorem insertOwn_gone [Inhabited T] {pos n : Nat} (h : AGood a (A ++ (xs, cap) :: B)) (hpos : pos ≤ xs.length)
    (hlt : a.values.cap < total (A ++ (xs, grownTo xs cap n) :: B)) :
    (Lay.Movable c (A ++ (xs, cap) :: B) →
      (a.dynamicallyGrowArray c A.length n >>= fun a1 => AoA.viewInsertOwn c a a1 A.length pos p n) = .error (.ub .dangling)) ∧
    (¬ Lay.Movable c (A ++ (xs, cap) :: B) →
      (a.dynamicallyGrowArray c A.length n >>= fun a1 => AoA.viewInsertOwn c a a1 A.length pos p n) = .error (.ub .rawRead)) := by
  obtain ⟨hn, hm, hnm⟩ := (h.growCases (c := c) n).2 hlt
  refine ⟨fun hmov => ?_, fun hmov => by rw [hnm hmov, bind_err]⟩
  obtain ⟨a1, h1, h2, h3⟩ := hm hmov
  rw [h1, bind_ok]
  have hrm := h2.lay.room
  have hle := le_grownTo xs cap n
  simp at hrm
  obtain ⟨b1, e1, hb1⟩ : ∃ b1, arrayManipulation.shiftUp c a1.values (total A) xs.length pos n = .ok b1 ∧
      b1.cap = a1.values.cap := by
    refine ⟨_, arrayManipulation.shiftUp_eq c a1.values (total A) xs.length pos n hpos (by omega)
      (fun k h1 h2' => ?_) (fun k h1 h2' => ?_), rfl⟩
    · obtain ⟨j, rfl⟩ : ∃ j, k = total A + j := ⟨k - total A, by omega⟩
      rw [h2.lay.cell, cells_row _ _ _ _ _ (by omega)]; exact cellsOf_isLive (by omega)
    · obtain ⟨j, rfl⟩ : ∃ j, k = total A + j := ⟨k - total A, by omega⟩
      rw [h2.lay.cell, cells_row _ _ _ _ _ (by omega)]; exact cellsOf_ge (by omega)
  unfold AoA.viewInsertOwn
  rw [ShGood.checkInsertBounds2 h2.shape (by simp) (by simpa [szs] using hpos), bind_ok, h2.capCheck hle, bind_ok, h2.ptr, bind_ok,
    h2.shape.sizeOfAt rfl, bind_ok, arrayManipulation.assertNonNull_ok c _ _ (by omega), bind_ok,
    arrayManipulation.checkInsertBounds_ok c _ _ hpos, bind_ok]
  simp only
  rw [e1, bind_ok, constructOwn_dangling c (by omega) hn, bind_err]

/-- `insertIntoArray` of the owning class. -/
theorem insertOwn [Inhabited T] {pos : Nat} (h : AGood a (A ++ (xs, cap) :: B)) (hpos : pos ≤ xs.length) (hsrc : 0 < src.length)
    (happ : p + src.length ≤ total A + pos ∨ total A + pos ≤ p)
    (hp : p + src.length ≤ a.values.cap) (hold : ∀ k (hk : k < src.length), a.values.cell (p + k) = .live src[k]) :
    (total (A ++ (xs, grownTo xs cap src.length) :: B) ≤ a.values.cap →
      (∀ vs : List T, vs.length = src.length → (∀ k (hk : k < src.length) (hk' : k < vs.length),
          staleValue c.trivial src[k]
            (slotAt (stored A ++ (gapRow xs pos src.length, grownTo xs cap src.length) :: stored B) (p + k)) = some vs[k]) →
        ∃ a', (a.dynamicallyGrowArray c A.length src.length >>= fun a1 => AoA.viewInsertOwn c a a1 A.length pos p src.length) = .ok a' ∧
          AGood a' (A ++ (xs.take pos ++ vs ++ xs.drop pos, grownTo xs cap src.length) :: B)) ∧
      ((∃ k, ∃ hk : k < src.length, staleValue c.trivial src[k]
          (slotAt (stored A ++ (gapRow xs pos src.length, grownTo xs cap src.length) :: stored B) (p + k)) = none) →
        (a.dynamicallyGrowArray c A.length src.length >>= fun a1 => AoA.viewInsertOwn c a a1 A.length pos p src.length) =
          .error (.ub .rawRead))) ∧
    (a.values.cap < total (A ++ (xs, grownTo xs cap src.length) :: B) →
      (Lay.Movable c (A ++ (xs, cap) :: B) →
        (a.dynamicallyGrowArray c A.length src.length >>= fun a1 => AoA.viewInsertOwn c a a1 A.length pos p src.length) =
          .error (.ub .dangling)) ∧
      (¬ Lay.Movable c (A ++ (xs, cap) :: B) →
        (a.dynamicallyGrowArray c A.length src.length >>= fun a1 => AoA.viewInsertOwn c a a1 A.length pos p src.length) =
          .error (.ub .rawRead))) := by
  obtain ⟨hin, _⟩ := h.growCases (c := c) src.length
  refine ⟨fun hle => ?_, fun hlt => ?_⟩
  · obtain ⟨a1, h1, h2, h3⟩ := hin hle
    rw [h1, bind_ok]
    obtain ⟨k1, k2⟩ := h2.viewInsertOwn (c := c) (a := a) h3 hpos hsrc (le_grownTo _ _ _) happ hp hold
    refine ⟨fun vs hl hvs => ?_, k2⟩
    obtain ⟨a', e, g, _⟩ := h2.viewInsert (c := c) pos hpos vs (by rw [hl]; exact le_grownTo _ _ _)
      (fun _ => .inl (by rintro rfl; simp at hl; omega))
    exact ⟨a', by rw [k1 vs hl hvs, e], g⟩
  · exact h.insertOwn_gone hpos hlt

end AGood

end LvArray

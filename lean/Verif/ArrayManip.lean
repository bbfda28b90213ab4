import Verif.Mem
/-!
# `LvArray::arrayManipulation`

The free functions of /repo/src/arrayManipulation.hpp, acting on an allocation from a base pointer `p`
(an offset into the allocation).  Sizes and positions are `Nat`: the debug assertions `isPositive( size )`
are therefore not modelled.  `ptr != nullptr` is `p ≠ 0 ∨ 0 < cap` (every allocation LvArray makes has
positive capacity).
-/

namespace LvArray.arrayManipulation

open LvArray

variable {T : Type}

/-- `LVARRAY_ASSERT( ptr != nullptr )`, active in debug builds only. -/
def assertNonNull (c : Cfg) (b : Buf T) (p : Nat) : R Unit :=
  errorIf (c.debug && b.cap == 0 && p == 0)

/-- `ARRAYMANIPULATION_CHECK_INSERT_BOUNDS( index )`: /repo/src/arrayManipulation.hpp 39-41, 56. -/
def checkInsertBounds (c : Cfg) (size index : Nat) : R Unit :=
  errorIf (c.boundsCheck && decide (size < index))

/-- `ARRAYMANIPULATION_CHECK_BOUNDS( index )`: /repo/src/arrayManipulation.hpp 29-31, 49. -/
def checkBounds (c : Cfg) (size index : Nat) : R Unit :=
  errorIf (c.boundsCheck && decide (size ≤ index))

/-- /repo/src/arrayManipulation.hpp 149-163. -/
def destroy (c : Cfg) (b : Buf T) (p n : Nat) : R (Buf T) :=
  forUp n p (fun i b => b.destroyAt c i) b

/-- `for i < n: new ( ptr + p + i ) T( v i )`: the construction loops of `resize`, `append`, `insert` and
`uninitializedCopy` (/repo/src/arrayManipulation.hpp 182-187, 304-307, 452-458, 514-518). -/
def constructRange (c : Cfg) (b : Buf T) (p n : Nat) (v : Nat → T) : R (Buf T) :=
  forUp n p (fun i b => b.construct c i (v (i - p))) b

/-- /repo/src/arrayManipulation.hpp 223-240. The caller passes `ptr = base + p`. -/
def uninitializedShiftDown (c : Cfg) (b : Buf T) (p size amount : Nat) : R (Buf T) :=
  if amount = 0 then .ok b
  else forUp size p (fun j b => do
    -- `ptr + j - amount` before the start of the allocation is out of bounds
    if j < amount then .error (.ub .outOfBounds) else
    let b ← b.moveConstruct c (j - amount) j
    b.destroyAt c j) b

/-- /repo/src/arrayManipulation.hpp 251-268. -/
def uninitializedShiftUp (c : Cfg) (b : Buf T) (p size amount : Nat) : R (Buf T) :=
  if amount = 0 then .ok b
  else forDown size p (fun j b => do
    let b ← b.moveConstruct c (j + amount) j
    b.destroyAt c j) b

/-- /repo/src/arrayManipulation.hpp 281-309.  `v` is the value built from `args ...`; with no arguments it is
the value-initialised `T()` (for trivially default constructible types the `memset` to zero). -/
def resize (c : Cfg) (b : Buf T) (p size newSize : Nat) (v : T) : R (Buf T) := do
  let b ← destroy c b (p + newSize) (size - newSize)
  constructRange c b (p + size) (newSize - size) (fun _ => v)

/-- /repo/src/arrayManipulation.hpp 322-346. -/
def shiftUp (c : Cfg) (b : Buf T) (p size index n : Nat) : R (Buf T) := do
  checkInsertBounds c size index
  if n = 0 then .ok b
  else
    let b ← forDown (size - index) (p + index) (fun cur b => b.moveConstruct c (cur + n) cur) b
    let bounds := if index + n < size then index + n else size
    destroy c b (p + index) (bounds - index)

/-- /repo/src/arrayManipulation.hpp 359-379. -/
def shiftDown (c : Cfg) (b : Buf T) (p size index n : Nat) : R (Buf T) := do
  checkInsertBounds c size index
  errorIf (c.debug && decide (index < n))
  if n = 0 then .ok b
  else forUp (size - index) (p + index) (fun i b =>
    if i < n then .error (.ub .outOfBounds) else b.moveAssign c (i - n) i) b

/-- /repo/src/arrayManipulation.hpp 392-409. -/
def erase (c : Cfg) (b : Buf T) (p size index n : Nat) : R (Buf T) :=
  if n = 0 then .ok b
  else do
    checkBounds c size index
    checkBounds c size (index + n - 1)
    let b ← shiftDown c b p size (index + n) n
    destroy c b (p + size - n) n

/-- /repo/src/arrayManipulation.hpp 421-429. -/
def emplaceBack (c : Cfg) (b : Buf T) (p size : Nat) (v : T) : R (Buf T) := do
  assertNonNull c b p
  b.construct c (p + size) v

/-- /repo/src/arrayManipulation.hpp 443-461.  The input range is the list `vs`; the number of appended
values (the C++ return value) is `vs.length`. -/
def append (c : Cfg) (b : Buf T) (p size : Nat) (vs : List T) [Inhabited T] : R (Buf T) :=
  constructRange c b (p + size) vs.length (fun i => vs.getD i default)

/-- /repo/src/arrayManipulation.hpp 474-487. -/
def emplace (c : Cfg) (b : Buf T) (p size index : Nat) (v : T) : R (Buf T) := do
  assertNonNull c b p
  checkInsertBounds c size index
  let b ← shiftUp c b p size index 1
  b.construct c (p + index) v

/-- /repo/src/arrayManipulation.hpp 501-519. -/
def insert (c : Cfg) (b : Buf T) (p size index : Nat) (vs : List T) [Inhabited T] : R (Buf T) := do
  assertNonNull c b p
  checkInsertBounds c size index
  let b ← shiftUp c b p size index vs.length
  constructRange c b (p + index) vs.length (fun i => vs.getD i default)

/-- /repo/src/arrayManipulation.hpp 529-536. -/
def popBack (c : Cfg) (b : Buf T) (p size : Nat) : R (Buf T) := do
  errorIf (c.debug && b.cap == 0 && p == 0)
  errorIf (c.debug && size == 0)
  if size = 0 then .error (.ub .outOfBounds) else b.destroyAt c (p + size - 1)

/-! ## Closed forms -/

@[simp] theorem assertNonNull_ok (c : Cfg) (b : Buf T) (p : Nat) (h : 0 < b.cap) :
    assertNonNull c b p = .ok () := by
  simp [assertNonNull, errorIf]; omega

@[simp] theorem checkInsertBounds_ok (c : Cfg) (size index : Nat) (h : index ≤ size) :
    checkInsertBounds c size index = .ok () := by
  simp [checkInsertBounds, errorIf]; omega

@[simp] theorem checkBounds_ok (c : Cfg) (size index : Nat) (h : index < size) :
    checkBounds c size index = .ok () := by
  simp [checkBounds, errorIf]; omega

theorem construct_eq (c : Cfg) (b : Buf T) (i : Nat) (v : T) (hi : i < b.cap) (hr : b.cell i = .raw) :
    b.construct c i v = .ok { b with cell := upd b.cell i (.live v) } := by
  simp [Buf.construct, Buf.place, hi, hr]

theorem destroy_eq (c : Cfg) (b : Buf T) (p n : Nat)
    (h : c.trivial = true ∨ ∀ k, p ≤ k → k < p + n → k < b.cap ∧ (b.cell k).isRaw = false) :
    destroy c b p n =
      .ok { b with cell := fun k => if p ≤ k ∧ k < p + n then .raw else b.cell k } := by
  unfold destroy
  refine forUp_eq (fun i => { b with cell := fun k => if p ≤ k ∧ k < i then .raw else b.cell k }) n p ?_ ?_
  · cases b; simp only [Buf.mk.injEq, true_and, and_true]; funext k; grind
  · intro i hi hi'
    have hc : (fun k => if p ≤ k ∧ k < i + 1 then Cell.raw else b.cell k)
        = upd (fun k => if p ≤ k ∧ k < i then Cell.raw else b.cell k) i Cell.raw := by
      funext k; grind [upd]
    unfold Buf.destroyAt
    rcases Bool.eq_false_or_eq_true c.trivial with ht | ht
    · simp [ht, hc]
    · rw [ht] at h
      obtain ⟨hb, hr⟩ := (h.resolve_left (by simp)) i hi hi'
      simp only [ht, Bool.false_eq_true, if_false, hb, if_true]
      have : ¬ (p ≤ i ∧ i < i) := by omega
      simp only [this, if_false]
      rw [hc]
      cases hcell : b.cell i <;> simp_all [Cell.isRaw]

theorem constructRange_eq (c : Cfg) (b : Buf T) (p n : Nat) (v : Nat → T) (hcap : n = 0 ∨ p + n ≤ b.cap)
    (hr : ∀ k, p ≤ k → k < p + n → b.cell k = .raw) :
    constructRange c b p n v =
      .ok { b with cell := fun k => if p ≤ k ∧ k < p + n then .live (v (k - p)) else b.cell k } := by
  unfold constructRange
  refine forUp_eq
    (fun i => { b with cell := fun k => if p ≤ k ∧ k < i then .live (v (k - p)) else b.cell k }) n p ?_ ?_
  · cases b; simp only [Buf.mk.injEq, true_and, and_true]; funext k; grind
  · intro i hi hi'
    rw [construct_eq]
    · simp only [Except.ok.injEq, Buf.mk.injEq, true_and, and_true]; funext k; grind [upd]
    · show i < b.cap; omega
    · have := hr i hi hi'; simp [this]

theorem resize_eq (c : Cfg) (b : Buf T) (p size newSize : Nat) (v : T)
    (hcap : newSize ≤ size ∨ p + newSize ≤ b.cap)
    (hl : c.trivial = true ∨ ∀ k, p + newSize ≤ k → k < p + size → k < b.cap ∧ (b.cell k).isRaw = false)
    (hr : ∀ k, p + size ≤ k → k < p + newSize → b.cell k = .raw) :
    resize c b p size newSize v =
      .ok { b with cell := fun k =>
              if p + newSize ≤ k ∧ k < p + size then .raw
              else if p + size ≤ k ∧ k < p + newSize then .live v else b.cell k } := by
  unfold resize
  rw [destroy_eq c b (p + newSize) (size - newSize)]
  · rw [bind_ok, constructRange_eq]
    · simp only [Except.ok.injEq, Buf.mk.injEq, true_and, and_true]; funext k; grind
    · show newSize - size = 0 ∨ p + size + (newSize - size) ≤ b.cap; omega
    · intro k h1 h2
      have := hr k h1 (by omega)
      simp [this]
  · rcases hl with h | h
    · exact .inl h
    · exact .inr fun k h1 h2 => h k h1 (by omega)

/-- Number of moved-from objects `shiftUp` constructs over without destroying them. -/
def shiftUpLost (c : Cfg) (size index n : Nat) : Nat :=
  if c.trivial ∨ n = 0 then 0 else size - index - n

/-- Number of relocations done by `shiftUp`. -/
def shiftMoves (size index n : Nat) : Nat := if n = 0 then 0 else size - index

theorem shiftUp_eq (c : Cfg) (b : Buf T) (p size index n : Nat) (hi : index ≤ size)
    (hcap : p + size + n ≤ b.cap)
    (hl : ∀ k, p + index ≤ k → k < p + size → (b.cell k).isLive = true)
    (hr : ∀ k, p + size ≤ k → k < p + size + n → b.cell k = .raw) :
    shiftUp c b p size index n =
      .ok { b with
        cell := fun k =>
          if k < p + index then b.cell k
          else if k < p + index + n then .raw
          else if k < p + size + n then b.cell (k - n)
          else b.cell k
        lostMoved := b.lostMoved + shiftUpLost c size index n
        moves := b.moves + shiftMoves size index n } := by
  unfold shiftUp
  rw [checkInsertBounds_ok c size index hi, bind_ok]
  by_cases hn : n = 0
  · subst hn
    simp only [if_true, shiftUpLost, shiftMoves, or_true, Nat.add_zero, Nat.sub_zero]
    cases b; simp only [Except.ok.injEq, Buf.mk.injEq, true_and, and_true]; funext k; grind
  simp only [hn, if_false]
  have hloop : forDown (size - index) (p + index) (fun cur b => b.moveConstruct c (cur + n) cur) b =
      .ok { b with
        cell := fun k =>
          if p + index ≤ k ∧ k < p + size ∧ k < p + index + n then .moved
          else if p + index + n ≤ k ∧ k < p + size + n then b.cell (k - n)
          else b.cell k
        lostMoved := b.lostMoved + (if c.trivial then 0 else size - index - n)
        moves := b.moves + (size - index) } := by
    let g : Nat → Buf T := fun i =>
      { b with
        cell := fun k =>
          if i ≤ k ∧ k < p + size ∧ k < i + n then .moved
          else if i + n ≤ k ∧ k < p + size + n then b.cell (k - n)
          else b.cell k
        lostMoved := b.lostMoved + (if c.trivial then 0 else p + size - i - n)
        moves := b.moves + (p + size - i) }
    have h := forDown_eq (f := fun cur b => b.moveConstruct c (cur + n) cur) g (size - index) (p + index)
      (s := b) ?_ ?_
    · rw [h]
      simp only [g, Except.ok.injEq, Buf.mk.injEq, true_and]
      refine ⟨?_, ?_⟩ <;> grind
    · rw [show p + index + (size - index) = p + size by omega]
      cases b
      simp only [g, Buf.mk.injEq, true_and]
      refine ⟨?_, ?_, ?_⟩
      · funext k; grind
      · grind
      · omega
    · intro i h1 h2
      have hlv := hl i h1 (by omega)
      obtain ⟨v, hv⟩ := Cell.isLive_iff.1 hlv
      have hcell : (g (i + 1)).cell i = .live v := by
        show (if _ then _ else _) = _
        grind
      have hb : i + n < b.cap ∧ i < b.cap := by omega
      unfold Buf.moveConstruct
      rw [if_pos (show i + n < (g (i+1)).cap ∧ i < (g (i+1)).cap from hb), hcell]
      simp only [Buf.place, Except.ok.injEq]
      -- what was in the destination slot
      by_cases hd : i + n < p + size
      · have hdst : (g (i + 1)).cell (i + n) = .moved := by
          show (if _ then _ else _) = _; grind
        simp only [upd_ne _ _ (show i + n ≠ i by omega), hdst]
        simp only [g, Buf.mk.injEq, true_and]
        refine ⟨?_, ?_, ?_, ?_⟩
        · funext k; grind [upd]
        · simp [Cell.lostL]
        · cases c.trivial <;> simp [Cell.lostM]; omega
        · omega
      · have hdst : (g (i + 1)).cell (i + n) = .raw := by
          have hraw := hr (i + n) (by omega) (by omega)
          show (if _ then _ else _) = _; grind
        simp only [upd_ne _ _ (show i + n ≠ i by omega), hdst]
        simp only [g, Buf.mk.injEq, true_and]
        refine ⟨?_, ?_, ?_, ?_⟩
        · funext k; grind [upd]
        · simp [Cell.lostL]
        · cases c.trivial <;> simp [Cell.lostM]; omega
        · omega
  rw [hloop, bind_ok, destroy_eq]
  · simp only [Except.ok.injEq, Buf.mk.injEq, true_and, shiftUpLost, shiftMoves, hn, or_false, if_false,
      and_true]
    funext k
    by_cases hkr : p + size ≤ k ∧ k < p + size + n
    · have := hr k hkr.1 hkr.2
      grind
    · grind
  · right
    intro k h1 h2
    have : p + index ≤ k ∧ k < p + size ∧ k < p + index + n := by grind
    refine ⟨show k < b.cap by omega, ?_⟩
    simp only [this, and_self, if_true]; rfl

theorem shiftDown_eq (c : Cfg) (b : Buf T) (p size index n : Nat) (hi : n ≤ index) (his : index ≤ size)
    (hcap : p + size ≤ b.cap)
    (hl : ∀ k, p + index ≤ k → k < p + size → (b.cell k).isLive = true)
    (hd : ∀ k, p + index - n ≤ k → k + n < p + size → (b.cell k).isRaw = false) :
    shiftDown c b p size index n =
      .ok { b with
        cell := fun k =>
          if n = 0 then b.cell k
          else if p + index - n ≤ k ∧ k + n < p + size then b.cell (k + n)
          else if p + index ≤ k ∧ k < p + size then .moved
          else b.cell k } := by
  unfold shiftDown
  rw [checkInsertBounds_ok c size index his, bind_ok, show decide (index < n) = false by simpa using hi,
    Bool.and_false, errorIf_false, bind_ok]
  by_cases hn : n = 0
  · subst hn; simp
  simp only [hn, if_false]
  by_cases hs : size ≤ index
  · rw [show size - index = 0 by omega]
    simp only [forUp]
    cases b; simp only [Except.ok.injEq, Buf.mk.injEq, true_and, and_true]; funext k; grind
  let g : Nat → Buf T := fun i =>
    { b with
      cell := fun k =>
        if p + index - n ≤ k ∧ k + n < i then b.cell (k + n)
        else if p + index ≤ k ∧ k < i then .moved
        else b.cell k }
  have h := forUp_eq (f := fun i b => if i < n then .error (.ub .outOfBounds)
      else b.moveAssign c (i - n) i) g (size - index) (p + index) (s := b) ?_ ?_
  · rw [h, show p + index + (size - index) = p + size by omega]
  · cases b; simp only [g, Buf.mk.injEq, true_and, and_true]; funext k; grind
  · intro i h1 h2
    obtain ⟨v, hv⟩ := Cell.isLive_iff.1 (hl i (by omega) (by omega))
    have hw := hd (i - n) (by omega) (by omega)
    have hsrc : (g i).cell i = .live v := by show (if _ then _ else _) = _; grind
    have hdst : ((g i).cell (i - n)).isRaw = false := by
      show (Cell.isRaw (if _ then _ else _)) = _
      grind [Cell.isRaw]
    have hb : i - n < b.cap ∧ i < b.cap := by omega
    unfold Buf.moveAssign
    rw [if_neg (show ¬ i < n by omega), if_pos (show i - n < (g i).cap ∧ i < (g i).cap from hb), hsrc, hdst]
    simp only [Bool.false_and, Bool.false_eq_true, if_false, Except.ok.injEq, g, Buf.mk.injEq, true_and,
      and_true]
    funext k; grind [upd]

theorem erase_eq (c : Cfg) (b : Buf T) (p size index n : Nat) (hi : index + n ≤ size)
    (hcap : p + size ≤ b.cap)
    (hl : ∀ k, p + index ≤ k → k < p + size → (b.cell k).isLive = true) :
    erase c b p size index n =
      .ok { b with
        cell := fun k =>
          if k < p + index then b.cell k
          else if k < p + size - n then b.cell (k + n)
          else if k < p + size then .raw
          else b.cell k } := by
  unfold erase
  by_cases hn : n = 0
  · subst hn
    simp only [if_true]
    cases b; simp only [Except.ok.injEq, Buf.mk.injEq, true_and, and_true]; funext k; grind
  simp only [hn, if_false]
  rw [checkBounds_ok c size index (by omega), bind_ok, checkBounds_ok c size _ (by omega), bind_ok,
    shiftDown_eq c b p size (index + n) n (by omega) hi hcap (fun k h1 h2 => hl k (by omega) h2)
      (fun k h1 h2 => by
        obtain ⟨v, hv⟩ := Cell.isLive_iff.1 (hl k (by omega) (by omega))
        rw [hv]; rfl), bind_ok,
    destroy_eq]
  · simp only [Except.ok.injEq, Buf.mk.injEq, true_and, and_true]
    funext k; grind
  · right
    intro k h1 h2
    refine ⟨show k < b.cap by omega, ?_⟩
    obtain ⟨w, hw⟩ := Cell.isLive_iff.1 (hl k (by omega) (by omega))
    show (Cell.isRaw (if _ then _ else _)) = _
    grind [Cell.isRaw]

theorem emplaceBack_eq (c : Cfg) (b : Buf T) (p size : Nat) (v : T) (hcap : p + size < b.cap)
    (hr : b.cell (p + size) = .raw) :
    emplaceBack c b p size v = .ok { b with cell := upd b.cell (p + size) (.live v) } := by
  unfold emplaceBack
  rw [assertNonNull_ok c b p (by omega), bind_ok, construct_eq c b _ v hcap hr]

theorem emplace_eq (c : Cfg) (b : Buf T) (p size index : Nat) (v : T) (hi : index ≤ size)
    (hcap : p + size + 1 ≤ b.cap)
    (hl : ∀ k, p + index ≤ k → k < p + size → (b.cell k).isLive = true)
    (hr : b.cell (p + size) = .raw) :
    emplace c b p size index v =
      .ok { b with
        cell := fun k =>
          if k < p + index then b.cell k
          else if k = p + index then .live v
          else if k < p + size + 1 then b.cell (k - 1)
          else b.cell k
        lostMoved := b.lostMoved + shiftUpLost c size index 1
        moves := b.moves + shiftMoves size index 1 } := by
  unfold emplace
  rw [assertNonNull_ok c b p (by omega), bind_ok, checkInsertBounds_ok c size index hi, bind_ok,
    shiftUp_eq c b p size index 1 hi hcap hl (fun k h1 h2 => by rw [show k = p + size by omega]; exact hr),
    bind_ok, construct_eq]
  · simp only [Except.ok.injEq, Buf.mk.injEq, true_and, and_true]; funext k; grind [upd]
  · show p + index < b.cap; omega
  · simp

theorem insert_eq [Inhabited T] (c : Cfg) (b : Buf T) (p size index : Nat) (vs : List T) (hi : index ≤ size)
    (hnn : c.debug = true → 0 < b.cap)
    (hcap : p + size + vs.length ≤ b.cap)
    (hl : ∀ k, p + index ≤ k → k < p + size → (b.cell k).isLive = true)
    (hr : ∀ k, p + size ≤ k → k < p + size + vs.length → b.cell k = .raw) :
    insert c b p size index vs =
      .ok { b with
        cell := fun k =>
          if k < p + index then b.cell k
          else if k < p + index + vs.length then .live (vs.getD (k - (p + index)) default)
          else if k < p + size + vs.length then b.cell (k - vs.length)
          else b.cell k
        lostMoved := b.lostMoved + shiftUpLost c size index vs.length
        moves := b.moves + shiftMoves size index vs.length } := by
  unfold insert
  have hnn' : assertNonNull c b p = .ok () := by
    rcases Bool.eq_false_or_eq_true c.debug with h | h
    · exact assertNonNull_ok c b p (hnn h)
    · simp [assertNonNull, h]
  rw [hnn', bind_ok, checkInsertBounds_ok c size index hi, bind_ok,
    shiftUp_eq c b p size index vs.length hi hcap hl hr, bind_ok, constructRange_eq]
  · simp only [Except.ok.injEq, Buf.mk.injEq, true_and, and_true]; funext k; grind
  · right; show p + index + vs.length ≤ b.cap; omega
  · intro k h1 h2
    show (if _ then _ else _) = _
    grind

theorem append_eq [Inhabited T] (c : Cfg) (b : Buf T) (p size : Nat) (vs : List T)
    (hcap : vs.length = 0 ∨ p + size + vs.length ≤ b.cap)
    (hr : ∀ k, p + size ≤ k → k < p + size + vs.length → b.cell k = .raw) :
    append c b p size vs =
      .ok { b with cell := fun k =>
              if p + size ≤ k ∧ k < p + size + vs.length
              then .live (vs.getD (k - (p + size)) default) else b.cell k } :=
  constructRange_eq c b (p + size) vs.length _ hcap hr

theorem popBack_eq (c : Cfg) (b : Buf T) (p size : Nat) (hs : 0 < size) (hcap : p + size ≤ b.cap)
    (hl : (b.cell (p + size - 1)).isRaw = false) :
    popBack c b p size = .ok { b with cell := upd b.cell (p + size - 1) .raw } := by
  unfold popBack
  have h1 : errorIf (c.debug && b.cap == 0 && p == 0) = .ok () := by simp [errorIf]; omega
  have h2 : errorIf (c.debug && size == 0) = .ok () := by simp [errorIf]; omega
  rw [h1, bind_ok, h2, bind_ok, if_neg (by omega)]
  unfold Buf.destroyAt
  by_cases ht : c.trivial = true
  · simp [ht]
  · simp only [ht, if_pos (show p + size - 1 < b.cap by omega)]
    cases hcell : b.cell (p + size - 1) <;> simp_all [Cell.isRaw]

end LvArray.arrayManipulation

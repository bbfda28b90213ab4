import Verif.ArrayManip
/-!
# `LvArray::bufferManipulation`

Functions of /repo/src/bufferManipulation.hpp on top of `MallocBuffer` (/repo/src/MallocBuffer.hpp) and
`StackBuffer` (/repo/src/StackBuffer.hpp).  Memory space arguments are always the host here.
-/

namespace LvArray

variable {T : Type}

/-- `new ( dst + i ) T( std::move( src[ i ] ) )` from one allocation to another: the body of
`uninitializedMove`, /repo/src/arrayManipulation.hpp 208-211. -/
def moveAcross (c : Cfg) (i : Nat) (s : Buf T × Buf T) : R (Buf T × Buf T) :=
  let (dst, src) := s
  if i < dst.cap ∧ i < src.cap then
    match src.cell i with
    | .raw => if c.trivial then .ok ({ dst.place c i .raw with moves := dst.moves + 1 }, src)
              else .error (.ub .rawRead)
    | .live v =>
      .ok ({ dst.place c i (.live v) with moves := dst.moves + 1 },
           { src with cell := upd src.cell i .moved })
    | .moved => .ok ({ dst.place c i .moved with moves := dst.moves + 1 }, src)
  else .error (.ub .outOfBounds)

/-- Objects with a value still sitting in the first `n` slots when the storage is released. -/
def Buf.countL (c : Cfg) (b : Buf T) : Nat → Nat
  | 0 => 0
  | n + 1 => b.countL c n + (b.cell n).lostL c.trivial

/-- Moved-from objects still sitting in the first `n` slots when the storage is released. -/
def Buf.countM (c : Cfg) (b : Buf T) : Nat → Nat
  | 0 => 0
  | n + 1 => b.countM c n + (b.cell n).lostM c.trivial

/-- `MallocBuffer::reallocate` /repo/src/MallocBuffer.hpp 128-142 and
`StackBuffer::reallocate` /repo/src/StackBuffer.hpp 86-92. -/
def Buf.reallocate (c : Cfg) (b : Buf T) (size newCap : Nat) : R (Buf T) :=
  match b.kind with
  | .stack => do
    errorIf (decide (b.cap < newCap))
    .ok b
  | .malloc => do
    let fresh : Buf T := { kind := .malloc, cap := newCap, cell := fun _ => .raw,
                           lostLive := b.lostLive, lostMoved := b.lostMoved, moves := b.moves }
    let (nb, ob) ← forUp (min newCap size) 0 (moveAcross c) (fresh, b)
    let ob ← arrayManipulation.destroy c ob 0 size
    -- `std::free( m_data )`: whatever objects are left in the old block are lost
    .ok { nb with lostLive := nb.lostLive + ob.countL c ob.cap
                  lostMoved := nb.lostMoved + ob.countM c ob.cap }

/-- `MallocBuffer::free` /repo/src/MallocBuffer.hpp 149-154, `StackBuffer::free` 98-99 (no effect). -/
def Buf.release (c : Cfg) (b : Buf T) : Buf T :=
  match b.kind with
  | .stack => b
  | .malloc => { b with cap := 0, cell := fun _ => .raw, lostLive := b.lostLive + b.countL c b.cap,
                        lostMoved := b.lostMoved + b.countM c b.cap }

namespace bufferManipulation

/-- /repo/src/bufferManipulation.hpp 144-154 (active with LVARRAY_BOUNDS_CHECK; capacities and sizes are
`Nat`, so only the third check can fail). -/
def check (c : Cfg) (b : Buf T) (size : Nat) : R Unit :=
  errorIf (c.boundsCheck && decide (b.cap < size))

/-- /repo/src/bufferManipulation.hpp 166-177.  (`pos` negative: see `Array1D.lean`, where positions are
integers.) -/
def checkInsert (c : Cfg) (b : Buf T) (size pos : Nat) : R Unit := do
  check c b size
  errorIf (c.boundsCheck && decide (size < pos))

/-- /repo/src/bufferManipulation.hpp 188-201. -/
def free (c : Cfg) (b : Buf T) (size : Nat) : R (Buf T) := do
  check c b size
  let b ← if c.trivial then .ok b else arrayManipulation.destroy c b 0 size
  .ok (b.release c)

/-- /repo/src/bufferManipulation.hpp 214-218. -/
def setCapacity (c : Cfg) (b : Buf T) (size newCap : Nat) : R (Buf T) := do
  check c b size
  b.reallocate c size newCap

/-- /repo/src/bufferManipulation.hpp 230-238. -/
def reserve (c : Cfg) (b : Buf T) (size newCap : Nat) : R (Buf T) := do
  check c b size
  if b.cap < newCap then setCapacity c b size newCap else .ok b

/-- /repo/src/bufferManipulation.hpp 251-259. -/
def dynamicReserve (c : Cfg) (b : Buf T) (size newCap : Nat) : R (Buf T) := do
  check c b size
  if b.cap < newCap then setCapacity c b size (2 * newCap) else .ok b

/-- /repo/src/bufferManipulation.hpp 272-286 (`registerTouch` concerns device copies only). -/
def resize (c : Cfg) (b : Buf T) (size newSize : Nat) (v : T) : R (Buf T) := do
  check c b size
  let b ← reserve c b size newSize
  arrayManipulation.resize c b 0 size newSize v

/-- /repo/src/bufferManipulation.hpp 297-303. -/
def emplaceBack (c : Cfg) (b : Buf T) (size : Nat) (v : T) : R (Buf T) := do
  check c b size
  let b ← dynamicReserve c b size (size + 1)
  arrayManipulation.emplaceBack c b 0 size v

/-- /repo/src/bufferManipulation.hpp 315-324. -/
def emplace (c : Cfg) (b : Buf T) (size pos : Nat) (v : T) : R (Buf T) := do
  checkInsert c b size pos
  let b ← dynamicReserve c b size (size + 1)
  arrayManipulation.emplace c b 0 size pos v

/-- /repo/src/bufferManipulation.hpp 338-350. -/
def insert [Inhabited T] (c : Cfg) (b : Buf T) (size pos : Nat) (vs : List T) : R (Buf T) := do
  checkInsert c b size pos
  let b ← dynamicReserve c b size (size + vs.length)
  arrayManipulation.insert c b 0 size pos vs

/-- /repo/src/bufferManipulation.hpp 359-363. -/
def popBack (c : Cfg) (b : Buf T) (size : Nat) : R (Buf T) := do
  check c b size
  arrayManipulation.popBack c b 0 size

/-- /repo/src/bufferManipulation.hpp 373-379. `LVARRAY_ERROR_IF_GE` is always active. -/
def erase (c : Cfg) (b : Buf T) (size pos : Nat) : R (Buf T) := do
  check c b size
  errorIf (decide (size ≤ pos))
  arrayManipulation.erase c b 0 size pos 1

/-- /repo/src/bufferManipulation.hpp 393-411. `v` is the value-initialised element used by `resize`. -/
def copyInto (c : Cfg) (dst : Buf T) (dstSize : Nat) (src : Buf T) (srcSize : Nat) (v : T) :
    R (Buf T) := do
  check c dst dstSize
  check c src srcSize
  let dst ← resize c dst dstSize srcSize v
  forUp srcSize 0 (fun i dst => do
    let x ← src.read i
    dst.write c i x) dst

end bufferManipulation

/-! ## Representation of a sequence by an allocation -/

/-- The cells of an allocation holding exactly the sequence `xs`, one live object per element and no object
anywhere else. -/
def cellsOf (xs : List T) : Nat → Cell T := fun k =>
  match xs[k]? with
  | some v => .live v
  | none => .raw

/-- `b` holds exactly the elements `xs` in its first `xs.length` slots. -/
def Rep (b : Buf T) (xs : List T) : Prop := b.cell = cellsOf xs ∧ xs.length ≤ b.cap

theorem cellsOf_lt {xs : List T} {k : Nat} (h : k < xs.length) : cellsOf xs k = .live xs[k] := by
  simp [cellsOf, h]

theorem cellsOf_ge {xs : List T} {k : Nat} (h : xs.length ≤ k) : cellsOf xs k = .raw := by
  simp [cellsOf, h]

theorem cellsOf_isLive {xs : List T} {k : Nat} (h : k < xs.length) : (cellsOf xs k).isLive = true := by
  rw [cellsOf_lt h]; rfl

theorem cellsOf_notRaw {xs : List T} {k : Nat} (h : k < xs.length) : (cellsOf xs k).isRaw = false := by
  rw [cellsOf_lt h]; rfl

theorem countL_zero (c : Cfg) (b : Buf T) : ∀ n, (c.trivial = true ∨ ∀ k, k < n → b.cell k = .raw) →
    b.countL c n = 0
  | 0, _ => rfl
  | n + 1, h => by
    rcases h with h | h
    · simp [Buf.countL, countL_zero c b n (.inl h), h]
    · simp [Buf.countL, countL_zero c b n (.inr fun k hk => h k (by omega)), h n (by omega)]

theorem countM_zero (c : Cfg) (b : Buf T) : ∀ n, (c.trivial = true ∨ ∀ k, k < n → b.cell k = .raw) →
    b.countM c n = 0
  | 0, _ => rfl
  | n + 1, h => by
    rcases h with h | h
    · simp [Buf.countM, countM_zero c b n (.inl h), h]
    · simp [Buf.countM, countM_zero c b n (.inr fun k hk => h k (by omega)), h n (by omega)]

/-- Reallocation of a heap buffer moves the first `size` slots, whatever they are, provided they may be moved
and nothing beyond them is left behind. -/
theorem reallocate_eq (c : Cfg) (b : Buf T) (size newCap : Nat) (hk : b.kind = .malloc) (hs : size ≤ b.cap)
    (hl : c.trivial = true ∨ ((∀ k, k < size → (b.cell k).isRaw = false) ∧
      ∀ k, size ≤ k → k < b.cap → b.cell k = .raw)) :
    b.reallocate c size newCap =
      .ok { b with
        cap := newCap
        cell := fun k => if k < min newCap size then b.cell k else .raw
        moves := b.moves + min newCap size } := by
  obtain ⟨kind, cap, cell, lostLive, lostMoved, moves⟩ := b
  simp only at hk hs hl
  subst hk
  simp only [Buf.reallocate]
  let g : Nat → Buf T × Buf T := fun i =>
    ({ kind := .malloc, cap := newCap, cell := fun k => if k < i then cell k else .raw,
       lostLive := lostLive, lostMoved := lostMoved, moves := moves + i },
     { kind := .malloc, cap := cap
       cell := fun k => if k < i ∧ (cell k).isRaw = false then .moved else cell k
       lostLive := lostLive, lostMoved := lostMoved, moves := moves })
  have hloop := forUp_eq (f := moveAcross c) g (min newCap size) 0
    (s := (⟨.malloc, newCap, fun _ => .raw, lostLive, lostMoved, moves⟩,
           ⟨.malloc, cap, cell, lostLive, lostMoved, moves⟩)) ?_ ?_
  · rw [hloop, bind_ok]
    simp only [g, Nat.zero_add]
    rw [arrayManipulation.destroy_eq]
    · simp only [bind_ok]
      rw [countL_zero, countM_zero]
      · simp
      · rcases hl with hl | ⟨_, hl⟩
        · exact .inl hl
        · right
          intro k hk
          have := hl k
          simp only [Nat.zero_le, true_and, Nat.zero_add]
          split
          · rfl
          · rename_i hks
            rw [if_neg (by omega)]
            exact this (by omega) hk
      · rcases hl with hl | ⟨_, hl⟩
        · exact .inl hl
        · right
          intro k hk
          have := hl k
          simp only [Nat.zero_le, true_and, Nat.zero_add]
          split
          · rfl
          · rename_i hks
            rw [if_neg (by omega)]
            exact this (by omega) hk
    · rcases hl with hl | ⟨hl, _⟩
      · exact .inl hl
      · right
        intro k _ hk
        refine ⟨show k < cap by omega, ?_⟩
        have := hl k (by omega)
        simp only []
        split
        · rfl
        · exact this
  · simp [g]
  · intro i _ hi
    have hb : i < newCap ∧ i < cap := by omega
    simp only [moveAcross, g, hb, and_self, if_true, Nat.lt_irrefl, false_and, if_false]
    cases hcell : cell i with
    | raw =>
      rcases hl with hl | ⟨hl, _⟩
      · simp only [hl, if_true, Buf.place, Nat.lt_irrefl, if_false, Cell.lostL_raw, Cell.lostM_raw,
          Nat.add_zero, Except.ok.injEq, Prod.mk.injEq, Buf.mk.injEq, true_and, and_true]
        refine ⟨⟨?_, by omega⟩, ?_⟩ <;> funext k <;> grind [upd, Cell.isRaw]
      · have := hl i (by omega); rw [hcell] at this; cases this
    | live v =>
      simp only [Buf.place, Nat.lt_irrefl, if_false, Cell.lostL_raw, Cell.lostM_raw,
          Nat.add_zero, Except.ok.injEq, Prod.mk.injEq, Buf.mk.injEq, true_and, and_true]
      refine ⟨⟨?_, by omega⟩, ?_⟩ <;> funext k <;> grind [upd, Cell.isRaw]
    | moved =>
      simp only [Buf.place, Nat.lt_irrefl, if_false, Cell.lostL_raw, Cell.lostM_raw,
          Nat.add_zero, Except.ok.injEq, Prod.mk.injEq, Buf.mk.injEq, true_and, and_true]
      refine ⟨⟨?_, by omega⟩, ?_⟩ <;> funext k <;> grind [upd, Cell.isRaw]

end LvArray

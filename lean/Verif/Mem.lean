/-!
# Memory model

Outcomes, memory cells, allocations and the object-lifetime primitives every container operation of
LvArray is made of, plus the two loop shapes used by the code.
-/

namespace LvArray

/-- Reasons for undefined behaviour. -/
inductive UB where
  /-- access outside `[0, capacity)` of an allocation (also: any access through a null buffer) -/
  | outOfBounds
  /-- reading or moving from storage that holds no object -/
  | rawRead
  /-- reading the value of a moved-from object -/
  | movedRead
  /-- destroying storage that holds no object -/
  | rawDestroy
  /-- assigning to storage that holds no object -/
  | rawAssign
  /-- use of a reference into storage that has been released -/
  | dangling
  /-- an iterator, range or fixed size table is overrun -/
  | overrun
  /-- a loop without side effects that never ends -/
  | diverge
  /-- overflow of a signed integer, division by zero -/
  | overflow
  deriving DecidableEq, Repr

/-- How a call can fail: LvArray's own error path (`LVARRAY_ERROR*`, /repo/src/Macros.hpp 122-136) or
undefined behaviour. -/
inductive Err where
  | abort
  | ub (u : UB)
  deriving DecidableEq, Repr

/-- Results of modelled functions. -/
abbrev R := Except Err

instance {ε α : Type} [DecidableEq ε] [DecidableEq α] : DecidableEq (Except ε α)
  | .ok a, .ok b => if h : a = b then isTrue (by rw [h]) else isFalse (by intro e; cases e; exact h rfl)
  | .error a, .error b => if h : a = b then isTrue (by rw [h]) else isFalse (by intro e; cases e; exact h rfl)
  | .ok _, .error _ => isFalse (by intro e; cases e)
  | .error _, .ok _ => isFalse (by intro e; cases e)

/-- Compile-time configuration the code depends on.
`trivial`: the element type is trivially copyable and trivially destructible.
`boundsCheck`: `LVARRAY_BOUNDS_CHECK` is defined.
`debug`: `NDEBUG` is not defined, so `LVARRAY_ASSERT*` is active (/repo/src/Macros.hpp 156-160). -/
structure Cfg where
  trivial : Bool
  boundsCheck : Bool
  debug : Bool
  deriving DecidableEq, Repr

/-- State of one element slot of an allocation. -/
inductive Cell (T : Type) where
  /-- no object lives here -/
  | raw
  /-- an object with value `v` -/
  | live (v : T)
  /-- an object whose value has been moved out; it still has to be destroyed -/
  | moved
  deriving DecidableEq, Repr

/-- The slot holds no object. -/
def Cell.isRaw {T : Type} : Cell T → Bool
  | .raw => true
  | _ => false

/-- Which buffer class (`template<typename> class BUFFER_TYPE`) holds the elements.
`malloc`: /repo/src/MallocBuffer.hpp 35-188; `stack`: /repo/src/StackBuffer.hpp 40-130. -/
inductive BufKind where
  | malloc
  | stack
  deriving DecidableEq, Repr

/-- One allocation.  `cap` is the number of slots, `cell` their state (slots `≥ cap` do not exist and stay
`raw`).  The last three fields are ghost counters that no modelled function reads:
`lostLive`/`lostMoved` count objects with a value / moved-from objects whose storage was reused or released
without running their destructor, `moves` counts element relocations (move constructions). -/
structure Buf (T : Type) where
  kind : BufKind
  cap : Nat
  cell : Nat → Cell T
  lostLive : Nat
  lostMoved : Nat
  moves : Nat

/-- Default constructed buffer: null pointer, capacity 0.
/repo/src/MallocBuffer.hpp 50-54. -/
def Buf.empty {T : Type} : Buf T :=
  { kind := .malloc, cap := 0, cell := fun _ => .raw, lostLive := 0, lostMoved := 0, moves := 0 }

/-- A stack buffer of length `n` whose slots hold no object.
/repo/src/StackBuffer.hpp 129.  Simplification: the C array member default constructs its `LENGTH` elements
for class types; LvArray documents StackBuffer for trivially destructible types only
(static_assert in /repo/src/StackBuffer.hpp), for which those elements are indeterminate. -/
def Buf.stack {T : Type} (n : Nat) : Buf T :=
  { kind := .stack, cap := n, cell := fun _ => .raw, lostLive := 0, lostMoved := 0, moves := 0 }

/-- Function update at one position. -/
def upd {α : Type} (f : Nat → α) (i : Nat) (a : α) : Nat → α := fun k => if k = i then a else f k

/-- 1 when overwriting/releasing cell `c` loses an object that holds a value (never for trivial types). -/
def Cell.lostL {T : Type} (trivial : Bool) : Cell T → Nat
  | .live _ => if trivial then 0 else 1
  | _ => 0

/-- 1 when overwriting/releasing cell `c` loses a moved-from object (never for trivial types). -/
def Cell.lostM {T : Type} (trivial : Bool) : Cell T → Nat
  | .moved => if trivial then 0 else 1
  | _ => 0

variable {T : Type}

/-- Put `x` in slot `i` as a newly constructed object (placement new), accounting for what was there. -/
def Buf.place (c : Cfg) (b : Buf T) (i : Nat) (x : Cell T) : Buf T :=
  { b with
    cell := upd b.cell i x
    lostLive := b.lostLive + (b.cell i).lostL c.trivial
    lostMoved := b.lostMoved + (b.cell i).lostM c.trivial }

/-- `new ( ptr + i ) T( v )`. -/
def Buf.construct (c : Cfg) (b : Buf T) (i : Nat) (v : T) : R (Buf T) :=
  if i < b.cap then .ok (b.place c i (.live v)) else .error (.ub .outOfBounds)

/-- `new ( ptr + dst ) T( std::move( ptr[ src ] ) )` inside one allocation.  Moving an indeterminate value is
allowed only for trivial types; moving from a moved-from object yields a moved-from object. -/
def Buf.moveConstruct (c : Cfg) (b : Buf T) (dst src : Nat) : R (Buf T) :=
  if dst < b.cap ∧ src < b.cap then
    match b.cell src with
    | .raw => if c.trivial then .ok { b.place c dst .raw with moves := b.moves + 1 }
              else .error (.ub .rawRead)
    | .live v =>
      .ok { { b with cell := upd b.cell src .moved }.place c dst (.live v) with moves := b.moves + 1 }
    | .moved => .ok { b.place c dst .moved with moves := b.moves + 1 }
  else .error (.ub .outOfBounds)

/-- `ptr[ dst ] = std::move( ptr[ src ] )`. -/
def Buf.moveAssign (c : Cfg) (b : Buf T) (dst src : Nat) : R (Buf T) :=
  if dst < b.cap ∧ src < b.cap then
    if (b.cell dst).isRaw && !c.trivial then .error (.ub .rawAssign)
    else
      match b.cell src with
      | .raw => if c.trivial then .ok { b with cell := upd b.cell dst .raw } else .error (.ub .rawRead)
      | .live v => .ok { b with cell := upd (upd b.cell src .moved) dst (.live v) }
      | .moved => .ok { b with cell := upd b.cell dst .moved }
  else .error (.ub .outOfBounds)

/-- `ptr[ i ] = v`. -/
def Buf.write (c : Cfg) (b : Buf T) (i : Nat) (v : T) : R (Buf T) :=
  if i < b.cap then
    if (b.cell i).isRaw && !c.trivial then .error (.ub .rawAssign)
    else .ok { b with cell := upd b.cell i (.live v) }
  else .error (.ub .outOfBounds)

/-- Read the value `ptr[ i ]`. -/
def Buf.read (b : Buf T) (i : Nat) : R T :=
  if i < b.cap then
    match b.cell i with
    | .raw => .error (.ub .rawRead)
    | .live v => .ok v
    | .moved => .error (.ub .movedRead)
  else .error (.ub .outOfBounds)

/-- `ptr[ i ].~T()`.  For trivially destructible types the call does nothing; the slot's value is forgotten. -/
def Buf.destroyAt (c : Cfg) (b : Buf T) (i : Nat) : R (Buf T) :=
  if c.trivial then .ok { b with cell := upd b.cell i .raw }
  else if i < b.cap then
    match b.cell i with
    | .raw => .error (.ub .rawDestroy)
    | _ => .ok { b with cell := upd b.cell i .raw }
  else .error (.ub .outOfBounds)

/-- `for( i = lo; i < lo + n; ++i ) f( i )` -/
def forUp {σ : Type} : Nat → Nat → (Nat → σ → R σ) → σ → R σ
  | 0, _, _, s => .ok s
  | n + 1, lo, f, s => f lo s >>= forUp n (lo + 1) f

/-- `for( i = lo + n - 1; i >= lo; --i ) f( i )` -/
def forDown {σ : Type} : Nat → Nat → (Nat → σ → R σ) → σ → R σ
  | 0, _, _, s => .ok s
  | n + 1, lo, f, s => f (lo + n) s >>= forDown n lo f

/-- `LVARRAY_ERROR_IF( cond )`: /repo/src/Macros.hpp 122-136. -/
def errorIf (cond : Bool) : R Unit := if cond then .error .abort else .ok ()

theorem bind_eq_ok {α β : Type} {x : R α} {f : α → R β} {b : β} : (x >>= f) = .ok b ↔ ∃ a, x = .ok a ∧ f a = .ok b := by
  cases x with
  | error e => exact ⟨fun h => (nomatch h), fun ⟨_, h, _⟩ => (nomatch h)⟩
  | ok a => exact ⟨fun h => ⟨a, rfl, h⟩, fun ⟨_, h1, h2⟩ => Except.ok.inj h1 ▸ h2⟩

/-- Total-correctness rule for `forUp`. -/
theorem forUp_inv {σ : Type} {f : Nat → σ → R σ} (P : Nat → σ → Prop) :
    ∀ (n lo : Nat) (s : σ), P lo s →
      (∀ i s, lo ≤ i → i < lo + n → P i s → ∃ s', f i s = .ok s' ∧ P (i + 1) s') →
      ∃ s', forUp n lo f s = .ok s' ∧ P (lo + n) s'
  | 0, lo, s, h0, _ => ⟨s, rfl, h0⟩
  | n + 1, lo, s, h0, step => by
    obtain ⟨s1, h1, p1⟩ := step lo s (Nat.le_refl _) (by omega) h0
    obtain ⟨s2, h2, p2⟩ := forUp_inv P n (lo + 1) s1 p1
      (fun i s hi hi' hp => step i s (by omega) (by omega) hp)
    refine ⟨s2, ?_, ?_⟩
    · show (f lo s >>= forUp n (lo + 1) f) = .ok s2
      rw [h1]; exact h2
    · rw [show lo + (n + 1) = lo + 1 + n by omega]; exact p2

/-- Total-correctness rule for `forDown`: `P (lo + k)` holds when positions `≥ lo + k` have been processed. -/
theorem forDown_inv {σ : Type} {f : Nat → σ → R σ} (P : Nat → σ → Prop) (lo : Nat) :
    ∀ (n : Nat) (s : σ), P (lo + n) s →
      (∀ i s, lo ≤ i → i < lo + n → P (i + 1) s → ∃ s', f i s = .ok s' ∧ P i s') →
      ∃ s', forDown n lo f s = .ok s' ∧ P lo s'
  | 0, s, h0, _ => ⟨s, rfl, h0⟩
  | n + 1, s, h0, step => by
    obtain ⟨s1, h1, p1⟩ := step (lo + n) s (by omega) (by omega) h0
    obtain ⟨s2, h2, p2⟩ := forDown_inv P lo n s1 p1
      (fun i s hi hi' hp => step i s hi (by omega) hp)
    exact ⟨s2, by show (f (lo + n) s >>= forDown n lo f) = .ok s2; rw [h1]; exact h2, p2⟩

/-- Exact-value form of `forUp_inv`: give the state before each iteration in closed form. -/
theorem forUp_eq {σ : Type} {f : Nat → σ → R σ} (g : Nat → σ) (n lo : Nat) {s : σ} (h0 : s = g lo)
    (step : ∀ i, lo ≤ i → i < lo + n → f i (g i) = .ok (g (i + 1))) :
    forUp n lo f s = .ok (g (lo + n)) := by
  obtain ⟨s', h, rfl⟩ := forUp_inv (fun i s => s = g i) n lo s h0
    (fun i s hi hi' hs => ⟨g (i + 1), by subst hs; exact step i hi hi', rfl⟩)
  exact h

/-- Exact-value form of `forDown_inv`. -/
theorem forDown_eq {σ : Type} {f : Nat → σ → R σ} (g : Nat → σ) (n lo : Nat) {s : σ} (h0 : s = g (lo + n))
    (step : ∀ i, lo ≤ i → i < lo + n → f i (g (i + 1)) = .ok (g i)) :
    forDown n lo f s = .ok (g lo) := by
  obtain ⟨s', h, rfl⟩ := forDown_inv (fun i s => s = g i) lo n s h0
    (fun i s hi hi' hs => ⟨g i, by subst hs; exact step i hi hi', rfl⟩)
  exact h

@[simp] theorem bind_ok {α β : Type} (a : α) (f : α → R β) : (Except.ok a >>= f : R β) = f a := rfl
@[simp] theorem bind_err {α β : Type} (e : Err) (f : α → R β) : (Except.error e >>= f : R β) = .error e := rfl
@[simp] theorem pure_ok {α : Type} (a : α) : (pure a : R α) = .ok a := rfl

@[simp] theorem errorIf_true : errorIf true = .error .abort := rfl
@[simp] theorem errorIf_false : errorIf false = .ok () := rfl

theorem upd_same {α : Type} (f : Nat → α) (i : Nat) (a : α) : upd f i a i = a := by simp [upd]
theorem upd_ne {α : Type} (f : Nat → α) {i k : Nat} (a : α) (h : k ≠ i) : upd f i a k = f k := by
  simp [upd, h]

@[simp] theorem Cell.lostL_raw (t : Bool) : (Cell.raw : Cell T).lostL t = 0 := rfl
@[simp] theorem Cell.lostM_raw (t : Bool) : (Cell.raw : Cell T).lostM t = 0 := rfl
@[simp] theorem Cell.lostL_moved (t : Bool) : (Cell.moved : Cell T).lostL t = 0 := rfl
@[simp] theorem Cell.lostM_live (t : Bool) (v : T) : (Cell.live v : Cell T).lostM t = 0 := rfl
@[simp] theorem Cell.lostL_triv (x : Cell T) : x.lostL true = 0 := by cases x <;> rfl
@[simp] theorem Cell.lostM_triv (x : Cell T) : x.lostM true = 0 := by cases x <;> rfl

/-- The slot holds an object with a value. -/
def Cell.isLive : Cell T → Bool
  | .live _ => true
  | _ => false

theorem Cell.isLive_iff {x : Cell T} : x.isLive = true ↔ ∃ v, x = .live v := by
  cases x <;> simp [Cell.isLive]

end LvArray

import Verif.Array1DLemmas
/-!
# Several arrays sharing one heap

To state that copies own their storage and that moves neither lose nor leak anything, arrays are handles
(pointer, size) into a heap of allocations.  The handle operations reuse the single-array model.
-/

namespace LvArray

variable {T : Type}

/-- `m_dataBuffer.m_data` (`none` = null; the capacity is the allocation's) and `m_dims[ 0 ]`. -/
structure Handle where
  ptr : Option Nat
  size : Nat
  deriving DecidableEq, Repr

/-- A heap of allocations, the live array variables and a fresh address. -/
structure World (T : Type) where
  mem : Nat → Option (Buf T)
  vars : Nat → Option Handle
  fresh : Nat

/-- Nothing allocated, no variables. -/
def World.empty (T : Type) : World T := { mem := fun _ => none, vars := fun _ => none, fresh := 0 }

/-- The array a handle denotes: dereference the pointer. Dereferencing released storage is undefined. -/
def World.load (w : World T) (h : Handle) : R (Array1 T) :=
  match h.ptr with
  | none => .ok { buf := Buf.empty, size := h.size }
  | some p =>
    match w.mem p with
    | some b => .ok { buf := b, size := h.size }
    | none => .error (.ub .dangling)

/-- Overwrite the allocation a pointer refers to. -/
def setMem (mem : Nat → Option (Buf T)) : Option Nat → Buf T → Nat → Option (Buf T)
  | none, _ => mem
  | some p, b => upd mem p (some b)

/-- `std::free`. -/
def freeMem (mem : Nat → Option (Buf T)) : Option Nat → Nat → Option (Buf T)
  | none => mem
  | some p => upd mem p none

/-- Write a modified array back to variable `x` whose handle was `h`, denoting a buffer of capacity `oldCap`.
If the capacity changed the buffer was reallocated: the old allocation is gone and the new one has a new
address (/repo/src/MallocBuffer.hpp 128-142). -/
def World.store (w : World T) (x : Nat) (h : Handle) (oldCap : Nat) (a : Array1 T) : World T :=
  if a.buf.cap = oldCap then
    { w with
      mem := setMem w.mem h.ptr a.buf
      vars := upd w.vars x (some { h with size := a.size }) }
  else
    { mem := upd (freeMem w.mem h.ptr) w.fresh (some a.buf)
      vars := upd w.vars x (some { ptr := some w.fresh, size := a.size })
      fresh := w.fresh + 1 }

/-- Calls on array variables. -/
inductive WOp (T : Type) where
  /-- default construction, /repo/src/Array.hpp 89-100 -/
  | new (x : Nat)
  /-- any single-array call on `x` -/
  | call (x : Nat) (op : VecOp T)
  /-- `x = y` with copy semantics, /repo/src/Array.hpp 173-185 (copy construction is `new` followed by this) -/
  | copy (x y : Nat)
  /-- construction of `x` from `std::move( y )`, /repo/src/Array.hpp 150-158 -/
  | moveNew (x y : Nat)
  /-- `x = std::move( y )`, /repo/src/Array.hpp 193-204 -/
  | moveTo (x y : Nat)
  /-- destruction, /repo/src/Array.hpp 164-165 -/
  | del (x : Nat)
  deriving DecidableEq, Repr

/-- Look up a variable; using an undeclared one is not a program. -/
def World.var (w : World T) (x : Nat) : R Handle :=
  match w.vars x with
  | some h => .ok h
  | none => .error (.ub .dangling)

/-- Handle `hy` of `y` goes to `x`; `y` becomes an empty null array. -/
def World.transfer (w : World T) (x y : Nat) (hy : Handle) : World T :=
  { w with vars := upd (upd w.vars x (some hy)) y (some { ptr := none, size := 0 }) }

/-- Declare `x` as an empty array. -/
def World.declare (w : World T) (x : Nat) : World T :=
  { w with vars := upd w.vars x (some { ptr := none, size := 0 }) }

/-- Destroy variable `x` with handle `h`. -/
def World.remove (w : World T) (x : Nat) (h : Handle) : World T :=
  { w with mem := freeMem w.mem h.ptr, vars := upd w.vars x none }

/-- One statement of a program over array variables. -/
def World.step [Inhabited T] (c : Cfg) (w : World T) : WOp T → R (World T)
  | .new x =>
    match w.vars x with
    | some _ => .error (.ub .dangling)
    | none => .ok (w.declare x)
  | .call x op => do
    let h ← w.var x
    let a ← w.load h
    let a' ← a.step c op
    .ok (w.store x h a.buf.cap a')
  | .copy x y => do
    let h ← w.var x
    let a ← w.load h
    let hy ← w.var y
    let b ← w.load hy
    let a' ← a.copyAssign c b
    .ok (w.store x h a.buf.cap a')
  | .moveNew x y => do
    let hy ← w.var y
    match w.vars x with
    | some _ => .error (.ub .dangling)
    | none => .ok (w.transfer x y hy)
  | .moveTo x y => do
    let _ ← w.var x
    let hy ← w.var y
    -- dims and buffer are copied from `y` to `x`, then cleared in `y` (for `x = y` the array ends up cleared)
    .ok (w.transfer x y hy)
  | .del x => do
    let h ← w.var x
    let a ← w.load h
    let _ ← a.dtor c
    .ok (w.remove x h)

/-- A program. -/
def World.run [Inhabited T] (c : Cfg) : World T → List (WOp T) → R (World T)
  | w, [] => .ok w
  | w, op :: ops => w.step c op >>= fun w => World.run c w ops

/-- An allocation no variable points to. -/
def World.leaked (w : World T) (p : Nat) : Prop :=
  w.mem p ≠ none ∧ ∀ x h, w.vars x = some h → h.ptr ≠ some p

namespace Spec

/-- Specification: each variable is a plain sequence; copies copy, moves transfer and leave an empty
sequence. -/
def worldStep {T : Type} [Inhabited T] (vars : Nat → Option (List T)) : WOp T → Option (Nat → Option (List T))
  | .new x => if (vars x).isSome then none else some (upd vars x (some []))
  | .call x op => do
    let xs ← vars x
    let ys ← vecStep none xs op
    some (upd vars x (some ys))
  | .copy x y => do
    let _ ← vars x
    let ys ← vars y
    some (upd vars x (some ys))
  | .moveNew x y => do
    let ys ← vars y
    if (vars x).isSome then none else some (upd (upd vars x (some ys)) y (some []))
  | .moveTo x y => do
    let _ ← vars x
    let ys ← vars y
    if x = y then none else some (upd (upd vars x (some ys)) y (some []))
  | .del x => do
    let _ ← vars x
    some (upd vars x none)

/-- Effect of a program. -/
def worldRun {T : Type} [Inhabited T] :
    (Nat → Option (List T)) → List (WOp T) → Option (Nat → Option (List T))
  | vars, [] => some vars
  | vars, op :: ops => worldStep vars op >>= fun vars => worldRun vars ops

end Spec

/-- The heap realises the abstract variables: every variable denotes its sequence, and storage is not
shared. -/
structure WInv (w : World T) (vars : Nat → Option (List T)) : Prop where
  undecl : ∀ x, vars x = none → w.vars x = none
  decl : ∀ x xs, vars x = some xs → ∃ h a, w.vars x = some h ∧ w.load h = .ok a ∧ Good none a xs
  sep : ∀ x y hx hy p, w.vars x = some hx → w.vars y = some hy → hx.ptr = some p → hy.ptr = some p → x = y
  fresh : ∀ x h p, w.vars x = some h → h.ptr = some p → p < w.fresh

theorem load_store {w : World T} {x : Nat} {h : Handle} {a a' : Array1 T} {ys : List T}
    (hl : w.load h = .ok a) (g : Good none a' ys) :
    ∃ h' a'', (w.store x h a.buf.cap a').vars x = some h' ∧
      (w.store x h a.buf.cap a').load h' = .ok a'' ∧ Good none a'' ys := by
  unfold World.store
  split
  · rename_i hcap
    unfold World.load at hl
    cases hp : h.ptr with
    | none =>
      simp only [hp, Except.ok.injEq] at hl
      rw [← hl] at hcap
      have hys : ys = [] := by
        have := g.rep.2
        rw [hcap] at this
        exact List.length_eq_zero_iff.1 (Nat.le_zero.1 this)
      refine ⟨_, { buf := Buf.empty, size := a'.size }, upd_same _ _ _, rfl, ?_⟩
      subst hys
      have g0 := Good.init T none
      exact ⟨g.size, g0.rep, g0.lost, g0.heap, g0.stack⟩
    | some p => exact ⟨_, a', upd_same _ _ _, by simp [World.load, setMem, upd, hp], g⟩
  · exact ⟨_, a', upd_same _ _ _, by simp [World.load, upd], g⟩

/-- Storing a well-formed result into `x` preserves the heap invariant and changes only `x`. -/
theorem WInv.store {w : World T} {vars : Nat → Option (List T)} (I : WInv w vars) {x : Nat} {h : Handle}
    {a a' : Array1 T} {ys : List T} (hx : w.vars x = .some h) (hl : w.load h = .ok a) (g : Good none a' ys) :
    WInv (w.store x h a.buf.cap a') (upd vars x (.some ys)) := by
  obtain ⟨h', a'', hv', hl', g'⟩ := load_store (x := x) (a' := a') hl g
  have hvx : ∀ y, y ≠ x → (w.store x h a.buf.cap a').vars y = w.vars y := by
    intro y hy; unfold World.store; split <;> simp [upd, hy]
  refine ⟨?_, ?_, ?_, ?_⟩
  · intro y hy
    by_cases hyx : y = x
    · subst hyx; simp [upd] at hy
    · rw [hvx y hyx]; exact I.undecl y (by simpa [upd, hyx] using hy)
  · intro y zs hy
    by_cases hyx : y = x
    · subst hyx
      simp only [upd_same, Option.some.injEq] at hy
      subst hy
      exact ⟨h', a'', hv', hl', g'⟩
    · rw [upd_ne _ _ hyx] at hy
      obtain ⟨hy1, ay, e1, e2, gy⟩ := I.decl y zs hy
      refine ⟨hy1, ay, by rw [hvx y hyx, e1], ?_, gy⟩
      -- the allocation of y is untouched
      unfold World.load at e2 ⊢
      cases hp : hy1.ptr with
      | none => simpa [hp] using e2
      | some p =>
        simp only [hp] at e2 ⊢
        have hpf := I.fresh y hy1 p e1 hp
        have hne : h.ptr ≠ .some p := fun hc => hyx (I.sep y x hy1 h p e1 hx hp hc)
        have : (w.store x h a.buf.cap a').mem p = w.mem p := by
          unfold World.store
          split
          · cases hq : h.ptr with
            | none => rfl
            | some q => exact upd_ne _ _ (by intro e; subst e; exact hne hq)
          · refine (upd_ne _ _ (by omega)).trans ?_
            cases hq : h.ptr with
            | none => rfl
            | some q => exact upd_ne _ _ (by intro e; subst e; exact hne hq)
        rw [this]; exact e2
  · -- separation
    have hptr : ∀ p, h'.ptr = .some p → (h.ptr = .some p ∨ p = w.fresh) := by
      intro p hp
      unfold World.store at hv'
      split at hv'
      · simp only [upd_same, Option.some.injEq] at hv'; rw [← hv'] at hp; exact .inl hp
      · simp only [upd_same, Option.some.injEq] at hv'; rw [← hv'] at hp
        right; simpa using hp.symm
    intro y z hy hz p ey ez py pz
    by_cases hyx : y = x <;> by_cases hzx : z = x
    · omega
    · subst hyx
      rw [hv'] at ey; cases ey
      rw [hvx z hzx] at ez
      rcases hptr p py with h1 | h1
      · exact (hzx (I.sep z y hz h p ez hx pz h1)).elim
      · have := I.fresh z hz p ez pz; omega
    · subst hzx
      rw [hv'] at ez; cases ez
      rw [hvx y hyx] at ey
      rcases hptr p pz with h1 | h1
      · exact (hyx (I.sep y z hy h p ey hx py h1)).elim
      · have := I.fresh y hy p ey py; omega
    · rw [hvx y hyx] at ey; rw [hvx z hzx] at ez
      exact I.sep y z hy hz p ey ez py pz
  · intro y hy p ey py
    have hfr : w.fresh ≤ (w.store x h a.buf.cap a').fresh := by
      unfold World.store; split <;> simp
    by_cases hyx : y = x
    · subst hyx
      rw [hv'] at ey; cases ey
      unfold World.store at hv' ⊢
      split at hv'
      · rename_i hc
        rw [if_pos hc]
        simp only [upd_same, Option.some.injEq] at hv'
        rw [← hv'] at py
        exact I.fresh y h p hx py
      · rename_i hc
        rw [if_neg hc]
        simp only [upd_same, Option.some.injEq] at hv'
        rw [← hv'] at py
        simp only [Option.some.injEq] at py
        show p < w.fresh + 1; omega
    · rw [hvx y hyx] at ey
      have := I.fresh y hy p ey py
      omega

end LvArray

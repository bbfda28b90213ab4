import Verif.Array1DLemmas
/-!
# C07, C08, C09, C35: the one-dimensional Array against `std::vector`
-/

namespace LvArray.Props

open LvArray

variable {T : Type} [Inhabited T]

/-- A history containing no insertion of an empty range (only needed for debug builds, see
`C07_debug_empty_insert_aborts`). -/
def noEmptyInsert (ops : List (VecOp T)) : Prop := ∀ pos, VecOp.insert pos [] ∉ ops

theorem run_good (c : Cfg) (limit : Option Nat) : ∀ (ops : List (VecOp T)) (a : Array1 T) (xs ys : List T),
    Good limit a xs → (c.debug = true → noEmptyInsert ops) → Spec.vecRun limit xs ops = some ys →
    ∃ a', a.run c ops = .ok a' ∧ Good limit a' ys
  | [], a, xs, ys, g, _, h => by
    simp only [Spec.vecRun, Option.some.injEq] at h
    subst h; exact ⟨a, rfl, g⟩
  | op :: ops, a, xs, ys, g, hd, h => by
    simp only [Spec.vecRun, Option.bind_eq_bind, Option.bind_eq_some_iff] at h
    obtain ⟨zs, h1, h2⟩ := h
    obtain ⟨a1, e1, g1⟩ := step_ok c g op h1 (by
      intro hn
      cases op with
      | insert pos vs =>
        cases vs with
        | nil => exact hd hn.1 pos (by simp)
        | cons v vs => exact hn
      | _ => exact hn)
    obtain ⟨a2, e2, g2⟩ := run_good c limit ops a1 zs ys g1 (fun h pos hm => hd h pos (by simp [hm])) h2
    exact ⟨a2, by simp [Array1.run, e1, e2], g2⟩

/-- **C07.** After any history of calls that are valid for a `std::vector`, the array has the vector's size and
elements; the calls neither abort nor reach undefined behaviour.  Holds for heap arrays (`limit = none`) and
for stack arrays of every length, every element type, with and without bounds checking. -/
theorem C07_array_is_vector (c : Cfg) (limit : Option Nat) (ops : List (VecOp T)) (xs : List T)
    (hdbg : c.debug = true → noEmptyInsert ops)
    (h : Spec.vecRun limit [] ops = some xs) :
    ∃ a, (Array1.init T limit).run c ops = .ok a ∧ a.size = xs.length ∧
      (∀ i : Nat, (hi : i < xs.length) → a.get c i = .ok xs[i]) := by
  obtain ⟨a, e, g⟩ := run_good c limit ops _ [] xs (Good.init T limit) hdbg h
  exact ⟨a, e, g.size, fun i hi => get_ok c g i hi⟩

example : Spec.vecRun (T := Nat) none []
    [.emplaceBack 1, .emplaceBack 2, .insert 1 [7, 8], .emplace 0 5, .erase 3, .popBack, .resizeDefault 5 9]
      = some [5, 1, 7, 9, 9] := by decide

/-- With all checks compiled in, a call that violates a `std::vector` precondition (or overflows a stack array)
aborts before doing anything else. -/
theorem C07_invalid_call_aborts (c : Cfg) (hb : c.boundsCheck = true) (hd : c.debug = true)
    (limit : Option Nat) (ops : List (VecOp T)) (op : VecOp T) (xs : List T) (hne : noEmptyInsert ops)
    (h : Spec.vecRun limit [] ops = some xs) (hop : Spec.vecStep limit xs op = none) :
    (Array1.init T limit).run c (ops ++ [op]) = .error .abort := by
  obtain ⟨a, e, g⟩ := run_good c limit ops _ [] xs (Good.init T limit) (fun _ => hne) h
  have happ : ∀ (ops : List (VecOp T)) (a : Array1 T), a.run c (ops ++ [op])
      = (a.run c ops >>= fun a => a.step c op) := by
    intro ops
    induction ops with
    | nil => intro a; simp only [List.nil_append, Array1.run, bind_ok]; cases a.step c op <;> rfl
    | cons o os ih =>
      intro a
      simp only [List.cons_append, Array1.run]
      cases a.step c o with
      | error e => rfl
      | ok a1 => exact ih a1
  rw [happ, e, bind_ok]
  exact step_abort c hb hd g op hop

example : Spec.vecRun (T := Nat) none [] [.emplaceBack 1] = some [1] ∧
    Spec.vecStep (T := Nat) none [1] (.erase 1) = none ∧
    Spec.vecStep (T := Nat) none [1] (.emplace (-1) 3) = none := by decide

/-- **C07, disagreement.** In a debug build inserting an empty range into an array that never allocated aborts,
where `std::vector::insert` is a no-op (`LVARRAY_ASSERT( ptr != nullptr )`, arrayManipulation.hpp 508). -/
theorem C07_debug_empty_insert_aborts (c : Cfg) (hd : c.debug = true) :
    Spec.vecRun (T := T) none [] [.insert 0 []] = some [] ∧
    (Array1.init T none).run c [.insert 0 []] = .error .abort := by
  refine ⟨by simp [Spec.vecRun, Spec.vecStep, Spec.fits], ?_⟩
  rcases step_nullInsert c (Good.init T none) (.insert 0 []) ⟨hd, rfl⟩ with h | ⟨u, h, hb⟩
  · simp only [Array1.run, h, bind_err]
  · simp [Array1.step, Array1.insert, posArg, bufferManipulation.insert, bufferManipulation.checkInsert,
      bufferManipulation.check, bufferManipulation.dynamicReserve, Array1.init, Buf.empty,
      arrayManipulation.insert, arrayManipulation.assertNonNull, hd] at h

/-- **C08 (safety).** With all checks on, no history whatsoever, valid or not, reaches undefined behaviour: it
either completes or stops in LvArray's error handler. -/
theorem C08_checked_histories_are_safe (c : Cfg) (hb : c.boundsCheck = true) (hd : c.debug = true)
    (limit : Option Nat) (ops : List (VecOp T)) (u : UB) :
    (Array1.init T limit).run c ops ≠ .error (.ub u) := by
  suffices H : ∀ (ops : List (VecOp T)) (a : Array1 T) (xs : List T), Good limit a xs →
      a.run c ops ≠ .error (.ub u) from H ops _ [] (Good.init T limit)
  intro ops
  induction ops with
  | nil => intro a xs _; simp [Array1.run]
  | cons op ops ih =>
    intro a xs g
    simp only [Array1.run]
    cases hs : Spec.vecStep limit xs op with
    | none => rw [step_abort c hb hd g op hs]; simp
    | some ys =>
      by_cases hn : nullInsert c a op
      · rcases step_nullInsert c g op hn with h | ⟨_, _, hb'⟩
        · rw [h]; simp
        · rw [hb] at hb'; cases hb'
      · obtain ⟨a1, e1, g1⟩ := step_ok c g op hs hn
        rw [e1, bind_ok]; exact ih a1 ys g1

/-- **C08 (lifetimes).** After any valid history exactly the first `size` slots of the allocation hold an object,
no object carrying a value was overwritten or released without being destroyed, and destroying the array
releases its storage without losing one either.
Missing for the full property: moved-from objects may be overwritten without being destroyed, see
`C08_shiftUp_drops_objects`. -/
theorem C08_lifetimes_partial (c : Cfg) (limit : Option Nat) (ops : List (VecOp T)) (xs : List T)
    (hdbg : c.debug = true → noEmptyInsert ops)
    (h : Spec.vecRun limit [] ops = some xs) :
    ∃ a, (Array1.init T limit).run c ops = .ok a ∧
      a.size ≤ a.buf.cap ∧
      (∀ k, k < a.size → ∃ v, a.buf.cell k = .live v) ∧
      (∀ k, a.size ≤ k → a.buf.cell k = .raw) ∧
      a.buf.lostLive = 0 ∧
      (limit = none → ∃ b, a.dtor c = .ok b ∧ b.cap = 0 ∧ b.lostLive = 0 ∧
        b.lostMoved = a.buf.lostMoved) := by
  obtain ⟨a, e, g⟩ := run_good c limit ops _ [] xs (Good.init T limit) hdbg h
  refine ⟨a, e, by rw [g.size]; exact g.rep.2, ?_, ?_, g.lost, ?_⟩
  · intro k hk; rw [g.rep.1]; exact ⟨_, cellsOf_lt (g.size ▸ hk)⟩
  · intro k hk; rw [g.rep.1]; exact cellsOf_ge (g.size ▸ hk)
  · intro hl
    have := bufferManipulation.free_rep c g.rep (g.heap hl)
    refine ⟨{ a.buf with cap := 0, cell := fun _ => .raw }, ?_, rfl, g.lost, rfl⟩
    rw [Array1.dtor, g.size, this]

/-- Operations that never shift elements up. -/
def noShift : VecOp T → Prop
  | .emplace _ _ => False
  | .insert _ _ => False
  | _ => True

/-- **C08 (exact lifetimes).** For trivial element types, and for histories without insertion in the middle, no
object at all is lost: every object ever created was destroyed exactly once or is still an element. -/
theorem C08_lifetimes_exact (c : Cfg) (limit : Option Nat) (ops : List (VecOp T)) (xs : List T)
    (hdbg : c.debug = true → noEmptyInsert ops)
    (hns : c.trivial = true ∨ ∀ op ∈ ops, noShift op)
    (h : Spec.vecRun limit [] ops = some xs) :
    ∃ a, (Array1.init T limit).run c ops = .ok a ∧ a.buf.lostLive = 0 ∧ a.buf.lostMoved = 0 := by
  suffices H : ∀ (ops : List (VecOp T)) (a : Array1 T) (xs ys : List T), Good limit a xs →
      a.buf.lostMoved = 0 → (c.debug = true → noEmptyInsert ops) →
      (c.trivial = true ∨ ∀ op ∈ ops, noShift op) → Spec.vecRun limit xs ops = some ys →
      ∃ a', a.run c ops = .ok a' ∧ a'.buf.lostLive = 0 ∧ a'.buf.lostMoved = 0 from
    H ops _ [] xs (Good.init T limit) (by cases limit <;> rfl) hdbg hns h
  intro ops
  induction ops with
  | nil => intro a xs ys g hm _ _ _; exact ⟨a, rfl, g.lost, hm⟩
  | cons op ops ih =>
    intro a xs ys g hm hd hn h
    simp only [Spec.vecRun, Option.bind_eq_bind, Option.bind_eq_some_iff] at h
    obtain ⟨zs, h1, h2⟩ := h
    have hnn : ¬ nullInsert c a op := by
      intro hn
      cases op with
      | insert pos vs =>
        cases vs with
        | nil => exact hd hn.1 pos (by simp)
        | cons v vs => exact hn
      | _ => exact hn
    obtain ⟨a1, e1, g1⟩ := step_ok c g op h1 hnn
    have hm1 : a1.buf.lostMoved = 0 := by
      -- redo the step to read off the counter
      have hgz := g.size
      have hop : c.trivial = true ∨ noShift op := hn.imp id fun H => H op (by simp)
      have key : ∀ (size idx n : Nat), c.trivial = true →
          arrayManipulation.shiftUpLost c size idx n = 0 := by
        intro size idx n ht; simp [arrayManipulation.shiftUpLost, ht]
      cases op with
      | emplaceBack v =>
        simp only [Spec.vecStep, Option.ite_none_right_eq_some] at h1
        have hr := (g.room _).2 h1.1
        simp only [Array1.step, Array1.emplaceBack, hgz, bufferManipulation.emplaceBack_rep c g.rep v hr,
          bind_ok, Except.ok.injEq] at e1
        rw [← e1]; exact hm
      | emplace pos v =>
        simp only [Spec.vecStep, Option.ite_none_right_eq_some] at h1
        obtain ⟨⟨h0, h3, hf⟩, _⟩ := h1
        have hr := (g.room _).2 hf
        simp only [Array1.step, Array1.emplace, posArg_ok c h0, hgz, bind_ok,
          bufferManipulation.emplace_rep c g.rep pos.toNat v (by omega) hr, Except.ok.injEq] at e1
        rw [← e1]
        show a.buf.lostMoved + _ = 0
        rw [hm, key _ _ _ (hop.resolve_right (by simp [noShift]))]
      | insert pos vs =>
        simp only [Spec.vecStep, Option.ite_none_right_eq_some] at h1
        obtain ⟨⟨h0, h3, hf⟩, _⟩ := h1
        have hr := (g.room _).2 hf
        have hdd : c.debug = true → vs = [] → 0 < a.buf.cap := by
          intro q1 q2; subst q2
          exact (hd q1 pos (by simp)).elim
        simp only [Array1.step, Array1.insert, posArg_ok c h0, hgz, bind_ok,
          bufferManipulation.insert_rep c g.rep pos.toNat vs (by omega) hr hdd, Except.ok.injEq] at e1
        rw [← e1]
        show a.buf.lostMoved + _ = 0
        rw [hm, key _ _ _ (hop.resolve_right (by simp [noShift]))]
      | popBack =>
        simp only [Spec.vecStep, Option.ite_none_left_eq_some] at h1
        simp only [Array1.step, Array1.popBack, hgz, bufferManipulation.popBack_rep c g.rep h1.1, bind_ok,
          Except.ok.injEq] at e1
        rw [← e1]; exact hm
      | erase pos =>
        simp only [Spec.vecStep, Option.ite_none_right_eq_some] at h1
        obtain ⟨⟨h0, h3⟩, _⟩ := h1
        simp only [Array1.step, Array1.erase, posArg_ok c h0, hgz, bind_ok,
          bufferManipulation.erase_rep c g.rep pos.toNat (by omega), Except.ok.injEq] at e1
        rw [← e1]; exact hm
      | resize n =>
        simp only [Spec.vecStep, Option.ite_none_right_eq_some] at h1
        obtain ⟨⟨h0, hf⟩, _⟩ := h1
        have hr := (g.room _).2 hf
        simp only [Array1.step, Array1.resizeDefault, show decide (n < 0) = false by simpa using h0,
          errorIf_false, bind_ok, hgz, bufferManipulation.resize_rep c g.rep _ default hr,
          Except.ok.injEq] at e1
        rw [← e1]; exact hm
      | resizeDefault n v =>
        simp only [Spec.vecStep, Option.ite_none_right_eq_some] at h1
        obtain ⟨⟨h0, hf⟩, _⟩ := h1
        have hr := (g.room _).2 hf
        simp only [Array1.step, Array1.resizeDefault, show decide (n < 0) = false by simpa using h0,
          errorIf_false, bind_ok, hgz, bufferManipulation.resize_rep c g.rep _ v hr,
          Except.ok.injEq] at e1
        rw [← e1]; exact hm
      | reserve n =>
        simp only [Spec.vecStep, Option.ite_none_right_eq_some] at h1
        have hr := (g.room _).2 h1.1
        simp only [Array1.step, Array1.reserve, hgz, bufferManipulation.reserve_rep c g.rep _ hr, bind_ok,
          Except.ok.injEq] at e1
        rw [← e1]; exact hm
      | clear =>
        have hr : a.buf.room 0 := .inr (Nat.zero_le _)
        simp only [Array1.step, Array1.clear, hgz, bufferManipulation.resize_rep c g.rep 0 default hr,
          bind_ok, Except.ok.injEq] at e1
        rw [← e1]; exact hm
      | set i v =>
        simp only [Spec.vecStep, Option.ite_none_right_eq_some] at h1
        obtain ⟨⟨h0, h3⟩, _⟩ := h1
        have hck : a.checkIndex c i = .ok i.toNat := by
          unfold Array1.checkIndex; rw [if_neg (by have := g.size; omega)]
        simp only [Array1.step, Array1.set, hck, bind_ok,
          bufferManipulation.write_rep c g.rep i.toNat v (by omega), Except.ok.injEq] at e1
        rw [← e1]; exact hm
    obtain ⟨a2, e2, r2⟩ := ih a1 zs ys g1 hm1 (fun h pos hm => hd h pos (by simp [hm]))
      (hn.imp id fun H op ho => H op (by simp [ho])) h2
    exact ⟨a2, by simp [Array1.run, e1, e2], r2⟩

/-- The counter of moved-from objects lost so far after a history (`none` if the history fails). -/
def lostMovedAfter (c : Cfg) (ops : List (VecOp Nat)) : Option Nat :=
  match (Array1.init Nat none).run c ops with
  | .ok a => some a.buf.lostMoved
  | .error _ => none

/-- **C08, disagreement.** `emplace` at the front of a three element array constructs on top of two moved-from
objects whose destructor never runs (`arrayManipulation::shiftUp`, 336-345: only the first `n` of the shifted
objects are destroyed). For element types whose moved-from state owns a resource this is a leak. -/
theorem C08_shiftUp_drops_objects :
    lostMovedAfter { trivial := false, boundsCheck := true, debug := true }
      [.emplaceBack 1, .emplaceBack 2, .emplaceBack 3, .emplace 0 9] = some 2 := by decide +kernel

/-- **C35.** A stack array of length `n`: every history either leaves at most `n` elements, all inside the fixed
storage, or stops in the error handler; with checks on it never reaches undefined behaviour
(`C08_checked_histories_are_safe` with `limit = some n`), and the request that does not fit aborts. -/
theorem C35_stack_array_never_overflows (c : Cfg) (n : Nat) (ops : List (VecOp T)) (xs : List T)
    (hdbg : c.debug = true → noEmptyInsert ops)
    (h : Spec.vecRun (some n) [] ops = some xs) :
    xs.length ≤ n ∧ ∃ a, (Array1.init T (some n)).run c ops = .ok a ∧ a.buf.cap = n ∧ a.size = xs.length ∧
      (∀ v, xs.length = n → a.emplaceBack c v = .error .abort) ∧
      (∀ m : Int, n < m → a.reserve c m = .error .abort) ∧
      (∀ (m : Int) v, n < m → a.resizeDefault c m v = .error .abort) := by
  obtain ⟨a, e, g⟩ := run_good c (some n) ops _ [] xs (Good.init T _) hdbg h
  have hst := g.stack n rfl
  have hcap := g.rep.2
  have hsz := g.size
  have hle : a.size ≤ a.buf.cap := by omega
  refine ⟨by omega, a, e, hst.2, g.size, ?_, ?_, ?_⟩
  · intro v hx
    have hr : ¬ a.buf.room (a.size + 1) := by simp only [Buf.room, hst.1, hst.2]; simp; omega
    simp [Array1.emplaceBack, bufferManipulation.emplaceBack, bufferManipulation.check_ok c _ _ hle,
      bufferManipulation.dynamicReserve_abort c hle _ hr]
  · intro m hm
    have hr : ¬ a.buf.room m.toNat := by simp only [Buf.room, hst.1, hst.2]; simp; omega
    simp [Array1.reserve, bufferManipulation.reserve_abort c hle _ hr]
  · intro m v hm
    refine resizeDefault_abort c g m v fun hc => ?_
    have := hc.2 n rfl
    omega

example : Spec.vecRun (T := Nat) (some 3) [] [.emplaceBack 1, .emplaceBack 2, .resize 3] = some [1, 2, 0] := by
  decide

/-- **C09 (reserve).** `reserve` changes neither size nor contents and never shrinks the capacity; afterwards
the capacity is at least what was asked for. -/
theorem C09_reserve (c : Cfg) (ops : List (VecOp T)) (xs : List T)
    (hdbg : c.debug = true → noEmptyInsert ops) (h : Spec.vecRun none [] ops = some xs) (n : Int) :
    ∃ a a', (Array1.init T none).run c ops = .ok a ∧ a.reserve c n = .ok a' ∧ a'.size = a.size ∧
      (∀ i : Nat, i < a.size → a'.get c i = a.get c i) ∧
      a.buf.cap ≤ a'.buf.cap ∧ n ≤ a'.buf.cap ∧ a.size ≤ a.buf.cap := by
  obtain ⟨a, e, g⟩ := run_good c none ops _ [] xs (Good.init T none) hdbg h
  have hr : a.buf.room n.toNat := .inl (g.heap rfl)
  obtain ⟨a', e', g'⟩ := step_ok c g (.reserve n) (ys := xs) (by simp [Spec.vecStep, Spec.fits])
    (by exact id)
  have e'' := e'
  simp only [Array1.step, Array1.reserve, g.size, bufferManipulation.reserve_rep c g.rep _ hr, bind_ok,
    Except.ok.injEq] at e''
  have hcap : a'.buf.cap = max a.buf.cap n.toNat := by rw [← e'']
  refine ⟨a, a', e, e', by rw [g.size, g'.size], ?_, by omega, by omega, by rw [g.size]; exact g.rep.2⟩
  intro i hi
  rw [get_ok c g i (g.size ▸ hi), get_ok c g' i (g.size ▸ hi)]

/-- Histories of `emplace_back` and `pop_back` only. -/
def isPushPop : VecOp T → Prop
  | .emplaceBack _ => True
  | .popBack => True
  | _ => False

/-- How many elements a history appends. -/
def pushes : List (VecOp T) → Nat
  | [] => 0
  | .emplaceBack _ :: ops => pushes ops + 1
  | _ :: ops => pushes ops

/-- **C09 (amortised growth).** From any reachable state `a`, a further history of `emplace_back`/`pop_back`
calls relocates at most `size + 2 * (number of emplace_back calls)` elements. -/
theorem C09_amortised_from (c : Cfg) (ops : List (VecOp T)) :
    ∀ (a : Array1 T) (xs ys : List T), Good none a xs → (∀ op ∈ ops, isPushPop op) →
      Spec.vecRun none xs ops = some ys →
      ∃ a', a.run c ops = .ok a' ∧ Good none a' ys ∧
        a'.buf.moves + (2 * a'.size - a'.buf.cap) ≤
          a.buf.moves + (2 * a.size - a.buf.cap) + 2 * pushes ops := by
  induction ops with
  | nil =>
    intro a xs ys g _ h
    simp only [Spec.vecRun, Option.some.injEq] at h
    subst h
    exact ⟨a, rfl, g, by simp [pushes]⟩
  | cons op ops ih =>
    intro a xs ys g hp h
    simp only [Spec.vecRun, Option.bind_eq_bind, Option.bind_eq_some_iff] at h
    obtain ⟨zs, h1, h2⟩ := h
    have hop := hp op (by simp)
    have hgz := g.size
    have hgr := g.rep.2
    cases op with
    | emplaceBack v =>
      obtain ⟨a1, e1, g1⟩ := step_ok c g (.emplaceBack v) h1 (by exact id)
      obtain ⟨a2, e2, g2, hb⟩ := ih a1 zs ys g1 (fun op ho => hp op (by simp [ho])) h2
      refine ⟨a2, by simp [Array1.run, e1, e2], g2, ?_⟩
      have hr : a.buf.room (xs.length + 1) := .inl (g.heap rfl)
      have e1' := e1
      simp only [Array1.step, Array1.emplaceBack, hgz, bufferManipulation.emplaceBack_rep c g.rep v hr,
        bind_ok, Except.ok.injEq] at e1'
      have hm : a1.buf.moves = a.buf.moves + a.buf.growMoves xs.length (xs.length + 1) := by rw [← e1']
      have hc : a1.buf.cap = a.buf.grownCap (xs.length + 1) := by rw [← e1']
      have hs : a1.size = xs.length + 1 := by rw [← e1']
      simp only [Buf.growMoves, Buf.grownCap] at hm hc
      simp only [pushes]
      split at hm <;> rename_i hlt
      · rw [if_pos hlt] at hc; omega
      · rw [if_neg hlt] at hc; omega
    | popBack =>
      obtain ⟨a1, e1, g1⟩ := step_ok c g .popBack h1 (by exact id)
      obtain ⟨a2, e2, g2, hb⟩ := ih a1 zs ys g1 (fun op ho => hp op (by simp [ho])) h2
      refine ⟨a2, by simp [Array1.run, e1, e2], g2, ?_⟩
      simp only [Spec.vecStep, Option.ite_none_left_eq_some] at h1
      have e1' := e1
      simp only [Array1.step, Array1.popBack, hgz, bufferManipulation.popBack_rep c g.rep h1.1, bind_ok,
        Except.ok.injEq] at e1'
      have hm : a1.buf.moves = a.buf.moves := by rw [← e1']
      have hc : a1.buf.cap = a.buf.cap := by rw [← e1']
      have hs : a1.size = xs.length - 1 := by rw [← e1']
      simp only [pushes]
      omega
    | _ => exact hop.elim

/-- **C09.** `n` calls of `emplace_back` on an empty array relocate at most `2n` elements in total. -/
theorem C09_amortised (c : Cfg) (vs : List T) :
    ∃ a, (Array1.init T none).run c (vs.map .emplaceBack) = .ok a ∧ a.size = vs.length ∧
      a.buf.moves ≤ 2 * vs.length := by
  have hrun : ∀ (vs xs : List T), Spec.vecRun none xs (vs.map .emplaceBack) = some (xs ++ vs) := by
    intro vs
    induction vs with
    | nil => intro xs; simp [Spec.vecRun]
    | cons v vs ih =>
      intro xs
      simp only [List.map_cons, Spec.vecRun, Spec.vecStep, Spec.fits]
      simp [ih]
  have hp : ∀ vs : List T, pushes (vs.map .emplaceBack) = vs.length := by
    intro vs; induction vs with
    | nil => rfl
    | cons v vs ih => simp [pushes, ih]
  obtain ⟨a, e, g, hb⟩ := C09_amortised_from c (vs.map .emplaceBack) _ [] vs (Good.init T none)
    (by intro op ho; simp only [List.mem_map] at ho; obtain ⟨v, _, rfl⟩ := ho; trivial) (by simpa using hrun vs [])
  refine ⟨a, e, g.size, ?_⟩
  rw [hp] at hb
  have h0 : (Array1.init T none).buf.moves = 0 := rfl
  have h1 : (Array1.init T none).size = 0 := rfl
  omega

end LvArray.Props

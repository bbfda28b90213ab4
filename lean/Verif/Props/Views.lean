import Verif.Views
/-!
# C64: views last until the array reallocates
-/

namespace LvArray.Props

open LvArray

set_option linter.unusedSectionVars false

variable {T : Type} [Inhabited T]

/-- Exact capacity after a call. -/
theorem step_cap (c : Cfg) {a a' : Array1 T} {xs ys : List T} (g : Good none a xs)
    (op : VecOp T) (h : Spec.vecStep none xs op = some ys) (hd : ¬ nullInsert c a op) (hs : a.step c op = .ok a') :
    a'.buf.cap = if (Spec.need xs op).1 ≤ a.buf.cap then a.buf.cap else (Spec.need xs op).2 := by
  have hr : ∀ n, a.buf.room n := fun n => .inl (g.heap rfl)
  have hmax : ∀ n, max a.buf.cap n = if n ≤ a.buf.cap then a.buf.cap else n := by intro n; split <;> omega
  have hgrown : ∀ n, a.buf.grownCap n = if n ≤ a.buf.cap then a.buf.cap else 2 * n := by
    intro n; unfold Buf.grownCap; split <;> split <;> omega
  cases op with
  | emplaceBack v =>
    simp only [Array1.step, Array1.emplaceBack, g.size, bufferManipulation.emplaceBack_rep c g.rep v (hr _), bind_ok,
      Except.ok.injEq] at hs
    subst hs; exact hgrown _
  | emplace pos v =>
    simp only [Spec.vecStep, Option.ite_none_right_eq_some, Option.some.injEq] at h
    obtain ⟨⟨h0, h1, hf⟩, rfl⟩ := h
    simp only [Array1.step, Array1.emplace, posArg_ok c h0, g.size, bind_ok,
      bufferManipulation.emplace_rep c g.rep pos.toNat v (by omega) (hr _), Except.ok.injEq] at hs
    subst hs; exact hgrown _
  | insert pos vs =>
    simp only [Spec.vecStep, Option.ite_none_right_eq_some, Option.some.injEq] at h
    obtain ⟨⟨h0, h1, hf⟩, rfl⟩ := h
    have hdd : c.debug = true → vs = [] → 0 < a.buf.cap := by
      intro h1 h2; subst h2
      have : ¬ (c.debug = true ∧ a.buf.cap = 0) := hd
      exact Nat.pos_of_ne_zero fun hz => this ⟨h1, hz⟩
    simp only [Array1.step, Array1.insert, posArg_ok c h0, g.size, bind_ok,
      bufferManipulation.insert_rep c g.rep pos.toNat vs (by omega) (hr _) hdd, Except.ok.injEq] at hs
    subst hs; exact hgrown _
  | popBack =>
    simp only [Spec.vecStep, Option.ite_none_left_eq_some, Option.some.injEq] at h
    simp only [Array1.step, Array1.popBack, g.size, bufferManipulation.popBack_rep c g.rep h.1, bind_ok, Except.ok.injEq] at hs
    subst hs; simp [Spec.need]
  | erase pos =>
    simp only [Spec.vecStep, Option.ite_none_right_eq_some, Option.some.injEq] at h
    obtain ⟨⟨h0, h1⟩, rfl⟩ := h
    simp only [Array1.step, Array1.erase, posArg_ok c h0, g.size, bind_ok,
      bufferManipulation.erase_rep c g.rep pos.toNat (by omega), Except.ok.injEq] at hs
    subst hs; simp [Spec.need]
  | resize n =>
    simp only [Spec.vecStep, Option.ite_none_right_eq_some, Option.some.injEq] at h
    simp only [Array1.step, Array1.resizeDefault, show decide (n < 0) = false by simpa using h.1.1, errorIf_false, bind_ok, g.size,
      bufferManipulation.resize_rep c g.rep _ _ (hr _), Except.ok.injEq] at hs
    subst hs; exact hmax _
  | resizeDefault n v =>
    simp only [Spec.vecStep, Option.ite_none_right_eq_some, Option.some.injEq] at h
    simp only [Array1.step, Array1.resizeDefault, show decide (n < 0) = false by simpa using h.1.1, errorIf_false, bind_ok, g.size,
      bufferManipulation.resize_rep c g.rep _ _ (hr _), Except.ok.injEq] at hs
    subst hs; exact hmax _
  | reserve n =>
    simp only [Array1.step, Array1.reserve, g.size, bufferManipulation.reserve_rep c g.rep _ (hr _), bind_ok, Except.ok.injEq] at hs
    subst hs; exact hmax _
  | clear =>
    simp only [Array1.step, Array1.clear, g.size, bufferManipulation.resize_rep c g.rep 0 default (hr _), bind_ok,
      Except.ok.injEq] at hs
    subst hs; simp [Spec.need]
  | set i v =>
    simp only [Spec.vecStep, Option.ite_none_right_eq_some, Option.some.injEq] at h
    obtain ⟨⟨h0, h1⟩, rfl⟩ := h
    have hck : a.checkIndex c i = .ok i.toNat := by
      unfold Array1.checkIndex; rw [if_neg (by have := g.size; omega)]
    simp only [Array1.step, Array1.set, hck, bind_ok,
      bufferManipulation.write_rep c g.rep i.toNat v (by omega), Except.ok.injEq] at hs
    subst hs; simp [Spec.need]

/-- If a call has to grow the array, what it gets is at least what it needs. -/
theorem need_le (xs : List T) (op : VecOp T) : (Spec.need xs op).1 ≤ (Spec.need xs op).2 := by
  cases op <;> simp [Spec.need] <;> omega

/-- The heap realises the shelf. -/
structure VInv (m : VWorld T) (s : Spec.Shelf T) : Prop where
  next : m.w.fresh = s.next
  undecl : ∀ x, s.vars x = none → m.w.vars x = none
  decl : ∀ x o, s.vars x = some o → ∃ ys cap, s.holds o = some (ys, cap) ∧ m.w.vars x = some ⟨o, ys.length⟩
  dead : ∀ p, s.store p = none → m.w.mem p = none
  alive : ∀ p ys cap, s.store p = some (ys, cap) → ∃ b, m.w.mem p = some b ∧ b.cap = cap ∧ Good none ⟨b, ys.length⟩ ys
  views : ∀ v, m.views v = (s.views v).map fun r => ⟨r.1, r.2⟩
  null : ∀ v n, s.views v = some (none, n) → n = 0
  sep : ∀ x y p, s.vars x = some (some p) → s.vars y = some (some p) → x = y
  bound : ∀ x p, s.vars x = some (some p) → p < s.next

theorem VInv.empty : VInv (VWorld.empty T) (Spec.Shelf.empty T) := by
  constructor <;> simp [VWorld.empty, World.empty, Spec.Shelf.empty]

/-- Following the pointer of a handle. -/
theorem VInv.load {m : VWorld T} {s : Spec.Shelf T} (I : VInv m s) {o : Option Nat} {ys : List T} {cap : Nat} (n : Nat)
    (h : s.holds o = some (ys, cap)) :
    ∃ b, m.w.load ⟨o, n⟩ = .ok ⟨b, n⟩ ∧ b.cap = cap ∧ Good none ⟨b, ys.length⟩ ys := by
  cases o with
  | none =>
    simp only [Spec.Shelf.holds, Option.some.injEq, Prod.mk.injEq] at h
    obtain ⟨rfl, rfl⟩ := h
    exact ⟨Buf.empty, rfl, rfl, Good.init T none⟩
  | some p =>
    obtain ⟨b, e, hc, g⟩ := I.alive p ys cap h
    exact ⟨b, by simp [World.load, e], hc, g⟩

/-- Replacing the contents of a variable, with or without reallocation. -/
theorem VInv.store {m : VWorld T} {s : Spec.Shelf T} (I : VInv m s) {x : Nat} {o : Option Nat} {xs ys : List T} {cap : Nat}
    (hx : s.vars x = some o) (ho : s.holds o = some (xs, cap)) {a' : Array1 T} (g : Good none a' ys) {needed grown : Nat}
    (hng : needed ≤ grown) (hcap : a'.buf.cap = if needed ≤ cap then cap else grown) :
    VInv { m with w := m.w.store x ⟨o, xs.length⟩ cap a' } (s.become x o cap ys needed grown) := by
  unfold World.store Spec.Shelf.become
  have ga : Good none ⟨a'.buf, ys.length⟩ ys := ⟨rfl, g.rep, g.lost, g.heap, g.stack⟩
  have hys : ys.length ≤ a'.buf.cap := g.rep.2
  by_cases hn : needed ≤ cap
  · rw [if_pos hn] at hcap
    rw [if_pos hcap, if_pos hn, g.size]
    cases o with
    | none =>
      simp only [Spec.Shelf.holds, Option.some.injEq, Prod.mk.injEq] at ho
      obtain ⟨rfl, rfl⟩ := ho
      have : ys = [] := List.length_eq_zero_iff.1 (by omega)
      subst this
      have hv : upd m.w.vars x (some ⟨none, ([] : List T).length⟩) = m.w.vars := by
        obtain ⟨_, _, e1, e2⟩ := I.decl x none hx
        simp only [Spec.Shelf.holds, Option.some.injEq, Prod.mk.injEq] at e1
        rw [← e1.1] at e2
        funext z; by_cases hz : z = x
        · subst hz; rw [upd_same, e2]
        · rw [upd_ne _ _ hz]
      simp only [setMem]
      show VInv { m with w := { m.w with vars := upd m.w.vars x (some ⟨none, ([] : List T).length⟩) } } s
      rw [show upd m.w.vars x (some ⟨none, ([] : List T).length⟩) = m.w.vars from hv]
      exact I
    | some p =>
      simp only [setMem]
      refine ⟨I.next, ?_, ?_, ?_, ?_, I.views, I.null, I.sep, I.bound⟩
      · intro z hz
        have : z ≠ x := by intro e; subst e; simp [hx] at hz
        simpa [upd, this] using I.undecl z hz
      · intro z q hz
        by_cases hzx : z = x
        · subst hzx; rw [hx] at hz; cases hz
          exact ⟨ys, cap, by simp [Spec.Shelf.holds, upd], by simp [upd]⟩
        · obtain ⟨zs, k, e1, e2⟩ := I.decl z q hz
          refine ⟨zs, k, ?_, by simpa [upd, hzx] using e2⟩
          cases q with
          | none => exact e1
          | some q =>
            have : q ≠ p := by intro e; subst e; exact hzx (I.sep z x q hz hx)
            simpa [Spec.Shelf.holds, upd, this] using e1
      · intro q hq
        by_cases hqp : q = p
        · subst hqp; simp [upd] at hq
        · simp only [upd, hqp, if_false] at hq ⊢; exact I.dead q hq
      · intro q zs k hq
        by_cases hqp : q = p
        · subst hqp
          simp only [upd, if_true, Option.some.injEq, Prod.mk.injEq] at hq ⊢
          obtain ⟨rfl, rfl⟩ := hq
          exact ⟨_, rfl, hcap, ga⟩
        · simp only [upd, hqp, if_false] at hq ⊢; exact I.alive q zs k hq
  · rw [if_neg hn] at hcap
    rw [if_neg (by omega), if_neg hn, g.size]
    -- storage of `x` released
    have hfree : ∀ q, freeMem m.w.mem o q = if o = some q then none else m.w.mem q := by
      intro q; cases o with
      | none => simp [freeMem]
      | some p => simp only [freeMem, upd, Option.some.injEq]; by_cases h : q = p <;> simp [h, eq_comm]
    have hdrop : ∀ q, s.without o q =
        if o = some q then none else s.store q := by
      intro q; cases o with
      | none => simp [Spec.Shelf.without]
      | some p => simp only [Spec.Shelf.without, upd, Option.some.injEq]; by_cases h : q = p <;> simp [h, eq_comm]
    refine ⟨by show m.w.fresh + 1 = s.next + 1; rw [I.next], ?_, ?_, ?_, ?_, I.views, I.null, ?_, ?_⟩
    · intro z hz
      by_cases hzx : z = x
      · subst hzx; simp [upd] at hz
      · simp only [upd, hzx, if_false] at hz ⊢; exact I.undecl z hz
    · intro z q hz
      by_cases hzx : z = x
      · subst hzx
        simp only [upd, if_true, Option.some.injEq] at hz ⊢
        subst hz
        exact ⟨ys, grown, by simp only [Spec.Shelf.holds, upd_same], by rw [I.next]⟩
      · simp only [upd, hzx, if_false] at hz ⊢
        obtain ⟨zs, k, e1, e2⟩ := I.decl z q hz
        refine ⟨zs, k, ?_, e2⟩
        cases q with
        | none => exact e1
        | some q =>
          have h1 : o ≠ some q := by intro e; subst e; exact hzx (I.sep z x q hz hx)
          have h2 : q ≠ s.next := by have := I.bound z q hz; omega
          show (if q = s.next then _ else _) = _
          rw [if_neg h2, hdrop, if_neg h1]; exact e1
    · intro q hq
      have hq : (if q = s.next then some (ys, grown) else s.without o q) = none := hq
      show (if q = m.w.fresh then _ else _) = _
      by_cases h2 : q = s.next
      · rw [if_pos h2] at hq; cases hq
      · rw [if_neg h2, hdrop] at hq
        rw [I.next, if_neg h2, hfree]
        split
        · rfl
        · rename_i h3; rw [if_neg h3] at hq; exact I.dead q hq
    · intro q zs k hq
      have hq : (if q = s.next then some (ys, grown) else s.without o q) = some (zs, k) := hq
      show ∃ b, (if q = m.w.fresh then _ else _) = _ ∧ _
      by_cases h2 : q = s.next
      · rw [if_pos h2] at hq; cases hq
        rw [I.next, if_pos h2]
        exact ⟨_, rfl, hcap, ga⟩
      · rw [if_neg h2, hdrop] at hq
        rw [I.next, if_neg h2, hfree]
        split at hq
        · cases hq
        · rename_i h3; rw [if_neg h3]; exact I.alive q zs k hq
    · intro y z p hy hz
      simp only [upd] at hy hz
      by_cases hyx : y = x <;> by_cases hzx : z = x
      · rw [hyx, hzx]
      · simp only [hyx, hzx, if_true, if_false, Option.some.injEq] at hy hz
        have := I.bound z p hz; omega
      · simp only [hyx, hzx, if_true, if_false, Option.some.injEq] at hy hz
        have := I.bound y p hy; omega
      · simp only [hyx, hzx, if_false] at hy hz; exact I.sep y z p hy hz
    · intro y p hy
      simp only [upd] at hy
      show p < s.next + 1
      by_cases hyx : y = x
      · simp only [hyx, if_true, Option.some.injEq] at hy; omega
      · simp only [hyx, if_false] at hy; have := I.bound y p hy; omega

/-- `y`'s storage goes to `x ≠ y`. -/
theorem VInv.transfer {m : VWorld T} {s : Spec.Shelf T} (I : VInv m s) {x y : Nat} {q : Option Nat} {ys : List T} {cap : Nat}
    (hxy : x ≠ y) (hy : s.vars y = some q) (hq : s.holds q = some (ys, cap)) :
    VInv { m with w := m.w.transfer x y ⟨q, ys.length⟩ } { s with vars := upd (upd s.vars x (some q)) y (some none) } := by
  unfold World.transfer
  refine ⟨I.next, ?_, ?_, I.dead, I.alive, I.views, I.null, ?_, ?_⟩
  · intro z hz
    simp only [upd] at hz ⊢
    by_cases h1 : z = y
    · simp [h1] at hz
    · by_cases h2 : z = x
      · subst h2; simp [hxy] at hz
      · simp only [h1, h2, if_false] at hz ⊢; exact I.undecl z hz
  · intro z r hz
    simp only [upd] at hz ⊢
    by_cases h1 : z = y
    · simp only [h1, if_true, Option.some.injEq] at hz ⊢
      subst hz; exact ⟨[], 0, rfl, rfl⟩
    · by_cases h2 : z = x
      · subst h2
        simp only [h1, if_true, if_false, Option.some.injEq] at hz ⊢
        subst hz; exact ⟨ys, cap, hq, rfl⟩
      · simp only [h1, h2, if_false] at hz ⊢; exact I.decl z r hz
  · intro z1 z2 p e1 e2
    simp only [upd] at e1 e2
    have key : ∀ z, (if z = y then some none else if z = x then some q else s.vars z) = some (some p) →
        (z = x ∧ q = some p) ∨ (z ≠ x ∧ z ≠ y ∧ s.vars z = some (some p)) := by
      intro z e
      by_cases h1 : z = y
      · rw [if_pos h1] at e; cases e
      · by_cases h2 : z = x
        · rw [if_neg h1, if_pos h2] at e; cases e; exact .inl ⟨h2, rfl⟩
        · rw [if_neg h1, if_neg h2] at e; exact .inr ⟨h2, h1, e⟩
    rcases key z1 e1 with ⟨a1, b1⟩ | ⟨a1, b1, d1⟩ <;> rcases key z2 e2 with ⟨a2, b2⟩ | ⟨a2, b2, d2⟩
    · omega
    · exact (b2 (I.sep z2 y p d2 (by rw [hy, b1]))).elim
    · exact (b1 (I.sep z1 y p d1 (by rw [hy, b2]))).elim
    · exact I.sep z1 z2 p d1 d2
  · intro z p e
    simp only [upd] at e
    by_cases h1 : z = y
    · rw [if_pos h1] at e; cases e
    · by_cases h2 : z = x
      · rw [if_neg h1, if_pos h2] at e; cases e; exact I.bound y p hy
      · rw [if_neg h1, if_neg h2] at e; exact I.bound z p e

/-- In debug builds the program inserts no empty range. -/
def properInsert (c : Cfg) : VOp T → Prop
  | .stmt (.call _ (.insert _ vs)) => c.debug = true → vs ≠ []
  | _ => True

theorem vinv_stmt (c : Cfg) {m : VWorld T} {s s' : Spec.Shelf T} (I : VInv m s) (op : WOp T)
    (hp : properInsert c (.stmt op)) (h : Spec.shelfStmt s op = some s') :
    ∃ w', m.w.step c op = .ok w' ∧ VInv { m with w := w' } s' := by
  cases op with
  | new x =>
    simp only [Spec.shelfStmt, Option.ite_none_left_eq_some, Option.some.injEq] at h
    obtain ⟨hx, rfl⟩ := h
    have hx' : s.vars x = none := by simpa using hx
    refine ⟨m.w.declare x, by simp [World.step, I.undecl x hx'], ?_⟩
    unfold World.declare
    refine ⟨I.next, ?_, ?_, I.dead, I.alive, I.views, I.null, ?_, ?_⟩
    · intro z hz
      simp only [upd] at hz ⊢
      by_cases h1 : z = x
      · simp [h1] at hz
      · simp only [h1, if_false] at hz ⊢; exact I.undecl z hz
    · intro z r hz
      simp only [upd] at hz ⊢
      by_cases h1 : z = x
      · simp only [h1, if_true, Option.some.injEq] at hz ⊢
        subst hz; exact ⟨[], 0, rfl, rfl⟩
      · simp only [h1, if_false] at hz ⊢; exact I.decl z r hz
    · intro y z p hy hz
      simp only [upd] at hy hz
      by_cases h1 : y = x
      · simp [h1] at hy
      · by_cases h2 : z = x
        · simp [h2] at hz
        · simp only [h1, h2, if_false] at hy hz; exact I.sep y z p hy hz
    · intro y p hy
      simp only [upd] at hy
      by_cases h1 : y = x
      · simp [h1] at hy
      · simp only [h1, if_false] at hy; exact I.bound y p hy
  | call x op =>
    simp only [Spec.shelfStmt, Option.bind_eq_bind, Option.bind_eq_some_iff] at h
    obtain ⟨o, hx, ⟨xs, cap⟩, ho, ys, hs, h⟩ := h
    cases h
    obtain ⟨xs', cap', e1, e2⟩ := I.decl x o hx
    rw [ho] at e1; cases e1
    obtain ⟨b, l1, hcap, g1⟩ := I.load xs.length ho
    have hni : ¬ nullInsert c ⟨b, xs.length⟩ op := by
      intro hn
      cases op with
      | insert pos vs => cases vs with
        | nil => exact hp hn.1 rfl
        | cons v vs => exact hn
      | _ => exact hn
    obtain ⟨a', e3, g2⟩ := step_ok c g1 op hs hni
    have hc := step_cap c g1 op hs hni e3
    refine ⟨m.w.store x ⟨o, xs.length⟩ b.cap a', by simp [World.step, World.var, e2, l1, e3], ?_⟩
    rw [hcap]
    exact I.store hx ho g2 (need_le xs op) (by rw [hc]; simp only [hcap])
  | copy x y =>
    simp only [Spec.shelfStmt, Option.bind_eq_bind, Option.bind_eq_some_iff] at h
    obtain ⟨o, hx, ⟨xs, cap⟩, ho, q, hy, ⟨ys, cap2⟩, hq, h⟩ := h
    cases h
    obtain ⟨xs', cap', e1, e2⟩ := I.decl x o hx
    rw [ho] at e1; cases e1
    obtain ⟨ys', cap', e1, e3⟩ := I.decl y q hy
    rw [hq] at e1; cases e1
    obtain ⟨b, l1, hcap, g1⟩ := I.load xs.length ho
    obtain ⟨b2, l2, hcap2, g2⟩ := I.load ys.length hq
    have hcopy := bufferManipulation.copyInto_rep c g1.rep g2.rep default (.inl (g1.heap rfl) : b.room ys.length)
    refine ⟨m.w.store x ⟨o, xs.length⟩ b.cap
      ⟨{ b with cap := max b.cap ys.length, moves := b.moves + b.growMoves xs.length ys.length, cell := cellsOf ys }, ys.length⟩, by
      simp only [World.step, World.var, e2, e3, bind_ok, l1, l2, Array1.copyAssign]
      rw [hcopy, bind_ok, bind_ok], ?_⟩
    subst hcap
    have g3 : Good none (Array1.mk { b with cap := max b.cap ys.length, moves := b.moves + b.growMoves xs.length ys.length, cell := cellsOf ys }
        ys.length) ys :=
      g1.mk' rfl rfl rfl rfl (Nat.le_max_right _ _) (maxCap_stack (b := b) (.inl (g1.heap rfl)))
    exact I.store hx ho g3 (Nat.le_refl ys.length) (by dsimp only; split <;> omega)
  | moveNew x y =>
    simp only [Spec.shelfStmt, Option.bind_eq_bind, Option.bind_eq_some_iff,
      Option.ite_none_left_eq_some, Option.some.injEq] at h
    obtain ⟨q, hy, hx, rfl⟩ := h
    have hx' : s.vars x = none := by simpa using hx
    obtain ⟨ys, cap, e1, e3⟩ := I.decl y q hy
    have hxy : x ≠ y := by intro e; subst e; rw [hy] at hx'; cases hx'
    exact ⟨m.w.transfer x y ⟨q, ys.length⟩, by simp [World.step, World.var, e3, I.undecl x hx'], I.transfer hxy hy e1⟩
  | moveTo x y =>
    simp only [Spec.shelfStmt, Option.bind_eq_bind, Option.bind_eq_some_iff,
      Option.ite_none_left_eq_some, Option.some.injEq] at h
    obtain ⟨o, hx, q, hy, hxy, rfl⟩ := h
    obtain ⟨ys, cap, e1, e3⟩ := I.decl y q hy
    obtain ⟨xs, cap', _, e4⟩ := I.decl x o hx
    exact ⟨m.w.transfer x y ⟨q, ys.length⟩, by simp [World.step, World.var, e3, e4], I.transfer hxy hy e1⟩
  | del x =>
    simp only [Spec.shelfStmt, Option.bind_eq_bind, Option.bind_eq_some_iff] at h
    obtain ⟨o, hx, h⟩ := h
    cases h
    obtain ⟨xs, cap, ho, e2⟩ := I.decl x o hx
    obtain ⟨b, l1, hcap, g1⟩ := I.load xs.length ho
    have hf : Array1.dtor c ⟨b, xs.length⟩ = .ok { b with cap := 0, cell := fun _ => .raw } := by
      rw [Array1.dtor, bufferManipulation.free_rep c g1.rep (g1.heap rfl)]
    refine ⟨m.w.remove x ⟨o, xs.length⟩, by simp [World.step, World.var, e2, l1, hf], ?_⟩
    unfold World.remove
    have hfree : ∀ q, freeMem m.w.mem o q = if o = some q then none else m.w.mem q := by
      intro q; cases o with
      | none => simp [freeMem]
      | some p => simp only [freeMem, upd, Option.some.injEq]; by_cases h : q = p <;> simp [h, eq_comm]
    have hdrop : ∀ q, s.without o q =
        if o = some q then none else s.store q := by
      intro q; cases o with
      | none => simp [Spec.Shelf.without]
      | some p => simp only [Spec.Shelf.without, upd, Option.some.injEq]; by_cases h : q = p <;> simp [h, eq_comm]
    refine ⟨I.next, ?_, ?_, ?_, ?_, I.views, I.null, ?_, ?_⟩
    · intro z hz
      simp only [upd] at hz ⊢
      by_cases h1 : z = x
      · simp [h1]
      · simp only [h1, if_false] at hz ⊢; exact I.undecl z hz
    · intro z r hz
      simp only [upd] at hz ⊢
      by_cases h1 : z = x
      · simp [h1] at hz
      · simp only [h1, if_false] at hz ⊢
        obtain ⟨zs, k, d1, d2⟩ := I.decl z r hz
        refine ⟨zs, k, ?_, d2⟩
        cases r with
        | none => exact d1
        | some r =>
          have : o ≠ some r := by intro e; subst e; exact h1 (I.sep z x r hz hx)
          show s.without o r = _
          rw [hdrop, if_neg this]; exact d1
    · intro q hq
      have hq : s.without o q = none := hq
      show freeMem m.w.mem o q = none
      rw [hdrop] at hq; rw [hfree]
      split
      · rfl
      · rename_i h3; rw [if_neg h3] at hq; exact I.dead q hq
    · intro q zs k hq
      have hq : s.without o q = some (zs, k) := hq
      show ∃ b, freeMem m.w.mem o q = some b ∧ _
      rw [hdrop] at hq; rw [hfree]
      split at hq
      · cases hq
      · rename_i h3; rw [if_neg h3]; exact I.alive q zs k hq
    · intro y z p hy hz
      simp only [upd] at hy hz
      by_cases h1 : y = x
      · simp [h1] at hy
      · by_cases h2 : z = x
        · simp [h2] at hz
        · simp only [h1, h2, if_false] at hy hz; exact I.sep y z p hy hz
    · intro y p hy
      simp only [upd] at hy
      by_cases h1 : y = x
      · simp [h1] at hy
      · simp only [h1, if_false] at hy; exact I.bound y p hy

/-- What the code must do for each verdict of the specification. -/
def answers {α β : Type} (c : Cfg) (ok : β → α → Prop) : R β → Spec.Verdict α → Prop
  | r, .fine a => ∃ b, r = .ok b ∧ ok b a
  | r, .outside => c.boundsCheck = true → r = .error .abort
  | r, .dangling => r = .error (.ub .dangling)
  | r, .ended => ∃ u, r = .error (.ub u)
  | _, .silent => True

theorem answers_bind {α β γ δ : Type} {c : Cfg} {ok : β → α → Prop} {ok' : δ → γ → Prop} {r : R β} {d : Spec.Verdict α}
    {f : β → R δ} {k : α → Spec.Verdict γ} (h : answers c ok r d) (hf : ∀ b a, ok b a → answers c ok' (f b) (k a)) :
    answers c ok' (r >>= f) (d.andThen k) := by
  cases d with
  | fine a => obtain ⟨b, rfl, hb⟩ := h; exact hf b a hb
  | outside => intro hb; rw [h hb]; rfl
  | dangling => rw [show r = _ from h]; rfl
  | ended => obtain ⟨u, rfl⟩ := h; exact ⟨u, rfl⟩
  | silent => trivial

theorem getAt_answers (c : Cfg) {m : VWorld T} {s : Spec.Shelf T} (I : VInv m s) (o : Option Nat) (n : Nat) (i : Int) :
    answers c (fun b a => b = a) (m.getAt c ⟨o, n⟩ i) (s.at o n i) := by
  unfold VWorld.getAt Spec.Shelf.at Array1.checkIndex
  dsimp only
  by_cases hi : i < 0 ∨ (n : Int) ≤ i
  · rw [if_pos hi, if_pos hi]
    intro hb; simp [hb]
  · rw [if_neg hi, if_neg hi, bind_ok]
    cases ho : s.holds o with
    | none =>
      cases o with
      | none => simp [Spec.Shelf.holds] at ho
      | some p =>
        show _ = _
        simp [World.load, I.dead p ho]
    | some r =>
      obtain ⟨xs, cap⟩ := r
      obtain ⟨b, l1, hcap, g⟩ := I.load n ho
      dsimp only
      rw [l1, bind_ok]
      by_cases hx : i.toNat < xs.length
      · rw [List.getElem?_eq_getElem hx]
        exact ⟨_, bufferManipulation.read_rep g.rep _ hx, rfl⟩
      · rw [List.getElem?_eq_none (by omega)]
        unfold Buf.read
        dsimp only
        rw [g.rep.1, cellsOf_ge (by omega)]
        by_cases hc : i.toNat < b.cap
        · rw [if_pos hc]; exact ⟨_, rfl⟩
        · rw [if_neg hc]; exact ⟨_, rfl⟩

/-- One statement: the code gives the answer of the specification and again realises it. -/
theorem vstep_answers (c : Cfg) {m : VWorld T} {s : Spec.Shelf T} (I : VInv m s) (op : VOp T) (hp : properInsert c op) :
    answers c (fun b a => VInv b.1 a.1 ∧ b.2 = a.2) (m.step c op) (Spec.shelfStep s op) := by
  have hvw : ∀ v o n, s.views v = some (o, n) → m.view v = .ok ⟨o, n⟩ := by
    intro v o n h; simp [VWorld.view, I.views v, h]
  have hvr : ∀ x o, s.vars x = some o → ∃ xs cap, s.holds o = some (xs, cap) ∧ m.w.var x = .ok ⟨o, xs.length⟩ := by
    intro x o h
    obtain ⟨xs, cap, e1, e2⟩ := I.decl x o h
    exact ⟨xs, cap, e1, by simp [World.var, e2]⟩
  have hview : ∀ v o n, (o = none → n = 0) →
      VInv { m with views := upd m.views v (some ⟨o, n⟩) } { s with views := upd s.views v (some (o, n)) } := by
    intro v o n hn
    refine ⟨I.next, I.undecl, I.decl, I.dead, I.alive, ?_, ?_, I.sep, I.bound⟩
    · intro u
      simp only [upd]
      by_cases h : u = v
      · simp [h]
      · simp only [h, if_false]; exact I.views u
    · intro u k hu
      simp only [upd] at hu
      by_cases h : u = v
      · simp only [h, if_true, Option.some.injEq, Prod.mk.injEq] at hu
        rw [← hu.2]; exact hn hu.1
      · simp only [h, if_false] at hu; exact I.null u k hu
  cases op with
  | stmt op =>
    simp only [Spec.shelfStep]
    cases h : Spec.shelfStmt s op with
    | none => trivial
    | some s' =>
      obtain ⟨w', e, I'⟩ := vinv_stmt c I op hp h
      exact ⟨({ m with w := w' }, .unit), by simp [VWorld.step, e], I', rfl⟩
  | take v x =>
    simp only [Spec.shelfStep]
    cases h : s.vars x with
    | none => trivial
    | some o =>
      obtain ⟨xs, cap, e1, e2⟩ := hvr x o h
      simp only [e1]
      refine ⟨(_, .unit), by simp only [VWorld.step, e2, bind_ok], hview v o xs.length ?_, rfl⟩
      intro ho; subst ho; simp only [Spec.Shelf.holds, Option.some.injEq, Prod.mk.injEq] at e1; simp [← e1.1]
  | dup v u =>
    simp only [Spec.shelfStep]
    cases h : s.views u with
    | none => trivial
    | some r =>
      obtain ⟨o, n⟩ := r
      refine ⟨(_, .unit), by simp only [VWorld.step, hvw u o n h, bind_ok], hview v o n ?_, rfl⟩
      intro ho; subst ho; exact I.null u n h
  | get v i =>
    simp only [Spec.shelfStep]
    cases h : s.views v with
    | none => trivial
    | some r =>
      obtain ⟨o, n⟩ := r
      simp only [VWorld.step, hvw v o n h, bind_ok]
      exact answers_bind (getAt_answers c I o n i) (by intro b a e; subst e; exact ⟨_, rfl, I, rfl⟩)
  | put v i t =>
    simp only [Spec.shelfStep]
    cases h : s.views v with
    | none => trivial
    | some r =>
      obtain ⟨o, n⟩ := r
      simp only [VWorld.step, hvw v o n h, bind_ok]
      unfold VWorld.putAt Spec.Shelf.at Array1.checkIndex
      dsimp only
      by_cases hi : i < 0 ∨ (n : Int) ≤ i
      · rw [if_pos hi, if_pos hi]
        intro hb; simp [hb]
      · rw [if_neg hi, if_neg hi, bind_ok]
        cases o with
        | none => have := I.null v n h; omega
        | some p =>
          cases ho : s.store p with
          | none =>
            simp only [Spec.Shelf.holds, ho]
            show _ = _
            simp [World.load, I.dead p ho]
          | some r =>
            obtain ⟨xs, cap⟩ := r
            simp only [Spec.Shelf.holds, ho]
            by_cases hx : i.toNat < xs.length
            · rw [List.getElem?_eq_getElem hx]
              obtain ⟨b, l1, hcap, g⟩ := I.load n (show s.holds (some p) = _ from ho)
              dsimp only
              rw [l1, bind_ok, bufferManipulation.write_rep c g.rep i.toNat t hx, bind_ok, bind_ok]
              refine ⟨_, rfl, ?_, rfl⟩
              simp only [setMem]
              refine ⟨I.next, I.undecl, ?_, ?_, ?_, I.views, I.null, I.sep, I.bound⟩
              · intro x o hxo
                obtain ⟨zs, k, e1, e2⟩ := I.decl x o hxo
                cases o with
                | none => exact ⟨zs, k, e1, e2⟩
                | some q =>
                  by_cases hq : q = p
                  · subst hq
                    have : s.store q = some (zs, k) := e1
                    rw [ho] at this; cases this
                    exact ⟨xs.set i.toNat t, cap, by simp only [Spec.Shelf.holds, upd_same], by simpa using e2⟩
                  · exact ⟨zs, k, by simpa [Spec.Shelf.holds, upd, hq] using e1, e2⟩
              · intro q hq
                by_cases hqp : q = p
                · subst hqp; simp [upd] at hq
                · simp only [upd, hqp, if_false] at hq ⊢; exact I.dead q hq
              · intro q zs k hq
                by_cases hqp : q = p
                · subst hqp
                  simp only [upd, if_true, Option.some.injEq, Prod.mk.injEq] at hq ⊢
                  obtain ⟨rfl, rfl⟩ := hq
                  exact ⟨_, rfl, hcap, g.mk' rfl rfl rfl rfl (by simpa using g.rep.2) (fun _ => rfl)⟩
                · simp only [upd, hqp, if_false] at hq ⊢; exact I.alive q zs k hq
            · rw [List.getElem?_eq_none (by omega)]; trivial
  | read x i =>
    simp only [Spec.shelfStep]
    cases h : s.vars x with
    | none => trivial
    | some o =>
      obtain ⟨xs, cap, e1, e2⟩ := hvr x o h
      simp only [e1, VWorld.step, e2, bind_ok]
      exact answers_bind (getAt_answers c I o _ i) (by intro b a e; subst e; exact ⟨_, rfl, I, rfl⟩)
  | size x =>
    simp only [Spec.shelfStep]
    cases h : s.vars x with
    | none => trivial
    | some o =>
      obtain ⟨xs, cap, e1, e2⟩ := hvr x o h
      simp only [e1, VWorld.step, e2, bind_ok]
      exact ⟨_, rfl, I, rfl⟩
  | capacity x =>
    simp only [Spec.shelfStep]
    cases h : s.vars x with
    | none => trivial
    | some o =>
      obtain ⟨xs, cap, e1, e2⟩ := hvr x o h
      obtain ⟨b, l1, hcap, g⟩ := I.load xs.length e1
      simp only [e1, VWorld.step, e2, l1, bind_ok, hcap]
      exact ⟨_, rfl, I, rfl⟩

theorem vrun_answers (c : Cfg) : ∀ (prog : List (VOp T)) {m : VWorld T} {s : Spec.Shelf T}, VInv m s →
    (∀ op ∈ prog, properInsert c op) →
    answers c (fun b a => VInv b.1 a.1 ∧ b.2 = a.2) (m.run c prog) (Spec.shelfRun s prog)
  | [], m, s, I, _ => ⟨_, rfl, I, rfl⟩
  | op :: ops, m, s, I, hp => by
    refine answers_bind (vstep_answers c I op (hp op (by simp))) ?_
    intro b a ⟨I1, e1⟩
    refine answers_bind (vrun_answers c ops I1 (fun o ho => hp o (by simp [ho]))) ?_
    intro b2 a2 ⟨I2, e2⟩
    exact ⟨_, rfl, I2, by rw [e1, e2]⟩

/-- **C64.** Every program over arrays and views taken from them, run by the code, sees exactly what the specification says: a view
reads and writes the elements of the array's storage for as long as the array keeps that storage; the storage is kept by every call
that needs no more than `capacity()`, follows the array when it is moved, and is given up when a call needs more or the array is
destroyed.  An access through a view whose storage was given up is a use of released storage; a read of an element the array no
longer has is undefined; an index outside the view's own length is reported in builds that check bounds. -/
theorem C64_views_last_until_reallocation (c : Cfg) (prog : List (VOp T)) (hp : ∀ op ∈ prog, properInsert c op) :
    match Spec.shelfRun (Spec.Shelf.empty T) prog with
    | .fine (_, out) => ∃ m, (VWorld.empty T).run c prog = .ok (m, out)
    | .outside => c.boundsCheck = true → (VWorld.empty T).run c prog = .error .abort
    | .dangling => (VWorld.empty T).run c prog = .error (.ub .dangling)
    | .ended => ∃ u, (VWorld.empty T).run c prog = .error (.ub u)
    | .silent => True := by
  have h := vrun_answers c prog (VInv.empty (T := T)) hp
  generalize Spec.shelfRun (Spec.Shelf.empty T) prog = d at h
  cases d with
  | fine a =>
    obtain ⟨b, e, _, e2⟩ := h
    obtain ⟨s, out⟩ := a
    exact ⟨b.1, by rw [e]; cases b; cases e2; rfl⟩
  | outside => exact h
  | dangling => exact h
  | ended => exact h
  | silent => trivial

/-- The storage of `x` and the view `v` survive a statement that keeps to the reserved room. -/
theorem steady_step {m : VWorld T} {s s' : Spec.Shelf T} {x v n : Nat} {op : VOp T} {xs ys : List T} {p cap k : Nat} {a : VAns T}
    (I : VInv m s) (hx : s.vars x = some (some p)) (hp : s.store p = some (xs, cap)) (hn : n ≤ cap)
    (hv : s.views v = some (some p, k)) (hs : Spec.steadyStep x v n xs op = some ys) (h : Spec.shelfStep s op = .fine (s', a)) :
    s'.vars x = some (some p) ∧ s'.store p = some (ys, cap) ∧ s'.views v = some (some p, k) := by
  have hb := I.bound x p hx
  -- another variable is given new contents
  have hother : ∀ y o zs cap' ys' nd gr, y ≠ x → s.vars y = some o → s.holds o = some (zs, cap') →
      (s.become y o cap' ys' nd gr).vars x = some (some p) ∧ (s.become y o cap' ys' nd gr).store p = some (xs, cap) ∧
      (s.become y o cap' ys' nd gr).views v = some (some p, k) := by
    intro y o zs cap' ys' nd gr hyx hy ho
    have hop : ∀ q, o = some q → p ≠ q := by
      intro q e e2; subst e e2; exact hyx (I.sep y x p hy hx)
    unfold Spec.Shelf.become
    split
    · cases o with
      | none => exact ⟨hx, hp, hv⟩
      | some q => exact ⟨hx, by simpa [upd, hop q rfl] using hp, hv⟩
    · refine ⟨by simp only [upd, Ne.symm hyx, if_false]; exact hx, ?_, hv⟩
      show (if p = s.next then _ else _) = _
      rw [if_neg (by omega)]
      cases o with
      | none => exact hp
      | some q => simpa [Spec.Shelf.without, upd, hop q rfl] using hp
  cases op with
  | stmt op =>
    simp only [Spec.shelfStep] at h
    cases hst : Spec.shelfStmt s op with
    | none => rw [hst] at h; cases h
    | some s1 =>
      rw [hst] at h; cases h
      cases op with
      | new y =>
        simp only [Spec.steadyStep, Option.ite_none_left_eq_some, Option.some.injEq] at hs
        obtain ⟨hyx, rfl⟩ := hs
        simp only [Spec.shelfStmt, Option.ite_none_left_eq_some, Option.some.injEq] at hst
        obtain ⟨_, rfl⟩ := hst
        exact ⟨by simpa [upd, Ne.symm hyx] using hx, hp, hv⟩
      | call y o =>
        simp only [Spec.shelfStmt, Option.bind_eq_bind, Option.bind_eq_some_iff] at hst
        obtain ⟨q, hy, ⟨zs, cap'⟩, ho, ws, hvs, e⟩ := hst
        cases e
        by_cases hyx : y = x
        · subst hyx
          simp only [Spec.steadyStep, if_true, Option.ite_none_right_eq_some] at hs
          rw [hx] at hy; cases hy
          have ho' : s.store p = some (zs, cap') := ho
          rw [hp] at ho'; cases ho'
          rw [hs.2] at hvs; cases hvs
          unfold Spec.Shelf.become
          rw [if_pos (by have := hs.1; simp only; omega)]
          exact ⟨hx, by simp [upd], hv⟩
        · simp only [Spec.steadyStep, hyx, if_false, Option.some.injEq] at hs
          subst hs
          exact hother y q zs cap' _ _ _ hyx hy ho
      | copy y z =>
        simp only [Spec.steadyStep, Option.ite_none_left_eq_some, Option.some.injEq] at hs
        obtain ⟨hyx, rfl⟩ := hs
        simp only [Spec.shelfStmt, Option.bind_eq_bind, Option.bind_eq_some_iff] at hst
        obtain ⟨q, hy, ⟨zs, cap'⟩, ho, r, hz, ⟨ws, cap2⟩, hr, e⟩ := hst
        cases e
        exact hother y q zs cap' _ _ _ hyx hy ho
      | moveNew y z =>
        simp only [Spec.steadyStep, Option.ite_none_left_eq_some, Option.some.injEq, not_or] at hs
        obtain ⟨⟨hyx, hzx⟩, rfl⟩ := hs
        simp only [Spec.shelfStmt, Option.bind_eq_bind, Option.bind_eq_some_iff,
          Option.ite_none_left_eq_some, Option.some.injEq] at hst
        obtain ⟨q, hy, _, rfl⟩ := hst
        exact ⟨by simpa [upd, Ne.symm hyx, Ne.symm hzx] using hx, hp, hv⟩
      | moveTo y z =>
        simp only [Spec.steadyStep, Option.ite_none_left_eq_some, Option.some.injEq, not_or] at hs
        obtain ⟨⟨hyx, hzx⟩, rfl⟩ := hs
        simp only [Spec.shelfStmt, Option.bind_eq_bind, Option.bind_eq_some_iff,
          Option.ite_none_left_eq_some, Option.some.injEq] at hst
        obtain ⟨_, _, q, hy, _, rfl⟩ := hst
        exact ⟨by simpa [upd, Ne.symm hyx, Ne.symm hzx] using hx, hp, hv⟩
      | del y =>
        simp only [Spec.steadyStep, Option.ite_none_left_eq_some, Option.some.injEq] at hs
        obtain ⟨hyx, rfl⟩ := hs
        simp only [Spec.shelfStmt, Option.bind_eq_bind, Option.bind_eq_some_iff] at hst
        obtain ⟨o, hy, e⟩ := hst
        cases e
        refine ⟨by simpa [upd, Ne.symm hyx] using hx, ?_, hv⟩
        cases o with
        | none => exact hp
        | some q =>
          have : p ≠ q := by intro e; subst e; exact hyx (I.sep y x p hy hx)
          simpa [Spec.Shelf.without, upd, this] using hp
  | take u y =>
    simp only [Spec.steadyStep, Option.ite_none_left_eq_some, Option.some.injEq] at hs
    obtain ⟨huv, rfl⟩ := hs
    simp only [Spec.shelfStep] at h
    split at h
    · cases h
    · split at h
      · cases h
      · cases h; exact ⟨hx, hp, by simpa [upd, Ne.symm huv] using hv⟩
  | dup u y =>
    simp only [Spec.steadyStep, Option.ite_none_left_eq_some, Option.some.injEq] at hs
    obtain ⟨huv, rfl⟩ := hs
    simp only [Spec.shelfStep] at h
    split at h
    · cases h
    · cases h; exact ⟨hx, hp, by simpa [upd, Ne.symm huv] using hv⟩
  | get u i =>
    simp only [Spec.steadyStep, Option.some.injEq] at hs
    subst hs
    simp only [Spec.shelfStep] at h
    split at h
    · cases h
    · rename_i o k' _
      cases hh : s.at o k' i <;> rw [hh] at h <;> cases h
      exact ⟨hx, hp, hv⟩
  | put u i t =>
    simp only [Spec.steadyStep, Option.ite_none_right_eq_some, Option.some.injEq] at hs
    obtain ⟨rfl, rfl⟩ := hs
    simp only [Spec.shelfStep, hv] at h
    split at h
    · simp only [hp] at h
      cases h; exact ⟨hx, by simp [upd], hv⟩
    · cases h
    · cases h
    · cases h
  | read y i =>
    simp only [Spec.steadyStep, Option.some.injEq] at hs
    subst hs
    simp only [Spec.shelfStep] at h
    split at h
    · cases h
    · split at h
      · cases h
      · rename_i o _ _ zs k' _
        cases hh : s.at o zs.length i <;> rw [hh] at h <;> cases h
        exact ⟨hx, hp, hv⟩
  | size y =>
    simp only [Spec.steadyStep, Option.some.injEq] at hs
    subst hs
    simp only [Spec.shelfStep] at h
    split at h
    · cases h
    · split at h
      · cases h
      · cases h; exact ⟨hx, hp, hv⟩
  | capacity y =>
    simp only [Spec.steadyStep, Option.some.injEq] at hs
    subst hs
    simp only [Spec.shelfStep] at h
    split at h
    · cases h
    · split at h
      · cases h
      · cases h; exact ⟨hx, hp, hv⟩

theorem andThen_fine {α β : Type} {d : Spec.Verdict α} {f : α → Spec.Verdict β} {b : β} (h : d.andThen f = .fine b) :
    ∃ a, d = .fine a ∧ f a = .fine b := by
  cases d <;> first | exact ⟨_, rfl, h⟩ | cases h

theorem shelfRun_append (p1 p2 : List (VOp T)) (s : Spec.Shelf T) : Spec.shelfRun s (p1 ++ p2) =
    (Spec.shelfRun s p1).andThen fun r => (Spec.shelfRun r.1 p2).andThen fun q => .fine (q.1, r.2 ++ q.2) := by
  induction p1 generalizing s with
  | nil =>
    show Spec.shelfRun s p2 = (Spec.shelfRun s p2).andThen _
    cases Spec.shelfRun s p2 <;> rfl
  | cons op ops ih =>
    simp only [List.cons_append, Spec.shelfRun]
    cases Spec.shelfStep s op with
    | fine r =>
      simp only [Spec.Verdict.andThen, ih]
      cases Spec.shelfRun r.1 ops with
      | fine q =>
        simp only
        cases Spec.shelfRun q.1 p2 <;> rfl
      | _ => rfl
    | _ => rfl

theorem steady_run (c : Cfg) {x v n p cap k : Nat} : ∀ (mid : List (VOp T)) {m : VWorld T} {s s' : Spec.Shelf T} {xs ys : List T}
    {out : List (VAns T)}, VInv m s → (∀ op ∈ mid, properInsert c op) → s.vars x = some (some p) →
    s.store p = some (xs, cap) → n ≤ cap → s.views v = some (some p, k) → Spec.steady x v n xs mid = some ys →
    Spec.shelfRun s mid = .fine (s', out) → s'.store p = some (ys, cap) ∧ s'.views v = some (some p, k)
  | [], m, s, s', xs, ys, out, _, _, _, hp, _, hv, hs, h => by cases h; cases hs; exact ⟨hp, hv⟩
  | op :: ops, m, s, s', xs, ys, out, I, hok, hx, hp, hn, hv, hs, h => by
    simp only [Spec.steady, Option.bind_eq_bind, Option.bind_eq_some_iff] at hs
    obtain ⟨zs, h1, h2⟩ := hs
    obtain ⟨⟨s1, a⟩, e1, h⟩ := andThen_fine h
    obtain ⟨⟨s2, os⟩, e2, h⟩ := andThen_fine h
    cases h
    obtain ⟨q1, q2, q3⟩ := steady_step I hx hp hn hv h1 e1
    have ha := vstep_answers c I op (hok op (by simp))
    rw [e1] at ha
    obtain ⟨b, _, I1, _⟩ := ha
    exact steady_run c ops I1 (fun o ho => hok o (by simp [ho])) q1 q2 hn q3 h2 e2

/-- **C64, reserved room.** Whatever happened before, after `x.reserve( n ); v = x.toView();` the view `v` keeps denoting the elements
of `x` for as long as no call makes `x` need more than `n` elements and `x` is neither assigned, moved nor destroyed: reading `v[ i ]`
yields the value `x` holds at that time, including changes made through `x`, through `v` and by removing and adding elements. -/
theorem C64_reserved_room (c : Cfg) (pre mid : List (VOp T)) (x v n : Nat) {s0 s : Spec.Shelf T} {out0 out : List (VAns T)}
    {o : Option Nat} {cap : Nat} {xs ys : List T}
    (hp : ∀ op ∈ pre ++ ([.stmt (.call x (.reserve n)), .take v x] ++ mid), properInsert c op)
    (hpre : Spec.shelfRun (Spec.Shelf.empty T) pre = .fine (s0, out0))
    (hx : s0.vars x = some o) (ho : s0.holds o = some (xs, cap))
    (hrun : Spec.shelfRun (Spec.Shelf.empty T) (pre ++ ([.stmt (.call x (.reserve n)), .take v x] ++ mid)) = .fine (s, out))
    (hmid : Spec.steady x v n xs mid = some ys) (i : Nat) (hi : i < xs.length) (hi' : i < ys.length) :
    ∃ m, (VWorld.empty T).run c (pre ++ ([.stmt (.call x (.reserve n)), .take v x] ++ mid) ++ [.get v i]) =
      .ok (m, out ++ [.val ys[i]]) := by
  -- the state at the end of the program, as the specification sees it
  have hpre' := vrun_answers c pre (VInv.empty (T := T)) (fun op h => hp op (by simp [h]))
  rw [hpre] at hpre'
  obtain ⟨⟨m0, _⟩, _, I0, _⟩ := hpre'
  have hrest := hrun
  rw [shelfRun_append, hpre] at hrest
  obtain ⟨⟨s1, out1⟩, f1, e⟩ := andThen_fine (show (Spec.shelfRun s0 _).andThen _ = _ from hrest)
  cases e
  obtain ⟨⟨s2, a2⟩, e2, f2⟩ := andThen_fine (show (Spec.shelfStep s0 _).andThen _ = _ from f1)
  obtain ⟨⟨s3, os3⟩, e3, e⟩ := andThen_fine f2
  cases e
  obtain ⟨⟨s4, a4⟩, e4, f4⟩ := andThen_fine (show (Spec.shelfStep s2 _).andThen _ = _ from e3)
  obtain ⟨⟨s5, os5⟩, e5, e⟩ := andThen_fine f4
  cases e
  have A2 := vstep_answers c I0 (.stmt (.call x (.reserve n))) (hp _ (by simp))
  rw [e2] at A2
  obtain ⟨⟨m2, _⟩, _, I2, _⟩ := A2
  have A4 := vstep_answers c I2 (.take v x) (hp _ (by simp))
  rw [e4] at A4
  obtain ⟨⟨m4, _⟩, _, I4, _⟩ := A4
  have key : ∃ p cap', s4.vars x = some (some p) ∧ s4.store p = some (xs, cap') ∧ n ≤ cap' ∧ s4.views v = some (some p, xs.length) := by
    have e2' : s0.become x o cap xs n n = s2 := by
      have : Spec.shelfStmt s0 (.call x (.reserve n)) = some (s0.become x o cap xs n n) := by
        simp [Spec.shelfStmt, hx, ho, Spec.vecStep, Spec.fits, Spec.need]
      simp only [Spec.shelfStep, this] at e2
      cases e2; rfl
    have h2 : ∃ p cap', s2.vars x = some (some p) ∧ s2.store p = some (xs, cap') ∧ n ≤ cap' := by
      rw [← e2']
      unfold Spec.Shelf.become
      by_cases hn : n ≤ cap
      · rw [if_pos hn]
        cases o with
        | none =>
          simp only [Spec.Shelf.holds, Option.some.injEq, Prod.mk.injEq] at ho
          rw [← ho.1] at hi; simp at hi
        | some p => exact ⟨p, cap, hx, by simp [upd], hn⟩
      · rw [if_neg hn]
        exact ⟨s0.next, n, upd_same _ _ _, upd_same _ _ _, Nat.le_refl _⟩
    obtain ⟨p, cap', q1, q2, q3⟩ := h2
    simp only [Spec.shelfStep, q1, Spec.Shelf.holds, q2] at e4
    cases e4
    exact ⟨p, cap', q1, q2, q3, upd_same _ _ _⟩
  obtain ⟨p, cap', q1, q2, q3, q4⟩ := key
  obtain ⟨r1, r2⟩ := steady_run c mid I4 (fun op h => hp op (by simp [h])) q1 q2 q3 q4 hmid e5
  have hall : Spec.shelfRun (Spec.Shelf.empty T) (pre ++ ([.stmt (.call x (.reserve n)), .take v x] ++ mid) ++ [.get v i]) =
      .fine (s5, (out0 ++ a2 :: a4 :: os5) ++ [.val ys[i]]) := by
    have : Spec.shelfRun s5 [.get v i] = .fine (s5, [.val ys[i]]) := by
      have hat : s5.at (some p) xs.length i = .fine ys[i] := by
        unfold Spec.Shelf.at
        rw [if_neg (by omega)]
        simp [Spec.Shelf.holds, r1, hi']
      simp [Spec.shelfRun, Spec.shelfStep, r2, hat, Spec.Verdict.andThen]
    rw [shelfRun_append, hrun]
    simp [Spec.Verdict.andThen, this]
  have hfin := C64_views_last_until_reallocation c (pre ++ ([.stmt (.call x (.reserve n)), .take v x] ++ mid) ++ [.get v i]) (by
    intro op h
    rcases List.mem_append.1 h with h | h
    · exact hp op h
    · simp only [List.mem_singleton] at h; subst h; trivial)
  rw [hall] at hfin
  exact hfin


/-- What a program of the specification gets to see. -/
def Spec.Verdict.saw : Spec.Verdict (Spec.Shelf Nat × List (VAns Nat)) → Spec.Verdict (List (VAns Nat))
  | .fine r => .fine r.2
  | .outside => .outside
  | .dangling => .dangling
  | .ended => .ended
  | .silent => .silent

/-- An array of two elements with room for four, and a view of it. -/
def viewDemo : List (VOp Nat) :=
  [.stmt (.new 0), .stmt (.call 0 (.reserve 4)), .stmt (.call 0 (.emplaceBack 10)), .stmt (.call 0 (.emplaceBack 20)), .take 7 0]

/-- The first theorem is about programs of every kind: the view sees changes made through the array and the array those made through
the view; it follows a move; it survives growing up to the capacity; beyond that, and after destruction, it dangles; the elements the
array gave up are gone; and its length stays what it was. -/
example :
    let run := fun prog => Spec.Verdict.saw (Spec.shelfRun (Spec.Shelf.empty Nat) (viewDemo ++ prog))
    let u := VAns.unit
    run [.stmt (.call 0 (.set 1 21)), .get 7 1, .put 7 0 11, .read 0 0] =
      .fine [u, u, u, u, u, u, .val 21, u, .val 11] ∧
    run [.stmt (.moveNew 1 0), .put 7 0 11, .read 1 0, .size 0] = .fine [u, u, u, u, u, u, u, .val 11, .num 0] ∧
    run [.stmt (.call 0 (.emplace 0 1)), .stmt (.call 0 (.emplace 0 2)), .get 7 0, .capacity 0] =
      .fine [u, u, u, u, u, u, u, .val 2, .num 4] ∧
    run [.stmt (.call 0 (.insert 0 [1, 2, 3])), .capacity 0] = .fine [u, u, u, u, u, u, .num 10] ∧
    run [.stmt (.call 0 (.insert 0 [1, 2, 3])), .get 7 0] = .dangling ∧
    run [.stmt (.del 0), .get 7 0] = .dangling ∧
    run [.stmt (.call 0 .popBack), .get 7 1] = .ended ∧
    run [.stmt (.call 0 (.emplaceBack 30)), .get 7 2] = .outside := ⟨rfl, rfl, rfl, rfl, rfl, rfl, rfl, rfl⟩

/-- The hypotheses of the second theorem are met by a program that empties and refills the array. -/
example :
    let pre : List (VOp Nat) := [.stmt (.new 0), .stmt (.call 0 (.resizeDefault 2 5))]
    let mid : List (VOp Nat) := [.stmt (.call 0 .clear), .stmt (.new 1), .stmt (.call 1 (.emplaceBack 3)), .stmt (.copy 1 0),
      .stmt (.call 0 (.insert 0 [6, 7, 8])), .put 7 0 9, .stmt (.call 0 (.erase 1))]
    (Spec.Verdict.saw (Spec.shelfRun (Spec.Shelf.empty Nat) (pre ++ ([.stmt (.call 0 (.reserve (3 : Nat))), .take 7 0] ++ mid)))) =
      .fine (List.replicate 11 .unit) ∧
    (match Spec.shelfRun (Spec.Shelf.empty Nat) pre with
      | .fine (s, _) => s.vars 0 = some (some 0) ∧ s.holds (some 0) = some ([5, 5], 2)
      | _ => False) ∧
    Spec.steady 0 7 3 [5, 5] mid = some [9, 8] := ⟨rfl, ⟨rfl, rfl⟩, rfl⟩

end LvArray.Props

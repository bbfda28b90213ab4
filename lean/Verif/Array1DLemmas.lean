import Verif.Spec.Vector
/-!
# Simulation of the vector specification by the one-dimensional `Array`
-/

namespace LvArray

variable {T : Type}

/-- The array holds exactly `xs`, lost no object that carries a value, and its buffer matches `limit`
(`none`: heap buffer, `some n`: stack buffer of length `n`). -/
structure Good (limit : Option Nat) (a : Array1 T) (xs : List T) : Prop where
  size : a.size = xs.length
  rep : Rep a.buf xs
  lost : a.buf.lostLive = 0
  heap : limit = none → a.buf.kind = .malloc
  stack : ∀ n, limit = some n → a.buf.kind = .stack ∧ a.buf.cap = n

theorem Good.room {limit : Option Nat} {a : Array1 T} {xs : List T} (g : Good limit a xs) (n : Nat) :
    a.buf.room n ↔ Spec.fits limit n := by
  cases limit with
  | none => simp [Buf.room, g.heap rfl, Spec.fits]
  | some l => simp [Buf.room, g.stack l rfl, Spec.fits]

theorem Good.init (T : Type) (limit : Option Nat) : Good limit (Array1.init T limit) [] := by
  cases limit with
  | none =>
    exact ⟨rfl, ⟨by funext k; rfl, by simp⟩, rfl, fun _ => rfl, fun n h => by cases h⟩
  | some l =>
    exact ⟨rfl, ⟨by funext k; rfl, by simp⟩, rfl, (fun h => by cases h), (fun n h => by cases h; exact ⟨rfl, rfl⟩)⟩

/-- Build `Good` for a result that keeps kind, and keeps the capacity if it is large enough. -/
theorem Good.mk' {limit : Option Nat} {a : Array1 T} {xs ys : List T} (g : Good limit a xs) {b : Buf T}
    {n : Nat} (hn : n = ys.length) (hk : b.kind = a.buf.kind) (hl : b.lostLive = a.buf.lostLive)
    (hc : b.cell = cellsOf ys) (hcap : ys.length ≤ b.cap)
    (hst : a.buf.kind = .stack → b.cap = a.buf.cap) :
    Good limit { buf := b, size := n } ys :=
  ⟨hn, ⟨hc, hcap⟩, by rw [show (Array1.mk b n).buf = b from rfl, hl, g.lost],
    fun h => by show b.kind = _; rw [hk, g.heap h],
    fun m h => by
      have := g.stack m h
      refine ⟨?_, ?_⟩
      · show b.kind = _; rw [hk, this.1]
      · show b.cap = _; rw [hst this.1, this.2]⟩

theorem grownCap_stack {b : Buf T} {n : Nat} (h : b.room n) (hs : b.kind = .stack) : b.grownCap n = b.cap := by
  unfold Buf.grownCap
  have : n ≤ b.cap := by rcases h with h | h; rw [hs] at h; cases h; exact h
  rw [if_neg (by omega)]

theorem maxCap_stack {b : Buf T} {n : Nat} (h : b.room n) (hs : b.kind = .stack) : max b.cap n = b.cap := by
  have : n ≤ b.cap := by rcases h with h | h; rw [hs] at h; cases h; exact h
  omega

set_option linter.unusedSectionVars false

variable [Inhabited T]

/-- The one call that deviates from the specification: in debug builds inserting an empty range into an array
that has never allocated fails an assertion. -/
def nullInsert (c : Cfg) (a : Array1 T) : VecOp T → Prop
  | .insert _ [] => c.debug = true ∧ a.buf.cap = 0
  | _ => False

theorem posArg_ok (c : Cfg) {pos : Int} (h : 0 ≤ pos) : posArg c pos = .ok pos.toNat := by
  unfold posArg; rw [if_neg (by omega)]

theorem resizeDefault_ok (c : Cfg) {limit : Option Nat} {a : Array1 T} {xs : List T} (g : Good limit a xs)
    (n : Int) (v : T) (h0 : 0 ≤ n) (hf : Spec.fits limit n.toNat) :
    ∃ a', a.resizeDefault c n v = .ok a' ∧
      Good limit a' (xs.take n.toNat ++ List.replicate (n.toNat - xs.length) v) := by
  have hr := (g.room n.toNat).2 hf
  unfold Array1.resizeDefault
  rw [show decide (n < 0) = false by simpa using h0, errorIf_false, bind_ok, g.size,
    bufferManipulation.resize_rep c g.rep _ v hr, bind_ok]
  refine ⟨_, rfl, g.mk' (by simp; omega) rfl rfl rfl (by simp; omega) (maxCap_stack hr)⟩

theorem step_ok (c : Cfg) {limit : Option Nat} {a : Array1 T} {xs ys : List T} (g : Good limit a xs)
    (op : VecOp T) (h : Spec.vecStep limit xs op = some ys) (hd : ¬ nullInsert c a op) :
    ∃ a', a.step c op = .ok a' ∧ Good limit a' ys := by
  cases op with
  | emplaceBack v =>
    simp only [Spec.vecStep, Option.ite_none_right_eq_some, Option.some.injEq] at h
    obtain ⟨hf, rfl⟩ := h
    have hr := (g.room _).2 hf
    simp only [Array1.step, Array1.emplaceBack, g.size, bufferManipulation.emplaceBack_rep c g.rep v hr, bind_ok]
    exact ⟨_, rfl, g.mk' (by simp) rfl rfl rfl (by simpa using Buf.le_grownCap _ _) (grownCap_stack hr)⟩
  | emplace pos v =>
    simp only [Spec.vecStep, Option.ite_none_right_eq_some, Option.some.injEq] at h
    obtain ⟨⟨h0, h1, hf⟩, rfl⟩ := h
    have hr := (g.room _).2 hf
    have hle := a.buf.le_grownCap (xs.length + 1)
    simp only [Array1.step, Array1.emplace, posArg_ok c h0, g.size, bind_ok,
      bufferManipulation.emplace_rep c g.rep pos.toNat v (by omega) hr]
    exact ⟨_, rfl, g.mk' (by simp; omega) rfl rfl rfl (by simp; omega) (grownCap_stack hr)⟩
  | insert pos vs =>
    simp only [Spec.vecStep, Option.ite_none_right_eq_some, Option.some.injEq] at h
    obtain ⟨⟨h0, h1, hf⟩, rfl⟩ := h
    have hr := (g.room _).2 hf
    have hle := a.buf.le_grownCap (xs.length + vs.length)
    have hdd : c.debug = true → vs = [] → 0 < a.buf.cap := by
      intro h1 h2; subst h2
      have : ¬ (c.debug = true ∧ a.buf.cap = 0) := hd
      exact Nat.pos_of_ne_zero fun hz => this ⟨h1, hz⟩
    simp only [Array1.step, Array1.insert, posArg_ok c h0, g.size, bind_ok,
      bufferManipulation.insert_rep c g.rep pos.toNat vs (by omega) hr hdd]
    exact ⟨_, rfl, g.mk' (by simp; omega) rfl rfl rfl (by simp; omega) (grownCap_stack hr)⟩
  | popBack =>
    simp only [Spec.vecStep, Option.ite_none_left_eq_some, Option.some.injEq] at h
    obtain ⟨hne, rfl⟩ := h
    have hle := g.rep.2
    simp only [Array1.step, Array1.popBack, g.size, bufferManipulation.popBack_rep c g.rep hne, bind_ok]
    exact ⟨_, rfl, g.mk' (by simp) rfl rfl rfl (by simp; omega) (fun _ => rfl)⟩
  | erase pos =>
    simp only [Spec.vecStep, Option.ite_none_right_eq_some, Option.some.injEq] at h
    obtain ⟨⟨h0, h1⟩, rfl⟩ := h
    have hle := g.rep.2
    have hlen := List.length_eraseIdx_of_lt (l := xs) (i := pos.toNat) (by omega)
    simp only [Array1.step, Array1.erase, posArg_ok c h0, g.size, bind_ok,
      bufferManipulation.erase_rep c g.rep pos.toNat (by omega)]
    exact ⟨_, rfl, g.mk' (by omega) rfl rfl rfl (by simp only []; omega) (fun _ => rfl)⟩
  | resize n =>
    simp only [Spec.vecStep, Option.ite_none_right_eq_some, Option.some.injEq] at h
    obtain ⟨⟨h0, hf⟩, rfl⟩ := h
    exact resizeDefault_ok c g n default h0 hf
  | resizeDefault n v =>
    simp only [Spec.vecStep, Option.ite_none_right_eq_some, Option.some.injEq] at h
    obtain ⟨⟨h0, hf⟩, rfl⟩ := h
    exact resizeDefault_ok c g n v h0 hf
  | reserve n =>
    simp only [Spec.vecStep, Option.ite_none_right_eq_some, Option.some.injEq] at h
    obtain ⟨hf, rfl⟩ := h
    have hr := (g.room _).2 hf
    have hle := g.rep.2
    simp only [Array1.step, Array1.reserve, g.size, bufferManipulation.reserve_rep c g.rep _ hr, bind_ok]
    refine ⟨_, rfl, g.mk' rfl rfl rfl g.rep.1 (by simp only []; omega) (maxCap_stack hr)⟩
  | clear =>
    simp only [Spec.vecStep, Option.some.injEq] at h
    subst h
    have hr : a.buf.room 0 := .inr (Nat.zero_le _)
    simp only [Array1.step, Array1.clear, g.size, bufferManipulation.resize_rep c g.rep 0 default hr, bind_ok]
    exact ⟨_, rfl, g.mk' rfl rfl rfl (by simp) (by simp) (maxCap_stack hr)⟩
  | set i v =>
    simp only [Spec.vecStep, Option.ite_none_right_eq_some, Option.some.injEq] at h
    obtain ⟨⟨h0, h1⟩, rfl⟩ := h
    have hck : a.checkIndex c i = .ok i.toNat := by
      unfold Array1.checkIndex; rw [if_neg (by have := g.size; omega)]
    have hle := g.rep.2
    simp only [Array1.step, Array1.set, hck, bind_ok,
      bufferManipulation.write_rep c g.rep i.toNat v (by omega)]
    exact ⟨_, rfl, g.mk' (by simp [g.size]) rfl rfl rfl (by simpa using hle) (fun _ => rfl)⟩

theorem posArg_bad (c : Cfg) (hb : c.boundsCheck = true) {pos : Int} (h : pos < 0) :
    posArg c pos = .error .abort := by
  unfold posArg; rw [if_pos h, hb]; rfl

theorem resizeDefault_abort (c : Cfg) {limit : Option Nat} {a : Array1 T} {xs : List T} (g : Good limit a xs)
    (n : Int) (v : T) (h : ¬ (0 ≤ n ∧ Spec.fits limit n.toNat)) :
    a.resizeDefault c n v = .error .abort := by
  unfold Array1.resizeDefault
  by_cases h0 : n < 0
  · simp [h0]
  · rw [show decide (n < 0) = false by simpa using h0, errorIf_false, bind_ok]
    have hf : ¬ a.buf.room n.toNat := fun hr => h ⟨by omega, (g.room _).1 hr⟩
    unfold bufferManipulation.resize
    have hle : a.size ≤ a.buf.cap := by have := g.rep.2; have := g.size; omega
    rw [bufferManipulation.check_ok c _ _ hle, bind_ok, bufferManipulation.reserve_abort c hle _ hf]; rfl

theorem step_abort (c : Cfg) (hb : c.boundsCheck = true) (hdbg : c.debug = true) {limit : Option Nat}
    {a : Array1 T} {xs : List T} (g : Good limit a xs) (op : VecOp T)
    (h : Spec.vecStep limit xs op = none) : a.step c op = .error .abort := by
  have hle : a.size ≤ a.buf.cap := by have := g.rep.2; have := g.size; omega
  cases op with
  | emplaceBack v =>
    simp only [Spec.vecStep, ite_eq_right_iff, reduceCtorEq] at h
    have hr : ¬ a.buf.room (a.size + 1) := fun hr => h ((g.room _).1 (g.size ▸ hr))
    simp [Array1.step, Array1.emplaceBack, bufferManipulation.emplaceBack,
      bufferManipulation.check_ok c _ _ hle, bufferManipulation.dynamicReserve_abort c hle _ hr]
  | emplace pos v =>
    simp only [Spec.vecStep, ite_eq_right_iff, reduceCtorEq] at h
    simp only [Array1.step, Array1.emplace]
    by_cases h0 : pos < 0
    · simp [posArg_bad c hb h0]
    · rw [posArg_ok c (by omega), bind_ok]
      simp only [bufferManipulation.emplace, bufferManipulation.checkInsert,
        bufferManipulation.check_ok c _ _ hle, bind_ok, hb, Bool.true_and]
      by_cases h1 : a.size < pos.toNat
      · simp [h1]
      · have hr : ¬ a.buf.room (a.size + 1) :=
          fun hr => h ⟨by omega, by have := g.size; omega, (g.room _).1 (g.size ▸ hr)⟩
        simp [h1, bufferManipulation.dynamicReserve_abort c hle _ hr]
  | insert pos vs =>
    simp only [Spec.vecStep, ite_eq_right_iff, reduceCtorEq] at h
    simp only [Array1.step, Array1.insert]
    by_cases h0 : pos < 0
    · simp [posArg_bad c hb h0]
    · rw [posArg_ok c (by omega), bind_ok]
      simp only [bufferManipulation.insert, bufferManipulation.checkInsert,
        bufferManipulation.check_ok c _ _ hle, bind_ok, hb, Bool.true_and]
      by_cases h1 : a.size < pos.toNat
      · simp [h1]
      · have hr : ¬ a.buf.room (a.size + vs.length) :=
          fun hr => h ⟨by omega, by have := g.size; omega, (g.room _).1 (g.size ▸ hr)⟩
        simp [h1, bufferManipulation.dynamicReserve_abort c hle _ hr]
  | popBack =>
    simp only [Spec.vecStep, ite_eq_left_iff, reduceCtorEq, imp_false, Decidable.not_not] at h
    have hs : a.size = 0 := by rw [g.size, h]; rfl
    simp only [Array1.step, Array1.popBack, bufferManipulation.popBack, arrayManipulation.popBack, hs, hdbg,
      bufferManipulation.check_ok c a.buf 0 (Nat.zero_le _), bind_ok, errorIf]
    by_cases hz : a.buf.cap = 0 <;> simp [hz]
  | erase pos =>
    simp only [Spec.vecStep, ite_eq_right_iff, reduceCtorEq] at h
    simp only [Array1.step, Array1.erase]
    by_cases h0 : pos < 0
    · simp [posArg_bad c hb h0]
    · rw [posArg_ok c (by omega), bind_ok]
      have : a.size ≤ pos.toNat := by
        have := g.size
        exact Decidable.byContradiction fun hc => h ⟨by omega, by omega⟩
      simp [bufferManipulation.erase, bufferManipulation.check_ok c _ _ hle, this]
  | resize n =>
    simp only [Spec.vecStep, ite_eq_right_iff, reduceCtorEq] at h
    exact resizeDefault_abort c g n default h
  | resizeDefault n v =>
    simp only [Spec.vecStep, ite_eq_right_iff, reduceCtorEq] at h
    exact resizeDefault_abort c g n v h
  | reserve n =>
    simp only [Spec.vecStep, ite_eq_right_iff, reduceCtorEq] at h
    have hr : ¬ a.buf.room n.toNat := fun hr => h ((g.room _).1 hr)
    simp [Array1.step, Array1.reserve, bufferManipulation.reserve_abort c hle _ hr]
  | clear => simp [Spec.vecStep] at h
  | set i v =>
    simp only [Spec.vecStep, ite_eq_right_iff, reduceCtorEq] at h
    have : i < 0 ∨ (a.size : Int) ≤ i := by
      have := g.size
      exact Decidable.byContradiction fun hc => h ⟨by omega, by omega⟩
    simp [Array1.step, Array1.set, Array1.checkIndex, this, hb]

/-- The deviating call aborts (it does not corrupt anything). -/
theorem step_nullInsert (c : Cfg) {limit : Option Nat} {a : Array1 T} {xs : List T} (g : Good limit a xs)
    (op : VecOp T) (h : nullInsert c a op) : a.step c op = .error .abort ∨
      ∃ u, a.step c op = .error (.ub u) ∧ c.boundsCheck = false := by
  cases op with
  | insert pos vs =>
    cases vs with
    | cons v vs => exact h.elim
    | nil =>
      obtain ⟨hdbg, hcap⟩ := h
      have hs : a.size = 0 := by have := g.rep.2; have := g.size; omega
      simp only [Array1.step, Array1.insert]
      by_cases h0 : pos < 0
      · by_cases hb : c.boundsCheck = true
        · left; simp [posArg_bad c hb h0]
        · right; exact ⟨.outOfBounds, by simp [posArg, h0, hb], by simpa using hb⟩
      · left
        rw [posArg_ok c (by omega), bind_ok]
        simp only [bufferManipulation.insert, bufferManipulation.checkInsert,
          bufferManipulation.check_ok c _ _ (show a.size ≤ a.buf.cap by omega), bind_ok]
        unfold errorIf
        split
        · rfl
        · simp [bufferManipulation.dynamicReserve,
            bufferManipulation.check_ok c a.buf 0 (Nat.zero_le _), hcap, hs,
            arrayManipulation.insert, arrayManipulation.assertNonNull, hdbg]
  | _ => exact h.elim

theorem get_ok (c : Cfg) {limit : Option Nat} {a : Array1 T} {xs : List T} (g : Good limit a xs)
    (i : Nat) (hi : i < xs.length) : a.get c i = .ok xs[i] := by
  have hck : a.checkIndex c i = .ok i := by
    unfold Array1.checkIndex; rw [if_neg (by have := g.size; omega)]; rfl
  unfold Array1.get
  rw [hck, bind_ok, bufferManipulation.read_rep g.rep i hi]

end LvArray

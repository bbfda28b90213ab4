import Verif.RowViewsLemmas

/-!
# C82: views of an `ArrayOfArrays` last until the storage they use is replaced
-/

namespace LvArray.Props

open LvArray Layout Spec RowCaps RowViews

variable {T : Type} [Inhabited T] {c : Cfg}

/-- A view in the model and in the specification. -/
structure SameView (w : RowWorld T) (s : RowShelf T) (p q : Nat × Three Nat) : Prop where
  num : p.1 = q.1
  sizes : p.2.sizes = w.addr.sizes ↔ q.2.sizes = s.replaced.sizes
  offsets : p.2.offsets = w.addr.offsets ↔ q.2.offsets = s.replaced.offsets
  values : p.2.values = w.addr.values ↔ q.2.values = s.replaced.values
  known : p.2.sizes < w.fresh ∧ p.2.offsets < w.fresh ∧ p.2.values < w.fresh
  past : q.2.sizes ≤ s.replaced.sizes ∧ q.2.offsets ≤ s.replaced.offsets ∧ q.2.values ≤ s.replaced.values

/-- The model realises the specification. -/
structure RInv (w : RowWorld T) (s : RowShelf T) : Prop where
  good : AGood w.obj s.rows
  room : roomOf w.obj = s.room
  addr : w.addr.sizes < w.fresh ∧ w.addr.offsets < w.fresh ∧ w.addr.values < w.fresh
  none : ∀ v, w.views v = none ↔ s.views v = none
  view : ∀ v p q, w.views v = some p → s.views v = some q → SameView w s p q

theorem RInv.start {n d : Nat} : ∃ w : RowWorld T, RowWorld.construct c n d = .ok w ∧ RInv w (RowShelf.init T n d) := by
  obtain ⟨a, h1, h2⟩ := mk_good (T := T) c n d
  · refine ⟨{ obj := a, addr := ⟨0, 0, 0⟩, fresh := 1, views := fun _ => Option.none }, ?_, ?_, ?_, ?_, ?_, ?_⟩
    · unfold RowWorld.construct
      rw [h1, bind_ok]
    · exact h2
    · exact mk_room h1
    · simp
    · intro v; simp [RowShelf.init]
    · intro v p q h; cases h

theorem RInv.lookup {w : RowWorld T} {s : RowShelf T} (I : RInv w s) {v : Nat} {q : Nat × Three Nat} (h : s.views v = some q) :
    ∃ p, w.views v = some p ∧ w.view v = .ok p ∧ SameView w s p q := by
  cases hp : w.views v with
  | none => have := (I.none v).1 hp; rw [h] at this; cases this
  | some p => exact ⟨p, rfl, by unfold RowWorld.view; rw [hp], I.view v p q hp h⟩

theorem RInv.num {w : RowWorld T} {s : RowShelf T} (I : RInv w s) : w.obj.shape.numArrays = s.rows.length := by
  rw [ShGood.num I.good.shape]; simp

theorem through_eq {w : RowWorld T} {p : Nat × Three Nat} (h : p.2 = w.addr) : w.through p = w.obj.withNum p.1 := by
  unfold RowWorld.through follow AoA.withNum Shape.withNum
  simp [h]

theorem roomAfter_ne {op : AoAOp T} {room need : Nat} (hg : need ≤ growth op need) :
    (roomAfter op room need = room) ↔ tooSmall room need = false := by
  unfold roomAfter
  cases h : tooSmall room need
  · simp
  · simp only [if_true, Bool.true_eq_false, iff_false]
    unfold tooSmall at h
    have := of_decide_eq_true h
    omega

theorem need_le_growth (op : AoAOp T) (n : Nat) : n ≤ growth op n := by
  cases op <;> simp only [growth] <;> omega

/-- A view is told apart from the current storage in the same way before and after a call. -/
theorem moved_iff {op : AoAOp T} {room need a p f r q : Nat} (hp : p < f) (hq : q ≤ r) (h : p = a ↔ q = r) :
    (p = movedTo room (roomAfter op room need) a f ↔ q = r + (tooSmall room need).toNat) := by
  unfold movedTo
  cases hs : tooSmall room need
  · rw [if_pos ((roomAfter_ne (need_le_growth op need)).2 hs)]
    simpa using h
  · rw [if_neg (fun e => by have := (roomAfter_ne (need_le_growth op need)).1 e; rw [hs] at this; cases this)]
    constructor
    · intro e; omega
    · intro e; simp at e; omega

theorem movedTo_lt {x y a f : Nat} (h : a < f) : movedTo x y a f < f + 1 := by
  unfold movedTo; split <;> omega

/-- In debug builds, no empty range is inserted. -/
def NoEmptyRange : RowStmt T → Prop
  | .call op => op.nonEmptyInsert
  | .edit _ e => e.nonEmptyInsert
  | _ => True

theorem RInv.step {w : RowWorld T} {s s' : RowShelf T} {st : RowStmt T} {x : Option (RowAnswer T)} (I : RInv w s)
    (hd : c.debug = true → NoEmptyRange st) (hs : rowsStep c.trivial s st = some (s', x)) :
    ∃ w', w.step c st = .ok (w', x) ∧ RInv w' s' := by
  cases st with
  | call op =>
    simp only [rowsStep, Option.bind_eq_some_iff, Option.ite_none_left_eq_some, Option.some.injEq, Prod.mk.injEq] at hs
    obtain ⟨rows, h1, h2, rfl, rfl⟩ := hs
    have hr := I.room
    have e1 : w.obj.shape.sizes.cap = s.room.sizes := by rw [← hr]; rfl
    have e2 : w.obj.shape.offsets.cap = s.room.offsets := by rw [← hr]; rfl
    have e3 : w.obj.values.cap = s.room.values := by rw [← hr]; rfl
    have hroom : Room c w.obj s.rows (needed op rows) := by
      unfold Room
      rw [e3]
      by_cases hn : needed op rows ≤ s.room.values
      · exact .inl hn
      · right
        have : tooSmall s.room.values (needed op rows) = true := by unfold tooSmall; simpa using hn
        rw [this] at h2
        unfold Lay.Movable
        cases ht : c.trivial with
        | true => exact .inl rfl
        | false =>
          right
          rw [ht] at h2
          simp only [Bool.not_false, Bool.and_true, Bool.true_and, Bool.not_eq_true', Bool.not_eq_false] at h2
          unfold noGaps at h2
          intro r hr
          have := List.all_eq_true.1 h2 r hr
          simpa using this
    rcases step_exact c I.good op h1 hd with ⟨_, a', k1, k2, _⟩ | ⟨k1, _⟩
    · have k3 := step_room I.good op h1 k1
      have c1 : a'.shape.sizes.cap = roomAfter op s.room.sizes (needs op s.rows rows).sizes := by
        rw [← e1]; exact congrArg Three.sizes k3
      have c2 : a'.shape.offsets.cap = roomAfter op s.room.offsets (needs op s.rows rows).offsets := by
        rw [← e2]; exact congrArg Three.offsets k3
      have c3 : a'.values.cap = roomAfter op s.room.values (needs op s.rows rows).values := by
        rw [← e3]; exact congrArg Three.values k3
      refine ⟨{ obj := a',
                 addr := ⟨movedTo w.obj.shape.sizes.cap a'.shape.sizes.cap w.addr.sizes w.fresh,
                   movedTo w.obj.shape.offsets.cap a'.shape.offsets.cap w.addr.offsets w.fresh,
                   movedTo w.obj.values.cap a'.values.cap w.addr.values w.fresh⟩,
                 fresh := w.fresh + 1, views := w.views },
        by simp only [RowWorld.step, k1, bind_ok], k2, ?_, ?_, I.none, ?_⟩
      · simp only [k3, e1, e2, e3]
      · exact ⟨movedTo_lt I.addr.1, movedTo_lt I.addr.2.1, movedTo_lt I.addr.2.2⟩
      · intro v p q hp hq
        have V := I.view v p q hp hq
        refine ⟨V.num, ?_, ?_, ?_, ?_, ?_⟩
        · simp only [c1, e1]; exact moved_iff V.known.1 V.past.1 V.sizes
        · simp only [c2, e2]; exact moved_iff V.known.2.1 V.past.2.1 V.offsets
        · simp only [c3, e3]; exact moved_iff V.known.2.2 V.past.2.2 V.values
        · have := V.known; simp only; omega
        · have := V.past; simp only; omega
    · exact absurd hroom k1
  | take v =>
    simp only [rowsStep, Option.some.injEq, Prod.mk.injEq] at hs
    obtain ⟨rfl, rfl⟩ := hs
    refine ⟨_, rfl, I.good, I.room, I.addr, ?_, ?_⟩
    · intro u
      simp only [upd]
      split
      · simp
      · exact I.none u
    · intro u p q hp hq
      simp only [upd] at hp hq
      split at hp
      · rw [if_pos (by assumption)] at hq
        cases hp; cases hq
        exact ⟨I.num, by simp, by simp, by simp, I.addr, by simp⟩
      · rw [if_neg (by assumption)] at hq
        have V := I.view u p q hp hq
        exact ⟨V.num, V.sizes, V.offsets, V.values, V.known, V.past⟩
  | dup v u =>
    simp only [rowsStep, Option.map_eq_some_iff, Prod.mk.injEq] at hs
    obtain ⟨q0, h1, rfl, rfl⟩ := hs
    obtain ⟨p0, h2, h3, V0⟩ := I.lookup h1
    refine ⟨{ w with views := upd w.views v (some p0) }, by simp only [RowWorld.step, h3, bind_ok], I.good, I.room, I.addr, ?_, ?_⟩
    · intro k
      simp only [upd]
      split
      · simp
      · exact I.none k
    · intro k p q hp hq
      simp only [upd] at hp hq
      split at hp
      · rw [if_pos (by assumption)] at hq
        cases hp; cases hq
        exact ⟨V0.num, V0.sizes, V0.offsets, V0.values, V0.known, V0.past⟩
      · rw [if_neg (by assumption)] at hq
        have V := I.view k p q hp hq
        exact ⟨V.num, V.sizes, V.offsets, V.values, V.known, V.past⟩
  | ask q =>
    simp only [rowsStep, Option.map_eq_some_iff, Prod.mk.injEq] at hs
    obtain ⟨y, h1, rfl, rfl⟩ := hs
    have := answer_ok (c := c) I.good h1
    rw [← I.num] at this
    exact ⟨w, by simp only [RowWorld.step]; rw [show w.obj.answer c q = .ok y from this, bind_ok], I⟩
  | askView v q =>
    simp only [rowsStep, Option.bind_eq_some_iff, Option.ite_none_right_eq_some, Option.map_eq_some_iff, Prod.mk.injEq] at hs
    obtain ⟨q0, h1, h2, y, h3, rfl, rfl⟩ := hs
    obtain ⟨p0, _, h5, V⟩ := I.lookup h1
    refine ⟨w, ?_, I⟩
    have h4 := answer_ok (c := c) I.good h3
    rw [← V.num] at h4
    have h6 : (w.through p0).answer c q = .ok y := by
      rw [← h4]
      cases q with
      | size => rfl
      | sizeOfArray i =>
        have e : p0.2.sizes = w.addr.sizes := V.sizes.2 (by simpa [inPlace] using h2)
        simp [AoA.answer, Shape.sizeOfArray, Shape.checkBounds, RowWorld.through, follow, AoA.withNum, Shape.withNum, e]
        rfl
      | capacityOfArray i =>
        have e : p0.2.offsets = w.addr.offsets := V.offsets.2 (by simpa [inPlace] using h2)
        simp [AoA.answer, Shape.capacityOfArray, Shape.checkBounds, RowWorld.through, follow, AoA.withNum, Shape.withNum, e]
        rfl
      | get i j =>
        have e : q0.2 = s.replaced := by simpa [inPlace] using h2
        have e' : p0.2 = w.addr := by
          have a1 := V.sizes.2 (by rw [e])
          have a2 := V.offsets.2 (by rw [e])
          have a3 := V.values.2 (by rw [e])
          cases hh : p0.2; cases hw : w.addr
          rw [hh, hw] at a1 a2 a3
          simp only at a1 a2 a3
          rw [a1, a2, a3]
        rw [through_eq e']
    simp only [RowWorld.step, h5, bind_ok, h6]
  | edit v e =>
    simp only [rowsStep, Option.bind_eq_some_iff, Option.ite_none_right_eq_some, Option.map_eq_some_iff, Prod.mk.injEq] at hs
    obtain ⟨q0, h1, h2, rows, h3, rfl, rfl⟩ := hs
    obtain ⟨p0, _, h5, V⟩ := I.lookup h1
    have e' : p0.2 = w.addr := by
      have a1 := V.sizes.2 (by rw [h2])
      have a2 := V.offsets.2 (by rw [h2])
      have a3 := V.values.2 (by rw [h2])
      cases hh : p0.2; cases hw : w.addr
      rw [hh, hw] at a1 a2 a3
      simp only at a1 a2 a3
      rw [a1, a2, a3]
    rw [← V.num] at h3
    obtain ⟨a', k1, k2, k3, k4, k5, k6⟩ := edit_ok (c := c) I.good h3 hd
    refine ⟨w.putBack p0 (a'.withNum p0.1), ?_, ?_, ?_, I.addr, I.none, ?_⟩
    · simp only [RowWorld.step, h5, bind_ok, through_eq e', k1]
    · have : (w.putBack p0 (a'.withNum p0.1)).obj = a' := by
        unfold RowWorld.putBack AoA.withNum Shape.withNum
        simp only [e', if_true, ← k4]
      rw [this]; exact k2
    · have : (w.putBack p0 (a'.withNum p0.1)).obj = a' := by
        unfold RowWorld.putBack AoA.withNum Shape.withNum
        simp only [e', if_true, ← k4]
      rw [this, k3]; exact I.room
    · intro k p q hp hq
      have V := I.view k p q hp hq
      exact ⟨V.num, V.sizes, V.offsets, V.values, V.known, V.past⟩

theorem RInv.run {sts : List (RowStmt T)} : ∀ {w : RowWorld T} {s s' : RowShelf T} {xs : List (RowAnswer T)}, RInv w s →
    (c.debug = true → ∀ st ∈ sts, NoEmptyRange st) → rowsRun c.trivial s sts = some (s', xs) →
    ∃ w', w.run c sts = .ok (w', xs) ∧ RInv w' s' := by
  induction sts with
  | nil =>
    intro w s s' xs I _ h
    simp only [rowsRun, Option.some.injEq, Prod.mk.injEq] at h
    obtain ⟨rfl, rfl⟩ := h
    exact ⟨w, rfl, I⟩
  | cons st sts ih =>
    intro w s s' xs I hd h
    simp only [rowsRun, Option.bind_eq_some_iff, Option.map_eq_some_iff, Prod.mk.injEq] at h
    obtain ⟨⟨s1, x⟩, h1, ⟨s2, ys⟩, h2, rfl, rfl⟩ := h
    obtain ⟨w1, k1, I1⟩ := I.step (fun hdb => hd hdb st (by simp)) h1
    obtain ⟨w2, k2, I2⟩ := ih I1 (fun hdb st' h' => hd hdb st' (by simp [h'])) h2
    refine ⟨w2, ?_, I2⟩
    unfold RowWorld.run
    rw [k1, bind_ok]
    simp only
    rw [k2, bind_ok]

/-- **C82** (what views show).  For every program with an `ArrayOfArrays` and views of it: if the specification allows it, it runs
without error and gets exactly the answers of the specification, in which a view goes on sharing the arrays with the object until
the storage it uses is replaced, and in which a storage is replaced only by a call that needs more room than there is. -/
theorem C82_views (c : Cfg) (n d : Nat) (program : List (RowStmt T)) (hd : c.debug = true → ∀ st ∈ program, NoEmptyRange st)
    {s : RowShelf T} {answers : List (RowAnswer T)} (h : rowsRun c.trivial (RowShelf.init T n d) program = some (s, answers)) :
    ∃ w0 w : RowWorld T, RowWorld.construct c n d = .ok w0 ∧ w0.run c program = .ok (w, answers) := by
  obtain ⟨w0, h1, I⟩ := RInv.start (T := T) (c := c) (n := n) (d := d)
  obtain ⟨w, h2, _⟩ := I.run hd h
  exact ⟨w0, w, h1, h2⟩

/-- A program with room reserved: the view shows what the object gets, the object what the view writes. -/
def sharingProgram : List (RowStmt Nat) :=
  [.call (.reserve 4), .call (.reserveValues 32), .take 0, .call (.emplaceBack 0 5), .call (.appendArray [7]), .askView 0 (.get 0 0),
    .askView 0 .size, .ask .size, .edit 0 (.emplaceBack 1 9), .ask (.get 1 0), .dup 1 0, .edit 1 (.eraseFromArray 0 0 1),
    .askView 0 (.sizeOfArray 0), .askView 0 (.capacityOfArray 0)]

/-- The hypotheses of `C82_views`, and the answers. -/
example : (rowsRun true (RowShelf.init Nat 2 4) sharingProgram).map (·.2) =
    some [.val 5, .num 2, .num 3, .val 9, .num 0, .num 4] := by decide +kernel

example : ∀ st ∈ sharingProgram, NoEmptyRange st := by
  intro st h
  simp only [sharingProgram, List.mem_cons, List.not_mem_nil, or_false] at h
  rcases h with rfl | rfl | rfl | rfl | rfl | rfl | rfl | rfl | rfl | rfl | rfl | rfl | rfl | rfl <;> simp [NoEmptyRange, AoAOp.nonEmptyInsert,
    RowEdit.nonEmptyInsert]


/-! ## Views whose storage was replaced -/

/-- What the object looks like, at one array, through a view with some pointers gone. -/
structure Looks (c : Cfg) (a : AoA T) (i : Nat) (xs : List T) (S O V : Prop) : Prop where
  num : i < a.shape.numArrays
  size : S → a.shape.sizes.read i = .ok xs.length
  noSize : ¬ S → ∀ k, a.shape.sizes.read k = .error (.ub .outOfBounds)
  offset : O → ∃ p, a.shape.offsets.read i = .ok p
  noOffset : ¬ O → ∀ k, a.shape.offsets.read k = .error (.ub .outOfBounds)
  noValue : ¬ V → ∀ k, a.values.read k = .error (.ub .outOfBounds)
  noWrite : ¬ V → ∀ k v, a.values.write c k v = .error (.ub .outOfBounds)

section
variable {a : AoA T} {i : Nat} {xs : List T} {S O V : Prop}

theorem Looks.bounds (h : Looks c a i xs S O V) : a.shape.checkBounds c i = .ok () := by
  have : decide (a.shape.numArrays ≤ i) = false := by have := h.num; simp; omega
  unfold Shape.checkBounds errorIf
  simp [this]

theorem Looks.sizeOf (h : Looks c a i xs S O V) : a.shape.sizeOfArray c i = a.shape.sizes.read i := by
  unfold Shape.sizeOfArray
  rw [h.bounds, bind_ok]

theorem Looks.bounds2 (h : Looks c a i xs S O V) (hS : S) {j : Nat} (hj : j < xs.length) : a.shape.checkBounds2 c i j = .ok () := by
  have h1 : ¬ (a.shape.numArrays ≤ i) := by have := h.num; omega
  have h2 : decide (xs.length ≤ j) = false := by simp; omega
  unfold Shape.checkBounds2
  rw [if_neg h1, h.size hS, bind_ok, h2]
  simp [errorIf]

theorem Looks.bounds2_off (hb : c.boundsCheck = false) {j : Nat} : a.shape.checkBounds2 c i j = .ok () := by
  unfold Shape.checkBounds2; simp [hb]

theorem Looks.bounds2_on (h : Looks c a i xs S O V) (hS : ¬ S) (hb : c.boundsCheck = true) {j : Nat} :
    a.shape.checkBounds2 c i j = .error (.ub .outOfBounds) := by
  have h1 : ¬ (a.shape.numArrays ≤ i) := by have := h.num; omega
  unfold Shape.checkBounds2
  rw [if_pos hb, if_neg h1, h.noSize hS, bind_err]

/-- An expression that checks the bounds and then needs an offset and the size. -/
theorem Looks.two {α : Type} (h : Looks c a i xs S O V) (hn : ¬ (S ∧ O)) (f : Nat → Nat → R α) :
    (do let p ← a.ptr i; let n ← a.shape.sizeOfArray c i; f p n) = .error (.ub .outOfBounds) := by
  by_cases hO : O
  · obtain ⟨p, hp⟩ := h.offset hO
    unfold AoA.ptr
    rw [hp, bind_ok, h.sizeOf, h.noSize (fun hS => hn ⟨hS, hO⟩), bind_err]
  · unfold AoA.ptr
    rw [h.noOffset hO, bind_err]

theorem Looks.checked {α : Type} (h : Looks c a i xs S O V) (hn : ¬ (S ∧ O)) (k : Nat) {x : R α}
    (hx : x = .error (.ub .outOfBounds)) : (do a.shape.capacityCheck c i k; x) = .error (.ub .outOfBounds) := by
  unfold Shape.capacityCheck
  cases hb : c.boundsCheck
  · simpa using hx
  · rw [if_pos rfl, h.sizeOf]
    by_cases hS : S
    · have hO : ¬ O := fun hO => hn ⟨hS, hO⟩
      unfold Shape.capacityOfArray
      rw [h.size hS, bind_ok, h.bounds, bind_ok, h.noOffset hO, bind_err, bind_err, bind_err]
    · rw [h.noSize hS, bind_err, bind_err]

theorem Looks.within {α : Type} (h : Looks c a i xs S O V) {j : Nat} (hj : j < xs.length) {x : R α}
    (hx : x = .error (.ub .outOfBounds)) : (do a.shape.checkBounds2 c i j; x) = .error (.ub .outOfBounds) := by
  by_cases hS : S
  · rw [h.bounds2 hS hj, bind_ok, hx]
  · cases hb : c.boundsCheck
    · rw [Looks.bounds2_off hb, bind_ok, hx]
    · rw [h.bounds2_on hS hb, bind_err]

theorem Looks.atMost {α : Type} (h : Looks c a i xs S O V) {j : Nat} (hj : j ≤ xs.length) {x : R α}
    (hx : x = .error (.ub .outOfBounds)) : (do a.shape.checkInsertBounds2 c i j; x) = .error (.ub .outOfBounds) := by
  have h1 : ¬ (a.shape.numArrays ≤ i) := by have := h.num; omega
  have h2 : decide (xs.length < j) = false := by simp; omega
  unfold Shape.checkInsertBounds2
  cases hb : c.boundsCheck
  · simpa using hx
  · rw [if_pos rfl, if_neg h1]
    by_cases hS : S
    · rw [h.size hS, bind_ok, h2]
      simpa [errorIf] using hx
    · rw [h.noSize hS, bind_err, bind_err]

theorem Looks.element {α : Type} (h : Looks c a i xs S O V) {j : Nat} (hj : j < xs.length)
    (hn : ¬ O ∨ ¬ V ∨ c.boundsCheck = true ∧ ¬ S) (f : Nat → R α) (hf : ¬ V → ∀ p, f p = .error (.ub .outOfBounds)) :
    (do a.shape.checkBounds2 c i j; let p ← a.ptr i; f p) = .error (.ub .outOfBounds) := by
  rcases hn with hO | hV | ⟨hb, hS⟩
  · refine h.within hj ?_
    unfold AoA.ptr
    rw [h.noOffset hO, bind_err]
  · refine h.within hj ?_
    by_cases hO : O
    · obtain ⟨p, hp⟩ := h.offset hO
      unfold AoA.ptr
      rw [hp, bind_ok, hf hV]
    · unfold AoA.ptr
      rw [h.noOffset hO, bind_err]
  · rw [h.bounds2_on hS hb, bind_err]

end

theorem RInv.looks {w : RowWorld T} {s : RowShelf T} (I : RInv w s) {p q : Nat × Three Nat} (V : SameView w s p q) {i : Nat}
    {r : List T × Nat} (hi : i < q.1) (hr : s.rows[i]? = some r) :
    Looks c (w.through p) i r.1 (q.2.sizes = s.replaced.sizes) (q.2.offsets = s.replaced.offsets) (q.2.values = s.replaced.values) := by
  obtain ⟨hi', hr⟩ := List.getElem?_eq_some_iff.1 hr
  obtain ⟨A, xs, cap, B, hL, rfl, _⟩ := split1 hi'
  have : r = (xs, cap) := by rw [← hr]; simp [hL]
  subst this
  have hg := I.good.shape
  rw [hL] at hg
  have hn : w.obj.shape.checkBounds { c with boundsCheck := false } A.length = .ok () := by
    unfold Shape.checkBounds errorIf; simp
  refine ⟨by show A.length < p.1; rw [V.num]; exact hi, ?_, ?_, ?_, ?_, ?_, ?_⟩
  · intro h
    have k := hg.sizeOfAt (c := { c with boundsCheck := false }) rfl
    unfold Shape.sizeOfArray at k
    rw [hn, bind_ok] at k
    show (follow p.2.sizes w.addr.sizes w.obj.shape.sizes).read A.length = _
    unfold follow
    rw [if_pos (V.sizes.2 h), k]
  · intro h k
    show (follow p.2.sizes w.addr.sizes w.obj.shape.sizes).read k = _
    unfold follow
    rw [if_neg (fun e => h (V.sizes.1 e))]
    rfl
  · intro h
    have k := hg.capacityOfAt (c := { c with boundsCheck := false }) rfl
    unfold Shape.capacityOfArray at k
    rw [hn, bind_ok] at k
    obtain ⟨n1, _, k⟩ := bind_eq_ok.1 k
    obtain ⟨n2, k2, _⟩ := bind_eq_ok.1 k
    refine ⟨n2, ?_⟩
    show (follow p.2.offsets w.addr.offsets w.obj.shape.offsets).read A.length = _
    unfold follow
    rw [if_pos (V.offsets.2 h), k2]
  · intro h k
    show (follow p.2.offsets w.addr.offsets w.obj.shape.offsets).read k = _
    unfold follow
    rw [if_neg (fun e => h (V.offsets.1 e))]
    rfl
  · intro h k
    show (follow p.2.values w.addr.values w.obj.values).read k = _
    unfold follow
    rw [if_neg (fun e => h (V.values.1 e))]
    rfl
  · intro h k v
    show (follow p.2.values w.addr.values w.obj.values).write c k v = _
    unfold follow
    rw [if_neg (fun e => h (V.values.1 e))]
    rfl

/-- **C82** (after the storage was replaced).  After every legal program: a question to a view that would be legal on the current
arrays, but concerns a storage that was replaced since the view was taken, is undefined behaviour: no bounds check notices. -/
theorem C82_gone (c : Cfg) (n d : Nat) (program : List (RowStmt T)) (hd : c.debug = true → ∀ st ∈ program, NoEmptyRange st)
    {s : RowShelf T} {answers : List (RowAnswer T)} (h : rowsRun c.trivial (RowShelf.init T n d) program = some (s, answers))
    {v : Nat} {seen : Nat × Three Nat} (hv : s.views v = some seen) {q : RowQuery} {x : RowAnswer T}
    (hx : answer s.rows seen.1 q = some x) (hg : gone c.boundsCheck seen.2 s.replaced q) :
    ∃ w0 w : RowWorld T, RowWorld.construct c n d = .ok w0 ∧ w0.run c program = .ok (w, answers) ∧
      ∃ u, w.step c (.askView v q) = .error (.ub u) := by
  obtain ⟨w0, h1, I⟩ := RInv.start (T := T) (c := c) (n := n) (d := d)
  obtain ⟨w, h2, I⟩ := I.run hd h
  refine ⟨w0, w, h1, h2, .outOfBounds, ?_⟩
  obtain ⟨p, _, h5, V⟩ := I.lookup hv
  simp only [RowWorld.step, h5, bind_ok]
  cases q with
  | size => exact absurd hg id
  | sizeOfArray i =>
    simp only [Spec.answer, Option.ite_none_right_eq_some, Option.map_eq_some_iff] at hx
    obtain ⟨hi, r, hr, rfl⟩ := hx
    have k := I.looks (c := c) V hi hr
    simp only [AoA.answer, k.sizeOf, k.noSize hg, bind_err]
  | capacityOfArray i =>
    simp only [Spec.answer, Option.ite_none_right_eq_some, Option.map_eq_some_iff] at hx
    obtain ⟨hi, r, hr, rfl⟩ := hx
    have k := I.looks (c := c) V hi hr
    simp only [AoA.answer, Shape.capacityOfArray, k.bounds, k.noOffset hg, bind_ok, bind_err]
  | get i j =>
    simp only [Spec.answer, Option.ite_none_right_eq_some, Option.bind_eq_some_iff, Option.map_eq_some_iff] at hx
    obtain ⟨hi, r, hr, y, hy, rfl⟩ := hx
    obtain ⟨hj, -⟩ := List.getElem?_eq_some_iff.1 hy
    have k := I.looks (c := c) V hi hr
    have e : (w.through p).get c i j = .error (.ub .outOfBounds) :=
      k.element hj hg (fun p' => (w.through p).values.read (p' + j)) (fun hV p' => k.noValue hV _)
    simp only [AoA.answer, e, bind_err]

/-- A program after which the sizes and the offsets a view knows are gone, and the elements are where they were. -/
def outgrownProgram : List (RowStmt Nat) := [.take 0, .call (.emplaceBack 0 5), .call (.appendArraySize 0)]

/-- The hypotheses of `C82_gone`, with every question that is undefined, and of `C82_gone_edit`. -/
example : (rowsRun false (RowShelf.init Nat 2 4) outgrownProgram).map (fun r => (r.1.rows, r.1.room, r.1.replaced, r.1.views 0)) =
    some ([([5], 4), ([], 4), ([], 0)], ⟨6, 8, 8⟩, ⟨1, 1, 0⟩, some (2, ⟨0, 0, 0⟩)) := by rfl

example : answer [([5], 4), ([], 4), ([], 0)] 2 (.get 0 0) = some (.val 5) ∧ gone false ⟨0, 0, 0⟩ ⟨1, 1, 0⟩ (.get 0 0) ∧
    gone true ⟨0, 0, 0⟩ ⟨1, 1, 0⟩ (.sizeOfArray 1) ∧ gone true ⟨0, 0, 0⟩ ⟨1, 1, 0⟩ (.capacityOfArray 1) ∧
    edited [([5], 4), ([], 4), ([], 0)] 2 (.emplaceBack 1 9) = some [([5], 4), ([9], 4), ([], 0)] ∧
    goneFor true ⟨0, 0, 0⟩ ⟨1, 1, 0⟩ (RowEdit.emplaceBack 1 9) := by
  refine ⟨by decide +kernel, .inl (by decide), ?_, ?_, by decide +kernel, .inl (by decide)⟩
  · show (0 : Nat) ≠ 1; decide
  · show (0 : Nat) ≠ 1; decide

theorem edited_row {L L' : List (List T × Nat)} {n : Nat} {e : RowEdit T} (h : edited L n e = some L') :
    e.row < n ∧ vvcStep L e.asCall = some L' := by
  unfold edited at h
  simp only [Option.ite_none_right_eq_some, Option.bind_eq_some_iff] at h
  obtain ⟨h1, L1, h2, h3, h4⟩ := h
  cases h4
  exact ⟨h1, h2⟩

theorem row_at {A B : Layout T} {r : List T × Nat} {i : Nat} (h : A.length = i) : (A ++ r :: B)[i]? = some r := by
  subst h; simp

/-- **C82** (after the storage was replaced, changes).  The same for a change through the view. -/
theorem C82_gone_edit (c : Cfg) (n d : Nat) (program : List (RowStmt T)) (hd : c.debug = true → ∀ st ∈ program, NoEmptyRange st)
    {s : RowShelf T} {answers : List (RowAnswer T)} (h : rowsRun c.trivial (RowShelf.init T n d) program = some (s, answers))
    {v : Nat} {seen : Nat × Three Nat} (hv : s.views v = some seen) {e : RowEdit T} {rows : List (List T × Nat)}
    (hx : edited s.rows seen.1 e = some rows) (hg : goneFor c.boundsCheck seen.2 s.replaced e) :
    ∃ w0 w : RowWorld T, RowWorld.construct c n d = .ok w0 ∧ w0.run c program = .ok (w, answers) ∧
      ∃ u, w.step c (.edit v e) = .error (.ub u) := by
  obtain ⟨w0, h1, I⟩ := RInv.start (T := T) (c := c) (n := n) (d := d)
  obtain ⟨w, h2, I⟩ := I.run hd h
  refine ⟨w0, w, h1, h2, .outOfBounds, ?_⟩
  obtain ⟨p, _, h5, V⟩ := I.lookup hv
  simp only [RowWorld.step, h5, bind_ok]
  obtain ⟨hi, hx⟩ := edited_row hx
  suffices key : (w.through p).edit c e = .error (.ub .outOfBounds) by simp only [key, bind_err]
  cases e with
  | set i j y =>
    simp only [RowEdit.asCall, vvcStep] at hx
    obtain ⟨A, xs, cap, B, hL, hA, hj, _⟩ := onRowC_some hx
    have k := I.looks (c := c) V hi (by rw [hL]; exact row_at hA)
    exact k.element (by simpa using hj) hg
      (fun p' => do
        let values ← (w.through p).values.write c (p' + j) y
        .ok { w.through p with values := values })
      (fun hV p' => by simp only [k.noWrite hV, bind_err])
  | emplaceBack i y =>
    simp only [RowEdit.asCall, vvcStep] at hx
    obtain ⟨A, xs, cap, B, hL, hA, hj, _⟩ := onRowC_some hx
    have k := I.looks (c := c) V hi (by rw [hL]; exact row_at hA)
    have hn : ¬ (seen.2.sizes = s.replaced.sizes ∧ seen.2.offsets = s.replaced.offsets) := by
      rintro ⟨e1, e2⟩; rcases hg with hg | hg <;> contradiction
    simp only [AoA.edit, AoA.viewEmplaceBack]
    rw [show (w.through p).shape.checkBounds c i = .ok () from k.bounds, bind_ok]
    exact k.checked hn 1 (k.two hn _)
  | appendToArray i ys =>
    simp only [RowEdit.asCall, vvcStep] at hx
    obtain ⟨A, xs, cap, B, hL, hA, hj, _⟩ := onRowC_some hx
    have k := I.looks (c := c) V hi (by rw [hL]; exact row_at hA)
    have hn : ¬ (seen.2.sizes = s.replaced.sizes ∧ seen.2.offsets = s.replaced.offsets) := by
      rintro ⟨e1, e2⟩; rcases hg with hg | hg <;> contradiction
    simp only [AoA.edit, AoA.viewAppendToArray]
    rw [show (w.through p).shape.checkBounds c i = .ok () from k.bounds, bind_ok]
    exact k.two hn _
  | emplace i j y =>
    simp only [RowEdit.asCall, vvcStep] at hx
    obtain ⟨A, xs, cap, B, hL, hA, hj, _⟩ := onRowC_some hx
    have k := I.looks (c := c) V hi (by rw [hL]; exact row_at hA)
    have hn : ¬ (seen.2.sizes = s.replaced.sizes ∧ seen.2.offsets = s.replaced.offsets) := by
      rintro ⟨e1, e2⟩; rcases hg with hg | hg <;> contradiction
    simp only [AoA.edit, AoA.viewEmplace]
    exact k.atMost (by simpa using hj) (k.checked hn 1 (k.two hn _))
  | insertIntoArray i j ys =>
    simp only [RowEdit.asCall, vvcStep] at hx
    obtain ⟨A, xs, cap, B, hL, hA, hj, _⟩ := onRowC_some hx
    have k := I.looks (c := c) V hi (by rw [hL]; exact row_at hA)
    have hn : ¬ (seen.2.sizes = s.replaced.sizes ∧ seen.2.offsets = s.replaced.offsets) := by
      rintro ⟨e1, e2⟩; rcases hg with hg | hg <;> contradiction
    simp only [AoA.edit, AoA.viewInsertIntoArray]
    exact k.atMost (by simpa using hj) (k.checked hn _ (k.two hn _))
  | eraseFromArray i j m =>
    simp only [RowEdit.asCall, vvcStep] at hx
    obtain ⟨A, xs, cap, B, hL, hA, hj, _⟩ := onRowC_some hx
    have k := I.looks (c := c) V hi (by rw [hL]; exact row_at hA)
    have hn : ¬ (seen.2.sizes = s.replaced.sizes ∧ seen.2.offsets = s.replaced.offsets) := by
      rintro ⟨e1, e2⟩; rcases hg with hg | hg <;> contradiction
    simp only [decide_eq_true_eq] at hj
    simp only [AoA.edit, AoA.eraseFromArray]
    exact k.within hj.1 (k.two hn _)

/-! ## Calls that fit in the room there is -/

theorem roomAfter_fit {op : AoAOp T} {room need : Nat} (h : need ≤ room) : roomAfter op room need = room := by
  unfold roomAfter tooSmall
  rw [if_neg (by simp; omega)]

theorem tooSmall_fit {room need : Nat} (h : need ≤ room) : tooSmall room need = false := by
  unfold tooSmall; simp; omega

theorem needed_fit {op : AoAOp T} {L L' : List (List T × Nat)} {k : Nat} (hs : vvcStep L op = some L')
    (hL : (L.map (·.2)).sum ≤ k) (hn : (needs op L L').values ≤ k) : needed op L' ≤ k ∧ (L'.map (·.2)).sum ≤ k := by
  cases op with
  | reserve n => simp only [vvcStep, Option.some.injEq] at hs; subst hs; exact ⟨hL, hL⟩
  | reserveValues n => simp only [vvcStep, Option.some.injEq] at hs; subst hs; exact ⟨hn, hL⟩
  | resizeFromCapacities cs => exact ⟨Nat.zero_le _, hn⟩
  | _ => exact ⟨hn, hn⟩

theorem fit_run (b : Bool) {ops : List (AoAOp T)} : ∀ {s : RowShelf T}, (s.rows.map (·.2)).sum ≤ s.room.values →
    fitIn s.room s.rows ops → ∃ L', vvcRun s.rows ops = some L' ∧ rowsRun b s (ops.map .call) = some ({ s with rows := L' }, []) := by
  induction ops with
  | nil => intro s _ _; exact ⟨s.rows, rfl, rfl⟩
  | cons op ops ih =>
    intro s hL h
    obtain ⟨L', h1, h2, h3, h4, h5⟩ := h
    obtain ⟨k1, k2⟩ := needed_fit h1 hL h4
    obtain ⟨L'', k3, k4⟩ := ih (s := { s with rows := L' }) k2 h5
    refine ⟨L'', by simp only [vvcRun, h1]; exact k3, ?_⟩
    simp only [List.map_cons, rowsRun, rowsStep, h1, Option.bind_some, tooSmall_fit k1, roomAfter_fit h2, roomAfter_fit h3,
      roomAfter_fit h4, tooSmall_fit h2, tooSmall_fit h3, tooSmall_fit h4, Bool.false_and, Bool.false_eq_true, if_false,
      Bool.toNat_false, Nat.add_zero]
    rw [k4]
    rfl

theorem rowsRun_append (b : Bool) {P Q : List (RowStmt T)} : ∀ {s s1 s2 : RowShelf T} {xs ys : List (RowAnswer T)},
    rowsRun b s P = some (s1, xs) → rowsRun b s1 Q = some (s2, ys) → rowsRun b s (P ++ Q) = some (s2, xs ++ ys) := by
  induction P with
  | nil =>
    intro s s1 s2 xs ys h k
    simp only [rowsRun, Option.some.injEq, Prod.mk.injEq] at h
    obtain ⟨rfl, rfl⟩ := h
    exact k
  | cons st P ih =>
    intro s s1 s2 xs ys h k
    simp only [rowsRun, Option.bind_eq_some_iff, Option.map_eq_some_iff, Prod.mk.injEq] at h
    obtain ⟨⟨s3, x⟩, h1, ⟨s4, zs⟩, h2, rfl, rfl⟩ := h
    simp only [List.cons_append, rowsRun, h1, Option.bind_some, ih h2 k, Option.map_some, List.append_assoc]

/-- **C82** (room).  After every legal program: a view taken since a storage was last replaced survives every sequence of calls
that never needs more arrays or more capacity than there is room for, and then answers every question (about the arrays there were
when it was taken and still are) as the object does. -/
theorem C82_room (c : Cfg) (n d : Nat) (program : List (RowStmt T)) {s : RowShelf T} {answers : List (RowAnswer T)}
    (h : rowsRun c.trivial (RowShelf.init T n d) program = some (s, answers)) {v : Nat} {seen : Nat × Three Nat}
    (hv : s.views v = some seen) (hnow : seen.2 = s.replaced) (ops : List (AoAOp T)) (hfit : fitIn s.room s.rows ops)
    (hd : c.debug = true → (∀ st ∈ program, NoEmptyRange st) ∧ ∀ op ∈ ops, op.nonEmptyInsert) :
    ∃ L', vvcRun s.rows ops = some L' ∧ ∀ q x, answer L' seen.1 q = some x →
      ∃ w0 w : RowWorld T, RowWorld.construct c n d = .ok w0 ∧
        w0.run c (program ++ ops.map .call ++ [.askView v q]) = .ok (w, answers ++ [x]) := by
  obtain ⟨w0, h1, I0⟩ := RInv.start (T := T) (c := c) (n := n) (d := d)
  obtain ⟨w, h2, I⟩ := I0.run (fun hdb => (hd hdb).1) h
  have hcap : (s.rows.map (·.2)).sum ≤ s.room.values := by
    rw [← I.room]; exact I.good.lay.room
  obtain ⟨L', h3, h4⟩ := fit_run c.trivial hcap hfit
  refine ⟨L', h3, ?_⟩
  intro q x hx
  have h5 := rowsRun_append c.trivial h h4
  have h6 : rowsRun c.trivial { s with rows := L' } [.askView v q] = some ({ s with rows := L' }, [x]) := by
    have : inPlace seen.2 s.replaced q = true := by rw [hnow]; cases q <;> simp [inPlace]
    simp only [rowsRun, rowsStep, hv, Option.bind_some, this, if_true, hx, Option.map_some]
    rfl
  have h7 := rowsRun_append c.trivial h5 h6
  obtain ⟨w', h8, _⟩ := I0.run (c := c) (fun hdb st hst => by
    simp only [List.mem_append, List.mem_map, List.mem_singleton] at hst
    rcases hst with (hst | ⟨op, hop, rfl⟩) | rfl
    · exact (hd hdb).1 st hst
    · exact (hd hdb).2 op hop
    · trivial) h7
  exact ⟨w0, w', h1, by simpa using h8⟩

/-- The hypotheses of `C82_room`: room for two more arrays and for 32 elements, and calls that use it. -/
example : (rowsRun false (RowShelf.init Nat 2 4) [.call (.reserve 4), .call (.reserveValues 32), .take 0]).isSome = false ∧
    (rowsRun true (RowShelf.init Nat 2 4) [.call (.reserve 4), .call (.reserveValues 32), .take 0]).map
      (fun r => (r.1.rows, r.1.room, r.1.replaced, r.1.views 0)) =
    some ([([], 4), ([], 4)], ⟨4, 5, 32⟩, ⟨1, 1, 1⟩, some (2, ⟨1, 1, 1⟩)) := by
  exact ⟨by decide +kernel, by rfl⟩

example : fitIn ⟨4, 5, 32⟩ [([], 4), ([], 4)]
    [AoAOp.emplaceBack 0 5, .appendArray [1, 2, 3], .insertArray 0 [8], .setCapacityOfArray 1 9] :=
  ⟨_, rfl, by decide +kernel, by decide +kernel, by decide +kernel, _, rfl, by decide +kernel, by decide +kernel, by decide +kernel,
    _, rfl, by decide +kernel, by decide +kernel, by decide +kernel, _, rfl, by decide +kernel, by decide +kernel, by decide +kernel,
    trivial⟩

end LvArray.Props

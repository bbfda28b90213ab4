import Verif.GoneReads
import Verif.Props.RowViews
import Verif.Props.ArrayOfSets

/-!
# C89: views of an `ArrayOfSets` last until the storage they use is replaced
-/

namespace LvArray.Props

open LvArray Layout Spec RowCaps SetCaps

variable {T : Type} [LinearOrder T] [Inhabited T] {c : Cfg}

/-- A view in the model and in the specification. -/
structure SameSetsView (w : RowWorld T) (s : SetsShelf T) (p q : Nat × Three Nat) : Prop where
  num : p.1 = q.1
  sizes : p.2.sizes = w.addr.sizes ↔ q.2.sizes = s.replaced.sizes
  offsets : p.2.offsets = w.addr.offsets ↔ q.2.offsets = s.replaced.offsets
  values : p.2.values = w.addr.values ↔ q.2.values = s.replaced.values
  known : p.2.sizes < w.fresh ∧ p.2.offsets < w.fresh ∧ p.2.values < w.fresh
  past : q.2.sizes ≤ s.replaced.sizes ∧ q.2.offsets ≤ s.replaced.offsets ∧ q.2.values ≤ s.replaced.values

/-- The model realises the specification. -/
structure SetsInv (w : RowWorld T) (s : SetsShelf T) : Prop where
  good : SetsGood w.obj s.sets
  caps : RepM w.obj.shape.offsets (offs s.caps)
  room : roomOf w.obj = s.room
  addr : w.addr.sizes < w.fresh ∧ w.addr.offsets < w.fresh ∧ w.addr.values < w.fresh
  none : ∀ v, w.views v = none ↔ s.views v = none
  view : ∀ v p q, w.views v = some p → s.views v = some q → SameSetsView w s p q

theorem SetsInv.start {n d : Nat} : ∃ w : RowWorld T, RowWorld.construct c n d = .ok w ∧ SetsInv w (SetsShelf.init T n d) := by
  obtain ⟨a, h1, h2⟩ := mk_good (T := T) c n d
  refine ⟨{ obj := a, addr := ⟨0, 0, 0⟩, fresh := 1, views := fun _ => Option.none }, ?_, ⟨_, h2, by simp [SetsShelf.init]⟩, ?_, ?_, ?_, ?_, ?_⟩
  · unfold RowWorld.construct
    rw [h1, bind_ok]
  · have := ShGood.off h2.shape
    simpa [SetsShelf.init, Layout.caps] using this
  · exact mk_room h1
  · simp
  · intro v; simp [SetsShelf.init]
  · intro v p q h; cases h

omit [Inhabited T] in
theorem SetsInv.lookup {w : RowWorld T} {s : SetsShelf T} (I : SetsInv w s) {v : Nat} {q : Nat × Three Nat} (h : s.views v = some q) :
    ∃ p, w.views v = some p ∧ w.view v = .ok p ∧ SameSetsView w s p q := by
  cases hp : w.views v with
  | none => have := (I.none v).1 hp; rw [h] at this; cases this
  | some p => exact ⟨p, rfl, by unfold RowWorld.view; rw [hp], I.view v p q hp h⟩

omit [Inhabited T] in
theorem sets_num {a : AoA T} {sets : List (Finset T)} (h : SetsGood a sets) : a.shape.numArrays = sets.length := by
  obtain ⟨L, hg, hL⟩ := h
  have : L.length = sets.length := by simpa using congrArg List.length hL
  rw [ShGood.num hg.shape]
  simpa using this

omit [LinearOrder T] [Inhabited T] in
theorem sets_through {w : RowWorld T} {p : Nat × Three Nat} (h : p = (w.obj.shape.numArrays, w.addr)) : w.through p = w.obj := by
  subst h
  unfold RowWorld.through follow
  simp

omit [LinearOrder T] [Inhabited T] in
theorem sets_putBack {w : RowWorld T} {p : Nat × Three Nat} {a : AoA T} (h : p.2 = w.addr)
    (h1 : a.shape.numArrays = w.obj.shape.numArrays) : (w.putBack p a).obj = a := by
  unfold RowWorld.putBack
  simp only [h, if_true, ← h1]

omit [LinearOrder T] [Inhabited T] in
theorem need_le_setGrowth (op : AoSOp T) (n : Nat) : n ≤ setGrowth op n := by
  cases op <;> simp only [setGrowth] <;> omega

omit [LinearOrder T] [Inhabited T] in
theorem setRoom_ne {op : AoSOp T} {room need : Nat} : (setRoom op room need = room) ↔ tooSmall room need = false := by
  have hg := need_le_setGrowth op need
  unfold setRoom
  cases h : tooSmall room need
  · simp
  · simp only [if_true, Bool.true_eq_false, iff_false]
    unfold tooSmall at h
    have := of_decide_eq_true h
    omega

omit [LinearOrder T] [Inhabited T] in
/-- A view is told apart from the current storage in the same way before and after a call. -/
theorem set_moved_iff {op : AoSOp T} {room need a p f r q : Nat} (hp : p < f) (hq : q ≤ r) (h : p = a ↔ q = r) :
    (p = movedTo room (setRoom op room need) a f ↔ q = r + (tooSmall room need).toNat) := by
  unfold movedTo
  cases hs : tooSmall room need
  · rw [if_pos (setRoom_ne.2 hs)]
    simpa using h
  · rw [if_neg (fun e => by have := setRoom_ne.1 e; rw [hs] at this; cases this)]
    constructor
    · intro e; omega
    · intro e; simp at e; omega

omit [LinearOrder T] [Inhabited T] in
theorem onView_setNeeds {op : AoSOp T} (h : op.onView = true) (caps : List Nat) : setNeeds op caps = ⟨0, 0, caps.sum⟩ := by
  cases op <;> first | rfl | cases h

omit [Inhabited T] in
theorem onView_length {sets sets' : List (Finset T)} {op : AoSOp T} {out : AoSOut T} (h : op.onView = true)
    (hs : aosStep sets op = some (sets', out)) : sets'.length = sets.length := by
  have on : ∀ {i : Nat} {f : Finset T → Finset T} {o : Finset T → AoSOut T}, onSet sets i f o = some (sets', out) →
      sets'.length = sets.length := by
    intro i f o h
    simp only [onSet, Option.map_eq_some_iff, Prod.mk.injEq] at h
    obtain ⟨S, _, rfl, _⟩ := h
    simp
  cases op <;> simp only [AoSOp.onView, Bool.false_eq_true] at h <;> simp only [aosStep] at hs
  case insert => exact on hs
  case insertMany => split at hs <;> [exact on hs; cases hs]
  case remove => exact on hs
  case removeMany => split at hs <;> [exact on hs; cases hs]
  case contains => exact on hs
  case get =>
    simp only [Option.bind_eq_some_iff, Option.map_eq_some_iff, Prod.mk.injEq] at hs
    obtain ⟨S, _, x, _, rfl, _⟩ := hs
    rfl

theorem SetsInv.step (ht : c.trivial = true) {w : RowWorld T} {s s' : SetsShelf T} {st : SetsStmt T} {x : Option (AoSOut T)}
    (I : SetsInv w s) (hs : setsStep s st = some (s', x)) : ∃ w', w.setStep c st = .ok (w', x) ∧ SetsInv w' s' := by
  obtain ⟨L, hg, hL⟩ := I.good
  have hcaps : L.caps = s.caps := MatrixCaps.caps_unique (ShGood.off hg.shape) I.caps
  have hr := I.room
  have e1 : w.obj.shape.sizes.cap = s.room.sizes := congrArg Three.sizes hr
  have e2 : w.obj.shape.offsets.cap = s.room.offsets := congrArg Three.offsets hr
  have e3 : w.obj.values.cap = s.room.values := congrArg Three.values hr
  -- what a call on the object does
  have call : ∀ {op : AoSOp T} {sets' : List (Finset T)} {out : AoSOut T}, aosStep s.sets op = some (sets', out) →
      ∃ a', AoS.step c w.obj op = .ok (a', out) ∧ SetsGood a' sets' ∧ SetAfter w.obj a' op (setCaps sets' s.caps op) := by
    intro op sets' out h
    rcases AoS.step_ok (c := c) I.good op sets' out h with ⟨a', k1, k2⟩ | ⟨k1, _⟩
    · refine ⟨a', k1, k2, ?_⟩
      rw [← hcaps]
      exact step_setAfter hg hL h k1 k2
    · rw [ht] at k1; cases k1
  cases st with
  | call op =>
    simp only [setsStep, Option.map_eq_some_iff, Prod.mk.injEq] at hs
    obtain ⟨⟨sets', out⟩, h1, rfl, rfl⟩ := hs
    obtain ⟨a', k1, k2, k3⟩ := call h1
    have hroom := k3.room
    have c1 := congrArg Three.sizes hroom
    have c2 := congrArg Three.offsets hroom
    have c3 := congrArg Three.values hroom
    simp only [roomOf] at c1 c2 c3
    refine ⟨{ obj := a',
               addr := ⟨movedTo w.obj.shape.sizes.cap a'.shape.sizes.cap w.addr.sizes w.fresh,
                 movedTo w.obj.shape.offsets.cap a'.shape.offsets.cap w.addr.offsets w.fresh,
                 movedTo w.obj.values.cap a'.values.cap w.addr.values w.fresh⟩,
               fresh := w.fresh + 1, views := w.views },
      by simp only [RowWorld.setStep, k1, bind_ok], k2, k3.offsets, ?_, ?_, I.none, ?_⟩
    · rw [hroom, e1, e2, e3]
    · exact ⟨movedTo_lt I.addr.1, movedTo_lt I.addr.2.1, movedTo_lt I.addr.2.2⟩
    · intro v p q hp hq
      have V := I.view v p q hp hq
      refine ⟨V.num, ?_, ?_, ?_, ?_, ?_⟩
      · simp only [c1, e1]; exact set_moved_iff V.known.1 V.past.1 V.sizes
      · simp only [c2, e2]; exact set_moved_iff V.known.2.1 V.past.2.1 V.offsets
      · simp only [c3, e3]; exact set_moved_iff V.known.2.2 V.past.2.2 V.values
      · have := V.known; simp only; omega
      · have := V.past; simp only; omega
  | take v =>
    simp only [setsStep, Option.some.injEq, Prod.mk.injEq] at hs
    obtain ⟨rfl, rfl⟩ := hs
    refine ⟨_, rfl, I.good, I.caps, I.room, I.addr, ?_, ?_⟩
    · intro u
      simp only [upd]
      split
      · simp
      · exact I.none u
    · intro u p q hp hq
      simp only [upd] at hp hq
      split at hp
      · rw [if_pos (by assumption)] at hq
        cases hp; cases hq
        exact ⟨sets_num I.good, by simp, by simp, by simp, I.addr, by simp⟩
      · rw [if_neg (by assumption)] at hq
        have V := I.view u p q hp hq
        exact ⟨V.num, V.sizes, V.offsets, V.values, V.known, V.past⟩
  | dup v u =>
    simp only [setsStep, Option.map_eq_some_iff, Prod.mk.injEq] at hs
    obtain ⟨q0, h1, rfl, rfl⟩ := hs
    obtain ⟨p0, h2, h3, V0⟩ := I.lookup h1
    refine ⟨{ w with views := upd w.views v (some p0) }, by simp only [RowWorld.setStep, h3, bind_ok], I.good, I.caps, I.room, I.addr,
      ?_, ?_⟩
    · intro k
      simp only [upd]
      split
      · simp
      · exact I.none k
    · intro k p q hp hq
      simp only [upd] at hp hq
      split at hp
      · rw [if_pos (by assumption)] at hq
        cases hp; cases hq
        exact ⟨V0.num, V0.sizes, V0.offsets, V0.values, V0.known, V0.past⟩
      · rw [if_neg (by assumption)] at hq
        have V := I.view k p q hp hq
        exact ⟨V.num, V.sizes, V.offsets, V.values, V.known, V.past⟩
  | size v =>
    simp only [setsStep, Option.map_eq_some_iff, Prod.mk.injEq] at hs
    obtain ⟨q0, h1, rfl, rfl⟩ := hs
    obtain ⟨p0, h2, h3, V0⟩ := I.lookup h1
    refine ⟨w, ?_, I⟩
    simp only [RowWorld.setStep, h3, bind_ok]
    rw [← V0.num]; rfl
  | via v op =>
    simp only [setsStep, Option.bind_eq_some_iff, Option.ite_none_right_eq_some, Option.some.injEq, Prod.mk.injEq] at hs
    obtain ⟨q0, h1, ⟨hcur, hv⟩, ⟨sets', out⟩, h2, h3, rfl, rfl⟩ := hs
    obtain ⟨p0, _, h5, V0⟩ := I.lookup h1
    have ha : p0.2 = w.addr := by
      have a1 := V0.sizes.2 (by rw [hcur])
      have a2 := V0.offsets.2 (by rw [hcur])
      have a3 := V0.values.2 (by rw [hcur])
      cases hh : p0.2; cases hw : w.addr
      rw [hh, hw] at a1 a2 a3
      simp only at a1 a2 a3
      rw [a1, a2, a3]
    have hp : p0 = (w.obj.shape.numArrays, w.addr) := by
      have b1 := V0.num
      rw [hcur] at b1
      rw [sets_num I.good, ← ha]
      exact Prod.ext b1 rfl
    obtain ⟨a', k1, k2, k3⟩ := call h2
    have k4 := setViewStep_eq hg hL hv h2 k1 k2 (by rw [hcaps]; exact h3)
    have hobj : (w.putBack p0 a').obj = a' := sets_putBack ha (by rw [sets_num k2, sets_num I.good]; exact onView_length hv h2)
    refine ⟨w.putBack p0 a', ?_, ?_, ?_, ?_, I.addr, I.none, ?_⟩
    · simp only [RowWorld.setStep, h5, bind_ok, sets_through hp, k4]
    · rw [hobj]; exact k2
    · rw [hobj]
      have := k3.offsets
      rw [h3] at this
      exact this
    · rw [hobj, k3.room, onView_setNeeds hv, h3]
      have f1 := hg.lay.room
      rw [← caps_sum, hcaps] at f1
      rw [setRoom_le (Nat.zero_le _), setRoom_le (Nat.zero_le _), setRoom_le f1, e1, e2, e3]
    · intro k p q hp hq
      have V := I.view k p q hp hq
      exact ⟨V.num, V.sizes, V.offsets, V.values, V.known, V.past⟩

theorem SetsInv.run (ht : c.trivial = true) {sts : List (SetsStmt T)} : ∀ {w : RowWorld T} {s s' : SetsShelf T}
    {xs : List (AoSOut T)}, SetsInv w s → setsRun s sts = some (s', xs) → ∃ w', w.runSets c sts = .ok (w', xs) ∧ SetsInv w' s' := by
  induction sts with
  | nil =>
    intro w s s' xs I h
    simp only [setsRun, Option.some.injEq, Prod.mk.injEq] at h
    obtain ⟨rfl, rfl⟩ := h
    exact ⟨w, rfl, I⟩
  | cons st sts ih =>
    intro w s s' xs I h
    simp only [setsRun, Option.bind_eq_some_iff, Option.map_eq_some_iff, Prod.mk.injEq] at h
    obtain ⟨⟨s1, x⟩, h1, ⟨s2, ys⟩, h2, rfl, rfl⟩ := h
    obtain ⟨w1, k1, I1⟩ := I.step ht h1
    obtain ⟨w2, k2, I2⟩ := ih I1 h2
    refine ⟨w2, ?_, I2⟩
    unfold RowWorld.runSets
    rw [k1, bind_ok]
    simp only
    rw [k2, bind_ok]

/-- **C89** (what views show).  For every program with an `ArrayOfSets` and views of it: if the specification allows it, it runs
without error and gets exactly the answers of the specification, in which a view goes on sharing the values with the object until a
storage is replaced, and in which a storage is replaced only by a call that needs more room than there is. -/
theorem C89_views (c : Cfg) (ht : c.trivial = true) (n capacity : Nat) (program : List (SetsStmt T)) {s : SetsShelf T}
    {answers : List (AoSOut T)} (h : setsRun (SetsShelf.init T n capacity) program = some (s, answers)) :
    ∃ w0 w : RowWorld T, RowWorld.construct c n capacity = .ok w0 ∧ w0.runSets c program = .ok (w, answers) := by
  obtain ⟨w0, h1, I⟩ := SetsInv.start (T := T) (c := c) (n := n) (d := capacity)
  obtain ⟨w, h2, _⟩ := I.run ht h
  exact ⟨w0, w, h1, h2⟩

/-- A program with room reserved: the view shows what the object gets, the object what the view inserts. -/
def setSharing : List (SetsStmt Int) :=
  [.call (.reserveValues 16), .take 0, .call (.insert 0 5), .via 0 (.contains 0 5), .via 0 (.insertMany 1 [-3, 7]),
    .call (.contains 1 7), .dup 1 0, .via 1 (.remove 1 7), .call (.insertMany 1 [1, 2, 3]), .via 0 (.contains 1 7), .via 1 (.insert 1 1),
    .size 0]

/-- The hypotheses of `C89_views`, and the answers. -/
example : (setsRun (SetsShelf.init Int 2 2) setSharing).map (·.2) =
    some [.unit, .bool true, .bool true, .num 2, .bool true, .bool true, .num 3, .bool false, .bool false, .num 2] := by
  decide +kernel

/-! ## Calls that fit in the room there is -/

omit [Inhabited T] in
theorem sets_fit_run {ops : List (AoSOp T)} : ∀ {s : SetsShelf T}, fitSets s.room s.sets s.caps ops →
    ∃ sets' caps' outs, aosRun s.sets ops = some (sets', outs) ∧ sets'.length = s.sets.length ∧
      setsRun s (ops.map .call) = some ({ s with sets := sets', caps := caps' }, outs) := by
  induction ops with
  | nil => intro s _; exact ⟨s.sets, s.caps, [], rfl, rfl, rfl⟩
  | cons op ops ih =>
    intro s h
    obtain ⟨sets', out, h1, h3, h4, h5, h6, h7⟩ := h
    obtain ⟨sets2, caps2, outs, k1, k3, k4⟩ := ih (s := { s with sets := sets', caps := setCaps sets' s.caps op }) h7
    refine ⟨sets2, caps2, out :: outs, ?_, k3.trans h3, ?_⟩
    · simp only [aosRun, h1, k1, Option.bind_some, Option.map_some]
    · simp only [List.map_cons, setsRun, setsStep, h1, Option.map_some, Option.bind_some, setRoom_le h4, setRoom_le h5, setRoom_le h6,
        tooSmall_fit h4, tooSmall_fit h5, tooSmall_fit h6, Bool.toNat_false, Nat.add_zero]
      rw [k4]
      rfl

omit [Inhabited T] in
theorem setsRun_append {P Q : List (SetsStmt T)} : ∀ {s s1 s2 : SetsShelf T} {xs ys : List (AoSOut T)},
    setsRun s P = some (s1, xs) → setsRun s1 Q = some (s2, ys) → setsRun s (P ++ Q) = some (s2, xs ++ ys) := by
  induction P with
  | nil =>
    intro s s1 s2 xs ys h k
    simp only [setsRun, Option.some.injEq, Prod.mk.injEq] at h
    obtain ⟨rfl, rfl⟩ := h
    exact k
  | cons st P ih =>
    intro s s1 s2 xs ys h k
    simp only [setsRun, Option.bind_eq_some_iff, Option.map_eq_some_iff, Prod.mk.injEq] at h
    obtain ⟨⟨s3, x⟩, h1, ⟨s4, zs⟩, h2, rfl, rfl⟩ := h
    simp only [List.cons_append, setsRun, h1, Option.bind_some, ih h2 k, Option.map_some, List.append_assoc]

/-- **C89** (room).  After every legal program: a view taken since a storage was last replaced survives every sequence of calls that
keeps the number of sets and never needs more room than there is, and every call that is then legal on the object and needs no more
room for a set gets through the view what it gets on the object. -/
theorem C89_room (c : Cfg) (ht : c.trivial = true) (n capacity : Nat) (program : List (SetsStmt T)) {s : SetsShelf T}
    {answers : List (AoSOut T)} (h : setsRun (SetsShelf.init T n capacity) program = some (s, answers)) {v : Nat}
    (hv : s.views v = some (s.sets.length, s.replaced)) (ops : List (AoSOp T)) (hfit : fitSets s.room s.sets s.caps ops) :
    ∃ sets' caps' outs, aosRun s.sets ops = some (sets', outs) ∧
      setsRun s (ops.map .call) = some ({ s with sets := sets', caps := caps' }, outs) ∧
      ∀ op sets'' out, op.onView = true → aosStep sets' op = some (sets'', out) → setCaps sets'' caps' op = caps' →
        ∃ w0 w : RowWorld T, RowWorld.construct c n capacity = .ok w0 ∧
          w0.runSets c (program ++ ops.map .call ++ [.via v op]) = .ok (w, answers ++ outs ++ [out]) := by
  obtain ⟨sets', caps', outs, k1, k3, k4⟩ := sets_fit_run hfit
  refine ⟨sets', caps', outs, k1, k4, fun op sets'' out g1 g2 g3 => ?_⟩
  have k5 : setsRun { s with sets := sets', caps := caps' } [.via v op] = some ({ s with sets := sets'', caps := caps' }, [out]) := by
    simp only [setsRun, setsStep, hv, Option.bind_some, k3, g1, g2, g3, and_self, if_true, Option.map_some]
    rfl
  exact C89_views c ht n capacity _ (setsRun_append (setsRun_append h k4) k5)

/-- The hypotheses of `C89_room`: a view of sets with room for 16 values, and calls that make a set larger. -/
def setRoomy : List (SetsStmt Int) := [.call (.reserveValues 16), .take 0]

example : (setsRun (SetsShelf.init Int 2 2) setRoomy).map (fun r => (r.1.room, r.1.caps, r.1.replaced, r.1.views 0)) =
    some (⟨2, 3, 16⟩, [2, 2], ⟨0, 0, 1⟩, some (2, ⟨0, 0, 1⟩)) := by decide +kernel

example : fitSets ⟨2, 3, 16⟩ [∅, (∅ : Finset Int)] [2, 2] [.insertMany 1 [-7, 8, 9], .reserveCapacityOfSet 0 3, .compress] := by
  refine ⟨_, _, rfl, rfl, ?_, ?_, ?_, _, _, rfl, rfl, ?_, ?_, ?_, _, _, rfl, rfl, ?_, ?_, ?_, trivial⟩ <;> decide +kernel

/-! ## Views whose storage was replaced -/

/-- A set as a view with some pointers gone sees it. -/
structure SetSeen (a : AoA T) (i n : Nat) (S O W : Prop) : Prop where
  num : i < a.shape.numArrays
  size : S → a.shape.sizes.read i = .ok n
  noSize : ¬ S → ∀ k, a.shape.sizes.read k = .error (.ub .outOfBounds)
  offset : O → ∃ p, a.shape.offsets.read i = .ok p
  noOffset : ¬ O → ∀ k, a.shape.offsets.read k = .error (.ub .outOfBounds)
  noValue : ¬ W → ∀ k, a.values.read k = .error (.ub .outOfBounds)

omit [Inhabited T] in
theorem SetsInv.seen {w : RowWorld T} {s : SetsShelf T} (I : SetsInv w s) {p q : Nat × Three Nat} (R : SameSetsView w s p q) {i : Nat}
    {S : Finset T} (hi : i < q.1) (hr : s.sets[i]? = some S) :
    SetSeen (w.through p) i S.card (q.2.sizes = s.replaced.sizes) (q.2.offsets = s.replaced.offsets)
      (q.2.values = s.replaced.values) := by
  obtain ⟨A, cap, B, rfl, hg, _⟩ := I.good.at hr
  have hn : w.obj.shape.checkBounds ⟨true, false, false⟩ A.length = .ok () := by
    unfold Shape.checkBounds errorIf; simp
  refine ⟨by show A.length < p.1; rw [R.num]; exact hi, ?_, ?_, ?_, ?_, ?_⟩
  · intro h
    have k := hg.shape.sizeOfAt (c := ⟨true, false, false⟩) rfl
    unfold Shape.sizeOfArray at k
    rw [hn, bind_ok] at k
    show (follow p.2.sizes w.addr.sizes w.obj.shape.sizes).read A.length = _
    unfold follow
    rw [if_pos (R.sizes.2 h), k]
    simp
  · intro h k
    show (follow p.2.sizes w.addr.sizes w.obj.shape.sizes).read k = _
    unfold follow
    rw [if_neg (fun e => h (R.sizes.1 e))]
    rfl
  · intro h
    refine ⟨total A, ?_⟩
    show (follow p.2.offsets w.addr.offsets w.obj.shape.offsets).read A.length = _
    unfold follow
    rw [if_pos (R.offsets.2 h)]
    exact hg.ptr
  · intro h k
    show (follow p.2.offsets w.addr.offsets w.obj.shape.offsets).read k = _
    unfold follow
    rw [if_neg (fun e => h (R.offsets.1 e))]
    rfl
  · intro h k
    show (follow p.2.values w.addr.values w.obj.values).read k = _
    unfold follow
    rw [if_neg (fun e => h (R.values.1 e))]
    rfl

section
variable {a : AoA T} {i n : Nat} {S O W : Prop}

omit [LinearOrder T] [Inhabited T] in
theorem SetSeen.bounds (h : SetSeen a i n S O W) : a.shape.checkBounds c i = .ok () := by
  have : decide (a.shape.numArrays ≤ i) = false := by have := h.num; simp; omega
  unfold Shape.checkBounds errorIf
  simp [this]

omit [LinearOrder T] [Inhabited T] in
/-- An expression that needs the size, the offset, and something else. -/
theorem SetSeen.start {α : Type} {P : Prop} (h : SetSeen a i n S O W) (hn : ¬ S ∨ ¬ O ∨ P) (f : Nat → Nat → R α)
    (hf : P → ∀ p, f n p = .error (.ub .outOfBounds)) :
    (do a.shape.checkBounds c i; let k ← a.shape.sizeOfArray c i; let p ← a.ptr i; f k p) = .error (.ub .outOfBounds) := by
  unfold Shape.sizeOfArray AoA.ptr
  rw [h.bounds, bind_ok, bind_ok]
  by_cases hS : S
  · rw [h.size hS, bind_ok]
    by_cases hO : O
    · obtain ⟨p, hp⟩ := h.offset hO
      rw [hp, bind_ok, hf ((hn.resolve_left (fun h => h hS)).resolve_left (fun h => h hO))]
    · rw [h.noOffset hO, bind_err]
  · rw [h.noSize hS, bind_err]

omit [LinearOrder T] [Inhabited T] in
theorem SetSeen.position {α : Type} (h : SetSeen a i n S O W) {j : Nat} (hj : j < n) (hn : ¬ O ∨ ¬ W ∨ c.boundsCheck = true ∧ ¬ S)
    (f : Nat → R α) (hf : ¬ W → ∀ p, f p = .error (.ub .outOfBounds)) :
    (do a.shape.checkBounds2 c i j; let p ← a.ptr i; f p) = .error (.ub .outOfBounds) := by
  have h1 : ¬ (a.shape.numArrays ≤ i) := by have := h.num; omega
  have h2 : decide (n ≤ j) = false := by simp; omega
  have rest : (¬ O ∨ ¬ W) → (do let p ← a.ptr i; f p) = .error (.ub .outOfBounds) := by
    intro hn
    unfold AoA.ptr
    by_cases hO : O
    · obtain ⟨p, hp⟩ := h.offset hO
      rw [hp, bind_ok, hf (hn.resolve_left (fun h => h hO))]
    · rw [h.noOffset hO, bind_err]
  unfold Shape.checkBounds2
  cases hb : c.boundsCheck
  · simp only [Bool.false_eq_true, if_false, bind_ok]
    refine rest ?_
    rcases hn with hn | hn | hn
    · exact .inl hn
    · exact .inr hn
    · rw [hb] at hn; exact absurd hn.1 (by simp)
  · rw [if_pos rfl, if_neg h1]
    by_cases hS : S
    · rw [h.size hS, bind_ok, h2]
      simp only [errorIf, Bool.false_eq_true, if_false, bind_ok]
      refine rest ?_
      rcases hn with hn | hn | hn
      · exact .inl hn
      · exact .inr hn
      · exact absurd hS hn.2
    · rw [h.noSize hS, bind_err, bind_err]

end

/-- **C89** (after the storage was replaced).  After every legal program: a call about a set, which the view takes there to be and
which would be legal on the object, is undefined behaviour through the view when a storage that the call looks at was replaced since
the view was taken: no check notices. -/
theorem C89_gone (c : Cfg) (ht : c.trivial = true) (n capacity : Nat) (program : List (SetsStmt T)) {s : SetsShelf T}
    {answers : List (AoSOut T)} (h : setsRun (SetsShelf.init T n capacity) program = some (s, answers)) {v : Nat}
    {seen : Nat × Three Nat} (hv : s.views v = some seen) {op : AoSOp T} {i : Nat} (hi : setOf op = some i) (hset : i < seen.1)
    (hlegal : aosStep s.sets op ≠ none) (hg : setsGone c.boundsCheck s.sets seen.2 s.replaced op) :
    ∃ w0 w : RowWorld T, RowWorld.construct c n capacity = .ok w0 ∧ w0.runSets c program = .ok (w, answers) ∧
      ∃ u, w.setStep c (.via v op) = .error (.ub u) := by
  obtain ⟨w0, h1, I⟩ := SetsInv.start (T := T) (c := c) (n := n) (d := capacity)
  obtain ⟨w, h2, I⟩ := I.run ht h
  refine ⟨w0, w, h1, h2, .outOfBounds, ?_⟩
  obtain ⟨p, _, h5, R⟩ := I.lookup hv
  simp only [RowWorld.setStep, h5, bind_ok]
  obtain ⟨⟨sets', out⟩, hs⟩ := Option.ne_none_iff_exists'.1 hlegal
  suffices key : AoS.viewStep c (w.through p) op = .error (.ub .outOfBounds) by simp only [key, bind_err]
  -- the set there is, and what is left of it
  have set : ∀ {f : Finset T → Finset T} {o : Finset T → AoSOut T} {r : List (Finset T) × AoSOut T}, onSet s.sets i f o = some r →
      SetSeen (w.through p) i (cardAt s.sets i) (seen.2.sizes = s.replaced.sizes) (seen.2.offsets = s.replaced.offsets)
        (seen.2.values = s.replaced.values) := by
    intro f o r hr
    simp only [onSet, Option.map_eq_some_iff] at hr
    obtain ⟨S, hS, _⟩ := hr
    have := I.seen R hset hS
    unfold cardAt
    rw [hS]
    exact this
  have fail : ∀ {α β : Type} {x : LvArray.R α} {f : α → LvArray.R β}, x = .error (.ub .outOfBounds) →
      (x >>= f) = .error (.ub .outOfBounds) := by
    intro α β x f e
    rw [e, bind_err]
  cases op with
  | insert i' x =>
    cases hi
    have q := set hs
    exact fail (q.start hg _ (fun ⟨hW, h0⟩ p' =>
      fail (gone_insertOne (t := AoS.target (AoS.checking c i) i) (s := w.through p) (fun k => q.noValue hW _) h0 x)))
  | insertMany i' xs =>
    cases hi
    simp only [aosStep] at hs
    split at hs
    · have q := set hs
      exact fail (q.start hg _ (fun ⟨hW, h0, hne⟩ p' =>
        fail (gone_insertRange (t := AoS.target (AoS.checking c i) i) (s := w.through p) (fun k => q.noValue hW _) h0 (by assumption) hne)))
    · cases hs
  | remove i' x =>
    cases hi
    have q := set hs
    exact fail (q.start hg _ (fun ⟨hW, h0⟩ p' =>
      fail (gone_removeOne (t := AoS.target (AoS.checking c i) i) (s := w.through p) (fun k => q.noValue hW _) h0 x)))
  | removeMany i' xs =>
    cases hi
    simp only [aosStep] at hs
    split at hs
    · have q := set hs
      exact fail (q.start hg _ (fun ⟨hW, h0, hne⟩ p' =>
        fail (gone_removeRange (t := AoS.target (AoS.checking c i) i) (s := w.through p) (fun k => q.noValue hW _) h0 (by assumption) hne)))
    · cases hs
  | contains i' x =>
    cases hi
    have q := set hs
    exact fail (q.start hg _ (fun ⟨hW, h0⟩ p' => gone_contains (fun k => q.noValue hW _) h0 _))
  | get i' j =>
    cases hi
    simp only [aosStep, Option.bind_eq_some_iff, Option.map_eq_some_iff] at hs
    obtain ⟨S, hS, x, hx, _⟩ := hs
    obtain ⟨hlt, _⟩ := List.getElem?_eq_some_iff.1 hx
    have q := I.seen R hset hS
    exact fail (q.position (by simpa using hlt) hg _ (fun hW p' => q.noValue hW _))
  | _ => cases hi

/-- A program after which the values that a view knows are gone (a set has become larger), and one after which the sizes and
offsets are gone as well (there are more sets). -/
def setOutgrown : List (SetsStmt Int) := [.take 0, .call (.insertMany 0 [-7, 8, 9])]

/-- The hypotheses of `C89_gone`. -/
example : (setsRun (SetsShelf.init Int 2 2) setOutgrown).map
    (fun r => (r.1.room, r.1.replaced, r.1.views 0, cardAt r.1.sets 0)) =
    some (⟨2, 3, 16⟩, ⟨0, 0, 1⟩, some (2, ⟨0, 0, 0⟩), 3) := by decide +kernel

example : (setsRun (SetsShelf.init Int 2 2) (setOutgrown ++ [.call (.appendSet 1)])).map
    (fun r => (r.1.room, r.1.caps, r.1.replaced, (aosStep r.1.sets (.contains 0 8)).map (·.2))) =
    some (⟨6, 8, 16⟩, [6, 2, 1], ⟨1, 1, 1⟩, some (.bool true)) := by decide +kernel

end LvArray.Props

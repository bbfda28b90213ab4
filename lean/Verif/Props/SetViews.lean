import Verif.SetViewsLemmas
import Verif.Props.SortedSet

/-!
# C84: views of a `SortedArray` last until its storage is replaced, and keep their size
-/

namespace LvArray.Props

open LvArray Spec SetCaps

variable {T : Type} [LinearOrder T] {c : Cfg}

/-- A view in the model and in the specification. -/
structure SameSetView (w : SetWorld T) (s : SetShelf T) (p q : Nat × Nat) : Prop where
  num : p.1 = q.1
  place : p.2 = w.addr ↔ q.2 = s.replaced
  known : p.2 < w.fresh
  past : q.2 ≤ s.replaced

/-- The model realises the specification. -/
structure SVInv (w : SetWorld T) (s : SetShelf T) : Prop where
  good : SGood none w.obj s.set
  room : w.obj.buf.cap = s.room
  addr : w.addr < w.fresh
  none : ∀ v, w.views v = none ↔ s.views v = none
  view : ∀ v p q, w.views v = some p → s.views v = some q → SameSetView w s p q

theorem SVInv.start [Inhabited T] : SVInv (SetWorld.init T) (SetShelf.init T) where
  good := set_init_good Option.none
  room := rfl
  addr := Nat.zero_lt_one
  none := fun v => by simp [SetWorld.init, SetShelf.init]
  view := fun v p q h => by cases h

theorem SVInv.lookup {w : SetWorld T} {s : SetShelf T} (I : SVInv w s) {v : Nat} {q : Nat × Nat} (h : s.views v = some q) :
    ∃ p, w.view v = .ok p ∧ SameSetView w s p q := by
  cases hp : w.views v with
  | none => have := (I.none v).1 hp; rw [h] at this; cases this
  | some p => exact ⟨p, by unfold SetWorld.view; rw [hp], I.view v p q hp h⟩

theorem need_le_room (op : SetOp T) (S : Finset T) : (roomNeeded op S).1 ≤ (roomNeeded op S).2 := by
  cases op <;> simp only [roomNeeded] <;> omega

theorem smallest_sorted (n : Nat) (S : Finset T) : (smallest n S).Pairwise (· < ·) :=
  (sort_increasing S).sublist (List.take_sublist n _)

/-- A view sees what the specification says. -/
theorem SVInv.answer {w : SetWorld T} {s : SetShelf T} (I : SVInv w s) {p q : Nat × Nat} (V : SameSetView w s p q) {k : SetQuery T}
    {x : SetOut T} (h : viewAnswer s.set q.1 (decide (q.2 = s.replaced)) k = some x) : (w.through p).answer c k = .ok x := by
  cases k with
  | size =>
    simp only [viewAnswer, Option.some.injEq] at h
    subst h
    rw [← V.num]; rfl
  | empty =>
    simp only [viewAnswer, Option.some.injEq] at h
    subst h
    rw [← V.num]; rfl
  | contains y =>
    simp only [viewAnswer, Option.ite_none_right_eq_some, Option.some.injEq] at h
    obtain ⟨h0, rfl⟩ := h
    have hr : ∀ i (hi : i < (smallest q.1 s.set).length), (w.through p).buf.read i = .ok (smallest q.1 s.set)[i] := by
      intro i hi
      have hi' : i < q.1 ∧ i < s.set.card := by simpa [smallest] using hi
      have h1 : p.2 = w.addr := by
        rcases h0 with h0 | ⟨h0, _⟩
        · omega
        · exact V.place.2 (by simpa using h0)
      simp only [SetWorld.through, follow, h1, if_true]
      rw [SortedArr.read_good I.good i (by simpa using hi'.2)]
      simp [smallest]
    have hl : (w.through p).size = (smallest q.1 s.set).length := by
      show p.1 = _
      rw [V.num]
      rcases h0 with h0 | ⟨_, h0⟩ <;> simp [smallest] <;> omega
    simp only [SortedArr.answer, SortedArr.contains, hl]
    rw [contains_part (smallest_sorted _ _) hr, bind_ok]
  | get i =>
    simp only [viewAnswer, Option.ite_none_right_eq_some, Option.map_eq_some_iff] at h
    obtain ⟨⟨h1, h2⟩, y, h3, rfl⟩ := h
    obtain ⟨h4, rfl⟩ := List.getElem?_eq_some_iff.1 h3
    have h4' : i.toNat < q.1 ∧ i.toNat < s.set.card := by simpa [smallest] using h4
    have h5 : p.2 = w.addr := V.place.2 (by simpa using h1)
    have e : (decide (i < 0) || decide ((p.1 : Int) ≤ i)) = false := by
      rw [V.num]; simp; omega
    simp only [SortedArr.answer, SortedArr.get, SetWorld.through, follow, h5, if_true, e, Bool.and_false, errorIf_false, bind_ok]
    rw [if_neg (by omega), SortedArr.read_good I.good _ (by simpa using h4'.2), bind_ok]
    simp [smallest]

theorem SVInv.step [Inhabited T] {w : SetWorld T} {s s' : SetShelf T} {st : SetStmt T} {x : Option (SetOut T)} (I : SVInv w s)
    (hs : setViewStep s st = some (s', x)) : ∃ w', w.step c st = .ok (w', x) ∧ SVInv w' s' := by
  cases st with
  | call op =>
    simp only [setViewStep, Option.map_eq_some_iff] at hs
    obtain ⟨⟨S', o⟩, h1, h2⟩ := hs
    obtain ⟨a', k1, k2⟩ := SortedArr.step_good c I.good op h1
    have k3 := step_room k2 (I.good.heap rfl) k1
    rw [I.room] at k3
    have hn := need_le_room op S'
    have hx : x = some o := by
      simp only at h2
      split at h2 <;> (injection h2 with _ h2; exact h2.symm)
    subst hx
    refine ⟨_, by simp only [SetWorld.step, k1, bind_ok]; rfl, ?_⟩
    by_cases hr : s.room < (roomNeeded op S').1
    · simp only [if_pos hr, Prod.mk.injEq] at h2 k3
      obtain ⟨rfl, -⟩ := h2
      have hm : movedTo w.obj.buf.cap a'.buf.cap w.addr w.fresh = w.fresh := by
        unfold movedTo
        rw [if_neg]
        rw [k3, I.room]
        omega
      refine ⟨k2, k3, by simp only [hm]; omega, I.none, fun v p q hp hq => ?_⟩
      have V := I.view v p q hp hq
      have := V.known
      have := V.past
      refine ⟨V.num, ?_, by simp only; omega, by simp only; omega⟩
      simp only [hm]
      constructor <;> intro h <;> omega
    · simp only [if_neg hr, Prod.mk.injEq] at h2 k3
      obtain ⟨rfl, -⟩ := h2
      have hm : movedTo w.obj.buf.cap a'.buf.cap w.addr w.fresh = w.addr := by
        unfold movedTo
        rw [if_pos]
        rw [k3, I.room]
      have := I.addr
      refine ⟨k2, k3, by simp only [hm]; omega, I.none, fun v p q hp hq => ?_⟩
      have V := I.view v p q hp hq
      have := V.known
      refine ⟨V.num, ?_, by simp only; omega, V.past⟩
      simp only [hm]
      exact V.place
  | take v =>
    simp only [setViewStep, Option.some.injEq, Prod.mk.injEq] at hs
    obtain ⟨rfl, rfl⟩ := hs
    refine ⟨_, rfl, I.good, I.room, I.addr, fun u => ?_, fun u p q hp hq => ?_⟩
    · simp only [upd]
      split
      · simp
      · exact I.none u
    · simp only [upd] at hp hq
      split at hp
      · rw [if_pos (by assumption)] at hq
        cases hp; cases hq
        exact ⟨I.good.size, by simp, I.addr, by simp⟩
      · rw [if_neg (by assumption)] at hq
        have V := I.view u p q hp hq
        exact ⟨V.num, V.place, V.known, V.past⟩
  | dup v u =>
    simp only [setViewStep, Option.map_eq_some_iff, Prod.mk.injEq] at hs
    obtain ⟨q0, h1, rfl, rfl⟩ := hs
    obtain ⟨p0, h3, V0⟩ := I.lookup h1
    refine ⟨{ w with views := upd w.views v (some p0) }, by simp only [SetWorld.step, h3, bind_ok], I.good, I.room, I.addr,
      fun k => ?_, fun k p q hp hq => ?_⟩
    · simp only [upd]
      split
      · simp
      · exact I.none k
    · simp only [upd] at hp hq
      split at hp
      · rw [if_pos (by assumption)] at hq
        cases hp; cases hq
        exact ⟨V0.num, V0.place, V0.known, V0.past⟩
      · rw [if_neg (by assumption)] at hq
        have V := I.view k p q hp hq
        exact ⟨V.num, V.place, V.known, V.past⟩
  | ask v k =>
    simp only [setViewStep, Option.bind_eq_some_iff, Option.map_eq_some_iff, Prod.mk.injEq] at hs
    obtain ⟨q0, h1, y, h2, rfl, rfl⟩ := hs
    obtain ⟨p0, h3, V⟩ := I.lookup h1
    exact ⟨w, by simp only [SetWorld.step, h3, bind_ok, I.answer V h2], I⟩

theorem SVInv.run [Inhabited T] {sts : List (SetStmt T)} : ∀ {w : SetWorld T} {s s' : SetShelf T} {xs : List (SetOut T)}, SVInv w s →
    setViewRun s sts = some (s', xs) → ∃ w', w.run c sts = .ok (w', xs) ∧ SVInv w' s' := by
  induction sts with
  | nil =>
    intro w s s' xs I h
    simp only [setViewRun, Option.some.injEq, Prod.mk.injEq] at h
    obtain ⟨rfl, rfl⟩ := h
    exact ⟨w, rfl, I⟩
  | cons st sts ih =>
    intro w s s' xs I h
    simp only [setViewRun, Option.bind_eq_some_iff, Option.map_eq_some_iff, Prod.mk.injEq] at h
    obtain ⟨⟨s1, x⟩, h1, ⟨s2, ys⟩, h2, rfl, rfl⟩ := h
    obtain ⟨w1, k1, I1⟩ := I.step (c := c) h1
    obtain ⟨w2, k2, I2⟩ := ih I1 h2
    refine ⟨w2, ?_, I2⟩
    rw [SetWorld.run, k1, bind_ok]
    simp only
    rw [k2, bind_ok]

variable [Inhabited T]

/-- **C84** (what views show).  For every program with a `SortedArray` and views of it: if the specification allows it, it runs without error
and gets exactly the answers of the specification.  In the specification a view goes on looking at as many of the smallest values as there
were when it was taken, until the storage is replaced, and the storage is replaced only by a call that needs more room than there is. -/
theorem C84_views (c : Cfg) (program : List (SetStmt T)) {s : SetShelf T} {answers : List (SetOut T)}
    (h : setViewRun (SetShelf.init T) program = some (s, answers)) : ∃ w, (SetWorld.init T).run c program = .ok (w, answers) := by
  obtain ⟨w, h2, _⟩ := SVInv.start.run (c := c) h
  exact ⟨w, h2⟩

omit [Inhabited T] in
theorem sort_is {S : Finset T} (l : List T) (hl : l.Pairwise (· < ·)) (h : S = l.toFinset) : S.sort (· ≤ ·) = l := by
  rw [h]
  exact (List.toFinset_sort (· ≤ ·) (hl.imp fun h => ne_of_lt h)).2 (hl.imp fun h => le_of_lt h)

/-- The hypothesis of `C84_views`, and the answers: after an insertion that fits, the view shows the two smallest values. -/
example : (setViewRun (SetShelf.init Nat) [.call (.insertMany [5, 7]), .take 0, .call (.insert 1), .ask 0 (.get 0), .dup 3 0,
      .call (.remove 5), .ask 3 (.get 1), .ask 3 .size]).map (·.2) =
    some [.num 2, .bool true, .val 1, .bool true, .val 7, .num 2] := by
  have e1 : ({5, 7} : Finset Nat).sort (· ≤ ·) = [5, 7] := sort_is _ (by decide) (by decide)
  have e2 : ({1, 5, 7} : Finset Nat).sort (· ≤ ·) = [1, 5, 7] := sort_is _ (by decide) (by decide)
  have e3 : (({1, 5, 7} : Finset Nat).erase 5).sort (· ≤ ·) = [1, 7] := sort_is _ (by decide) (by decide)
  have u : sortedUnique [5, 7] = true := by decide
  have i : (insert 1 {5, 7} : Finset Nat).card = 3 := by decide
  simp [setViewRun, setViewStep, setStep, Spec.fits, roomNeeded, SetShelf.init, viewAnswer, smallest, e1, e2, e3, u, i]

theorem setViewRun_append : ∀ (p q : List (SetStmt T)) (s : SetShelf T),
    setViewRun s (p ++ q) = (setViewRun s p).bind fun r => (setViewRun r.1 q).map fun t => (t.1, r.2 ++ t.2)
  | [], q, s => by
    simp only [List.nil_append, setViewRun, Option.bind_some]
    cases setViewRun s q <;> simp
  | st :: p, q, s => by
    simp only [List.cons_append, setViewRun]
    cases setViewStep s st with
    | none => rfl
    | some r =>
      simp only [Option.bind_some, setViewRun_append p q]
      cases setViewRun r.1 p with
      | none => rfl
      | some t =>
        simp only [Option.bind_some, Option.map_some]
        cases setViewRun t.1 q <;> simp

/-- **C84** (a view that was just taken).  Whatever happened before, it answers as the set does. -/
theorem C84_fresh (c : Cfg) (program : List (SetStmt T)) {s : SetShelf T} {answers : List (SetOut T)}
    (h : setViewRun (SetShelf.init T) program = some (s, answers)) (v : Nat) (x : T) :
    (∃ w, (SetWorld.init T).run c (program ++ [.take v, .ask v .size, .ask v (.contains x)]) =
      .ok (w, answers ++ [.num s.set.card, .bool (decide (x ∈ s.set))])) ∧
    ∀ (i : Nat) (hi : i < s.set.card), ∃ w, (SetWorld.init T).run c (program ++ [.take v, .ask v (.get i)]) =
      .ok (w, answers ++ [.val ((s.set.sort (· ≤ ·))[i]'(by simpa using hi))]) := by
  refine ⟨C84_views c _ (s := { s with views := fun k => if k = v then some (s.set.card, s.replaced) else s.views k }) ?_, fun i hi =>
    C84_views c _ (s := { s with views := fun k => if k = v then some (s.set.card, s.replaced) else s.views k }) ?_⟩
  · rw [setViewRun_append, h]
    have e : (s.set.sort (· ≤ ·)).take s.set.card = s.set.sort (· ≤ ·) := List.take_of_length_le (by simp)
    simp [setViewRun, setViewStep, viewAnswer, smallest, e]
  · rw [setViewRun_append, h]
    have e : (s.set.sort (· ≤ ·)).take s.set.card = s.set.sort (· ≤ ·) := List.take_of_length_le (by simp)
    simp [setViewRun, setViewStep, viewAnswer, smallest, e, hi]

/-- A view whose storage is in place and calls that fit. -/
theorem calls_fit {n : Nat} : ∀ {ops : List (SetOp T)} {s : SetShelf T}, n ≤ s.room → fitInto n s.set ops →
    ∃ S' outs, setRun none s.set ops = some (S', outs) ∧
      setViewRun s (ops.map .call) = some ({ s with set := S' }, outs)
  | [], s, _, _ => ⟨s.set, [], rfl, rfl⟩
  | op :: ops, s, hn, h => by
    obtain ⟨S1, o, h1, h2, h3⟩ := h
    obtain ⟨S', outs, h4, h5⟩ := calls_fit (s := { s with set := S1 }) hn h3
    refine ⟨S', o :: outs, ?_, ?_⟩
    · simp only [setRun, h1, Option.bind_some]
      simp only at h4
      rw [h4]; rfl
    · simp only [List.map_cons, setViewRun, setViewStep, h1, Option.map_some]
      rw [if_neg (by omega)]
      simp only [Option.bind_some, h5, Option.map_some]
      rfl

/-- **C84** (room).  After `reserve( n )`, calls that never need room for more than `n` values leave every view in place: it then shows, of
the set as it is after the calls, as many of the smallest values as the set had when the view was taken. -/
theorem C84_room (c : Cfg) (program : List (SetStmt T)) {s : SetShelf T} {answers : List (SetOut T)}
    (h : setViewRun (SetShelf.init T) program = some (s, answers)) (n v : Nat) (ops : List (SetOp T)) (hf : fitInto n s.set ops) :
    ∃ S' outs, setRun none s.set ops = some (S', outs) ∧
      (∀ x, s.set.card ≤ S'.card →
        ∃ w, (SetWorld.init T).run c (program ++ ([.call (.reserve n), .take v] ++ (ops.map .call ++ [.ask v (.contains x)]))) =
          .ok (w, answers ++ ([.unit] ++ (outs ++ [.bool (decide (x ∈ (S'.sort (· ≤ ·)).take s.set.card))])))) ∧
      ∀ (i : Nat) (y : T), i < s.set.card → (S'.sort (· ≤ ·))[i]? = some y →
        ∃ w, (SetWorld.init T).run c (program ++ ([.call (.reserve n), .take v] ++ (ops.map .call ++ [.ask v (.get i)]))) =
          .ok (w, answers ++ ([.unit] ++ (outs ++ [.val y]))) := by
  obtain ⟨s1, h1, h2, h3⟩ : ∃ s1 : SetShelf T, setViewRun s [.call (.reserve n), .take v] = some (s1, [.unit]) ∧
      s1.set = s.set ∧ n ≤ s1.room ∧ s1.views v = some (s.set.card, s1.replaced) := by
    by_cases hr : s.room < n
    · refine ⟨_, by simp [setViewRun, setViewStep, setStep, Spec.fits, roomNeeded, hr]; rfl, ?_, ?_, ?_⟩ <;> simp
    · refine ⟨_, by simp [setViewRun, setViewStep, setStep, Spec.fits, roomNeeded, hr]; rfl, ?_, ?_, ?_⟩ <;> simp
      omega
  obtain ⟨S', outs, h4, h5⟩ := calls_fit (s := s1) h3.1 (h2 ▸ hf)
  rw [h2] at h4
  refine ⟨S', outs, h4, fun x hx => C84_views c _ (s := { s1 with set := S' }) ?_, fun i y hi hy =>
    C84_views c _ (s := { s1 with set := S' }) ?_⟩
  · rw [setViewRun_append, h]
    simp only [Option.bind_some]
    rw [setViewRun_append, h1]
    simp only [Option.bind_some]
    rw [setViewRun_append, h5]
    simp only [setViewRun, setViewStep, h3.2, viewAnswer, hx, smallest, Option.bind_some, Option.map_some, decide_true, and_true, or_true, if_true]
    simp
    exact decide_eq_decide.2 Iff.rfl
  · rw [setViewRun_append, h]
    simp only [Option.bind_some]
    rw [setViewRun_append, h1]
    simp only [Option.bind_some]
    rw [setViewRun_append, h5]
    have : (smallest s.set.card S')[i]? = some y := by
      rw [smallest, List.getElem?_take_of_lt hi, hy]
    simp [setViewRun, setViewStep, h3.2, viewAnswer, this]

/-- Calls that fit. -/
example : fitInto 4 ({5, 7} : Finset Nat) [.insert 1, .removeMany [5], .insertMany [3, 9], .contains 3] :=
  ⟨_, _, rfl, by decide, _, _, rfl, by decide, _, _, rfl, by decide, _, _, rfl, by decide, trivial⟩

theorem pushedOut : setViewRun (SetShelf.init Nat)
    [.call (.insertMany [5, 7]), .take 0, .ask 0 (.contains 7), .call (.insert 1), .call (.contains 7), .ask 0 (.contains 7)] =
      some ({ set := {1, 5, 7}, room := 4, replaced := 1, views := fun k => if k = 0 then some (2, 1) else none },
        [.num 2, .bool true, .bool true, .bool true, .bool false]) := by
  have e1 : ({5, 7} : Finset Nat).sort (· ≤ ·) = [5, 7] := sort_is _ (by decide) (by decide)
  have e2 : ({1, 5, 7} : Finset Nat).sort (· ≤ ·) = [1, 5, 7] := sort_is _ (by decide) (by decide)
  have u : sortedUnique [5, 7] = true := by decide
  have i : (insert 1 {5, 7} : Finset Nat).card = 3 := by decide
  simp [setViewRun, setViewStep, setStep, Spec.fits, roomNeeded, SetShelf.init, viewAnswer, smallest, e1, e2, u, i]

/-- A value that was in the set when the view was taken, and is in it now, need not be in the view: a smaller one has taken its place. -/
theorem C84_pushed_out_witness (c : Cfg) : ∃ w, (SetWorld.init Nat).run c
    [.call (.insertMany [5, 7]), .take 0, .ask 0 (.contains 7), .call (.insert 1), .call (.contains 7), .ask 0 (.contains 7)] =
      .ok (w, [.num 2, .bool true, .bool true, .bool true, .bool false]) :=
  C84_views c _ pushedOut

/-- **C84** (use after the storage was replaced).  Once a call needed more room than there was, values are no longer there for a view taken
before: access to one is undefined, and so is a search, in a view that was not empty. -/
theorem C84_gone (c : Cfg) (program : List (SetStmt T)) {s : SetShelf T} {answers : List (SetOut T)}
    (h : setViewRun (SetShelf.init T) program = some (s, answers)) {v n r : Nat} (hv : s.views v = some (n, r)) (hr : r ≠ s.replaced) :
    (∀ i : Nat, i < n → (SetWorld.init T).run c (program ++ [.ask v (.get i)]) = .error (.ub .outOfBounds)) ∧
    (n ≠ 0 → ∀ x, (SetWorld.init T).run c (program ++ [.ask v (.contains x)]) = .error (.ub .outOfBounds)) := by
  obtain ⟨w, h1, I⟩ := SVInv.start.run (c := c) h
  obtain ⟨p, h2, V⟩ := I.lookup hv
  have hp : p.2 ≠ w.addr := fun e => hr (V.place.1 e)
  have hread : ∀ i, (w.through p).buf.read i = .error (.ub .outOfBounds) := fun i => by
    simp [SetWorld.through, follow, hp, Buf.read, Buf.empty]
  have hrun : ∀ q : SetQuery T, (SetWorld.init T).run c (program ++ [.ask v q]) = (do
      let x ← (w.through p).answer c q
      .ok (w, answers ++ [x])) := by
    intro q
    have : ∀ (sts : List (SetStmt T)) (w0 : SetWorld T) (xs : List (SetOut T)), w0.run c sts = .ok (w, xs) →
        w0.run c (sts ++ [.ask v q]) = (do
          let x ← (w.through p).answer c q
          .ok (w, xs ++ [x])) := by
      intro sts
      induction sts with
      | nil =>
        intro w0 xs e
        cases e
        simp only [List.nil_append, SetWorld.run, SetWorld.step, h2, bind_ok]
        cases (w.through p).answer c q <;> rfl
      | cons st sts ih =>
        intro w0 xs e
        rw [SetWorld.run] at e
        obtain ⟨⟨w1, x⟩, e1, e⟩ := bind_eq_ok.mp e
        obtain ⟨⟨w2, ys⟩, e2, e⟩ := bind_eq_ok.mp e
        cases e
        rw [List.cons_append, SetWorld.run, e1, bind_ok]
        simp only
        rw [ih _ _ e2]
        cases (w.through p).answer c q with
        | error e => rfl
        | ok y => simp [bind_ok]
    exact this _ _ _ h1
  have hn : p.1 = n := V.num
  constructor
  · intro i hi
    rw [hrun]
    have e : (decide ((i : Int) < 0) || decide (((w.through p).size : Int) ≤ i)) = false := by
      show (_ || decide ((p.1 : Int) ≤ i)) = false
      simp; omega
    simp only [SortedArr.answer, SortedArr.get, e, Bool.and_false, errorIf_false, bind_ok]
    rw [if_neg (by omega), hread]
    rfl
  · intro h0 x
    rw [hrun]
    have hz : ∃ m, (w.through p).size = m + 1 := ⟨n - 1, by show p.1 = _; omega⟩
    obtain ⟨m, hm⟩ := hz
    have hf : sortedArrayManipulation.find c sortedArrayManipulation.less (fun i => (w.through p).buf.read i) (m + 1) x =
        .error (.ub .outOfBounds) := by
      unfold sortedArrayManipulation.find sortedArrayManipulation.assertRange sortedArrayManipulation.readAll
      cases c.debug with
      | true =>
        simp only [if_true]
        rw [List.range_succ_eq_map, List.mapM_cons, hread]
        rfl
      | false =>
        simp only [Bool.false_eq_true, if_false, bind_ok]
        rw [sortedArrayManipulation.findLoop, if_neg (by omega)]
        simp only [hread]
        rfl
    simp only [SortedArr.answer, SortedArr.contains, hm, sortedArrayManipulation.contains, hf]
    rfl

/-- The hypotheses of `C84_gone`. -/
example : (setViewRun (SetShelf.init Nat) [.call (.insertMany [5, 7]), .take 0, .call (.insertMany [1, 2, 3])]).map
    (fun r => (r.1.views 0, r.1.replaced)) = some (some (2, 1), 2) := by decide +kernel

/-- **C84** (outside).  With bounds checking, an index outside the view ends the program, whatever happened to the set; without, access to a value
that has been removed, of a type with a destructor, is undefined. -/
theorem C84_outside (c : Cfg) (program : List (SetStmt T)) {s : SetShelf T} {answers : List (SetOut T)}
    (h : setViewRun (SetShelf.init T) program = some (s, answers)) {v n r : Nat} (hv : s.views v = some (n, r)) (i : Int) :
    ∃ w p, (SetWorld.init T).run c program = .ok (w, answers) ∧ w.view v = .ok p ∧
      (c.boundsCheck = true → i < 0 ∨ (n : Int) ≤ i → w.step c (.ask v (.get i)) = .error .abort) ∧
      (c.trivial = false → (s.set.card : Int) ≤ i → i < n → ∃ u, w.step c (.ask v (.get i)) = .error (.ub u)) := by
  obtain ⟨w, h1, I⟩ := SVInv.start.run (c := c) h
  obtain ⟨p, h2, V⟩ := I.lookup hv
  have hn : p.1 = n := V.num
  refine ⟨w, p, h1, h2, fun hb hi => ?_, fun _ hi hj => ?_⟩
  · have e : (decide (i < 0) || decide (((w.through p).size : Int) ≤ i)) = true := by
      rw [show (w.through p).size = n from hn]; simpa using hi
    simp only [SetWorld.step, h2, bind_ok, SortedArr.answer, SortedArr.get, hb, e]
    rfl
  · have e : (decide (i < 0) || decide (((w.through p).size : Int) ≤ i)) = false := by
      rw [show (w.through p).size = n from hn]; simp; omega
    simp only [SetWorld.step, h2, bind_ok, SortedArr.answer, SortedArr.get, e, Bool.and_false, errorIf_false]
    rw [if_neg (by omega)]
    show ∃ u, (do
      let x ← (do
        let v ← (follow p.2 w.addr w.obj.buf).read i.toNat
        Except.ok (SetOut.val v))
      Except.ok (w, some x)) = Except.error (Err.ub u)
    have hx : ∃ u, (follow p.2 w.addr w.obj.buf).read i.toNat = .error (.ub u) := by
      unfold follow
      split
      · have hc : w.obj.buf.cell i.toNat = .raw := by
          rw [show w.obj.buf.cell = _ from I.good.rep.1, cellsOf, List.getElem?_eq_none (by simp; omega)]
        unfold Buf.read
        split
        · rw [hc]; exact ⟨_, rfl⟩
        · exact ⟨_, rfl⟩
      · simp [Buf.read, Buf.empty]
    obtain ⟨u, hu⟩ := hx
    exact ⟨u, by rw [hu]; rfl⟩

end LvArray.Props

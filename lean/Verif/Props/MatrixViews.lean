import Verif.MatrixCaps
import Verif.GoneReads
import Verif.Props.RowViews

/-!
# C86: views of a `CRSMatrix` last until the storage they use is replaced
-/

namespace LvArray.Props

open LvArray Layout Spec RowCaps MatrixCaps

variable {V : Type} {c : Cfg}

/-- A view in the model and in the specification. -/
structure SameMatView (w : MatWorld V) (s : MatShelf V) (p : Nat × Nat × Four Nat) (q : Nat × Nat × Three Nat) : Prop where
  num : p.1 = q.1
  cols : p.2.1 = q.2.1
  sizes : p.2.2.sizes = w.addr.sizes ↔ q.2.2.sizes = s.replaced.sizes
  offsets : p.2.2.offsets = w.addr.offsets ↔ q.2.2.offsets = s.replaced.offsets
  columns : p.2.2.columns = w.addr.columns ↔ q.2.2.values = s.replaced.values
  entries : p.2.2.entries = w.addr.entries ↔ q.2.2.values = s.replaced.values
  known : p.2.2.sizes < w.fresh ∧ p.2.2.offsets < w.fresh ∧ p.2.2.columns < w.fresh ∧ p.2.2.entries < w.fresh
  past : q.2.2.sizes ≤ s.replaced.sizes ∧ q.2.2.offsets ≤ s.replaced.offsets ∧ q.2.2.values ≤ s.replaced.values

/-- The model realises the specification. -/
structure MatInv (w : MatWorld V) (s : MatShelf V) : Prop where
  good : CrsGood w.obj s.matrix
  caps : RepM w.obj.shape.offsets (offs s.caps)
  room : roomC w.obj = ⟨s.room.sizes, s.room.offsets, s.room.values, s.room.values⟩
  addr : w.addr.sizes < w.fresh ∧ w.addr.offsets < w.fresh ∧ w.addr.columns < w.fresh ∧ w.addr.entries < w.fresh
  none : ∀ v, w.views v = none ↔ s.views v = none
  view : ∀ v p q, w.views v = some p → s.views v = some q → SameMatView w s p q

theorem crs_mk_room {colMax r n k : Nat} {m : Crs V} (hn : n ≤ colMax + 1) (h : Crs.mk' c colMax r n k = .ok m) :
    roomC m = ⟨r, r + 1, r * k, r * k⟩ := by
  rw [resize_roomC CWeak.fresh rfl rfl hn h]
  have : total (([] : Layout (Nat × V)).take r ++ List.replicate (r - ([] : Layout (Nat × V)).length) ([], k)) = r * k := by
    simp [Layout.total]
  rw [this]
  unfold grownBy Buf.empty
  simp
  exact ⟨fun h => h.symm, fun h => h.symm⟩

theorem MatInv.start [Add V] {colMax r n k : Nat} (hn : n ≤ colMax + 1) :
    ∃ w : MatWorld V, MatWorld.construct c colMax r n k = .ok w ∧ MatInv w (MatShelf.init V r n k) := by
  obtain ⟨m, h1, h2⟩ := CrsGood.mk_ok (V := V) c colMax r n k hn
  obtain ⟨m', h1', _, h3⟩ := Crs.mk_good (V := V) c colMax r n k hn
  obtain rfl : m = m' := Except.ok.inj (h1.symm.trans h1')
  refine ⟨{ obj := m, addr := ⟨0, 0, 0, 0⟩, fresh := 1, views := fun _ => Option.none }, ?_, h2, ?_, ?_, ?_, ?_, ?_⟩
  · unfold MatWorld.construct
    rw [h1, bind_ok]
  · have := ShGood.off h3.shape
    simpa [MatShelf.init, Layout.caps] using this
  · exact crs_mk_room hn h1
  · simp
  · intro v; simp [MatShelf.init]
  · intro v p q h; cases h

theorem MatInv.lookup {w : MatWorld V} {s : MatShelf V} (I : MatInv w s) {v : Nat} {q : Nat × Nat × Three Nat} (h : s.views v = some q) :
    ∃ p, w.views v = some p ∧ w.view v = .ok p ∧ SameMatView w s p q := by
  cases hp : w.views v with
  | none => have := (I.none v).1 hp; rw [h] at this; cases this
  | some p => exact ⟨p, rfl, by unfold MatWorld.view; rw [hp], I.view v p q hp h⟩

theorem crs_num {m : Crs V} {M : Spec.Matrix V} (h : CrsGood m M) : m.shape.numArrays = M.rows.length := by
  obtain ⟨L, hg, hL⟩ := h.rows
  have : L.length = M.rows.length := by simpa using congrArg List.length hL
  rw [ShGood.num hg.shape]
  simpa using this

/-- The layout that the invariant is about. -/
theorem MatInv.layout {w : MatWorld V} {s : MatShelf V} (I : MatInv w s) :
    ∃ L, CGood w.obj L ∧ L.map (·.1) = s.matrix.rows.map (rowList s.matrix.numCols) ∧ L.caps = s.caps := by
  obtain ⟨L, hg, hL⟩ := I.good.rows
  exact ⟨L, hg, hL, caps_unique (ShGood.off hg.shape) I.caps⟩

theorem mat_through {w : MatWorld V} {p : Nat × Nat × Four Nat} (h : p = (w.obj.shape.numArrays, w.obj.numCols, w.addr)) :
    w.through p = w.obj := by
  subst h
  unfold MatWorld.through follow
  simp

theorem mat_putBack {w : MatWorld V} {p : Nat × Nat × Four Nat} {m : Crs V} (h : p.2.2 = w.addr)
    (h1 : m.shape.numArrays = w.obj.shape.numArrays) (h2 : m.numCols = w.obj.numCols) : (w.putBack p m).obj = m := by
  unfold MatWorld.putBack
  simp only [h, if_true, ← h1, ← h2]

theorem need_le_matGrowth (op : CrsOp V) (n : Nat) : n ≤ matGrowth op n := by
  cases op <;> simp only [matGrowth] <;> omega

theorem matRoom_ne {op : CrsOp V} {room need : Nat} : (matRoom op room need = room) ↔ tooSmall room need = false := by
  have hg := need_le_matGrowth op need
  unfold matRoom
  cases h : tooSmall room need
  · simp
  · simp only [if_true, Bool.true_eq_false, iff_false]
    unfold tooSmall at h
    have := of_decide_eq_true h
    omega

/-- A view is told apart from the current storage in the same way before and after a call. -/
theorem mat_moved_iff {op : CrsOp V} {room need a p f r q : Nat} (hp : p < f) (hq : q ≤ r) (h : p = a ↔ q = r) :
    (p = movedTo room (matRoom op room need) a f ↔ q = r + (tooSmall room need).toNat) := by
  unfold movedTo
  cases hs : tooSmall room need
  · rw [if_pos (matRoom_ne.2 hs)]
    simpa using h
  · rw [if_neg (fun e => by have := matRoom_ne.1 e; rw [hs] at this; cases this)]
    constructor
    · intro e; omega
    · intro e; simp at e; omega

theorem onView_needs {op : CrsOp V} (h : op.onView = true) (caps : List Nat) : matNeeds op caps = ⟨0, 0, caps.sum⟩ := by
  cases op <;> first | rfl | cases h

variable [Add V]

theorem onView_shape {colMax : Nat} {M M' : Spec.Matrix V} {op : CrsOp V} {out : AoSOut (Nat ⊕ V)} (h : op.onView = true)
    (hs : crsStep colMax M op = some (M', out)) : M'.numCols = M.numCols ∧ M'.rows.length = M.rows.length := by
  cases op <;> simp only [CrsOp.onView, Bool.false_eq_true] at h <;> simp only [crsStep] at hs
  case insert => split at hs <;> [(obtain ⟨f, _, _, rfl, _⟩ := CrsGood.onRow_some hs; simp); cases hs]
  case insertMany => split at hs <;> [(obtain ⟨f, _, _, rfl, _⟩ := CrsGood.onRow_some hs; simp); cases hs]
  case remove => obtain ⟨f, _, _, rfl, _⟩ := CrsGood.onRow_some hs; simp
  case removeMany => split at hs <;> [(obtain ⟨f, _, _, rfl, _⟩ := CrsGood.onRow_some hs; simp); cases hs]
  case isEmpty => obtain ⟨f, _, _, rfl, _⟩ := CrsGood.onRow_some hs; simp
  case getColumn =>
    simp only [Option.bind_eq_bind, Option.bind_eq_some_iff, Option.some.injEq, Prod.mk.injEq] at hs
    obtain ⟨f, hf, j, hj, rfl, rfl⟩ := hs; simp
  case getEntry =>
    simp only [Option.bind_eq_bind, Option.bind_eq_some_iff, Option.some.injEq, Prod.mk.injEq] at hs
    obtain ⟨f, hf, j, hj, v, _, rfl, rfl⟩ := hs; simp
  case numNonZeros => cases hs; simp
  case setValues => cases hs; simp
  case addToRow => split at hs <;> [(obtain ⟨f, _, _, rfl, _⟩ := CrsGood.onRow_some hs; simp); cases hs]

theorem MatInv.step {colMax : Nat} (ht : c.trivial = true) {w : MatWorld V} {s s' : MatShelf V} {st : MatStmt V}
    {x : Option (AoSOut (Nat ⊕ V))} (I : MatInv w s) (hs : matStep colMax s st = some (s', x)) :
    ∃ w', w.step c colMax st = .ok (w', x) ∧ MatInv w' s' := by
  obtain ⟨L, hg, hL, hcaps⟩ := I.layout
  have hr := I.room
  have e1 : w.obj.shape.sizes.cap = s.room.sizes := congrArg Four.sizes hr
  have e2 : w.obj.shape.offsets.cap = s.room.offsets := congrArg Four.offsets hr
  have e3 : w.obj.columns.cap = s.room.values := congrArg Four.columns hr
  have e4 : w.obj.entries.cap = s.room.values := congrArg Four.entries hr
  -- what a call on the matrix does
  have call : ∀ {op : CrsOp V} {M' : Spec.Matrix V} {out : AoSOut (Nat ⊕ V)}, crsStep colMax s.matrix op = some (M', out) →
      ∃ m', w.obj.step c colMax op = .ok (m', out) ∧ CrsGood m' M' ∧ After w.obj m' op (capsAfter s.matrix M' s.caps op) := by
    intro op M' out h
    rcases I.good.step_ok (c := c) colMax op M' out h with ⟨m', k1, k2⟩ | ⟨k1, _⟩
    · refine ⟨m', k1, k2, ?_⟩
      rw [← hcaps]
      exact step_after I.good hg hL h k1 k2
    · rw [ht] at k1; cases k1
  cases st with
  | call op =>
    simp only [matStep, Option.map_eq_some_iff, Prod.mk.injEq] at hs
    obtain ⟨⟨M', out⟩, h1, rfl, rfl⟩ := hs
    obtain ⟨m', k1, k2, k3⟩ := call h1
    have hroom := k3.room
    have c1 := congrArg Four.sizes hroom
    have c2 := congrArg Four.offsets hroom
    have c3 := congrArg Four.columns hroom
    have c4 := congrArg Four.entries hroom
    simp only [roomC] at c1 c2 c3 c4
    refine ⟨{ obj := m',
               addr := ⟨movedTo w.obj.shape.sizes.cap m'.shape.sizes.cap w.addr.sizes w.fresh,
                 movedTo w.obj.shape.offsets.cap m'.shape.offsets.cap w.addr.offsets w.fresh,
                 movedTo w.obj.columns.cap m'.columns.cap w.addr.columns w.fresh,
                 movedTo w.obj.entries.cap m'.entries.cap w.addr.entries w.fresh⟩,
               fresh := w.fresh + 1, views := w.views },
      by simp only [MatWorld.step, k1, bind_ok], k2, k3.offsets, ?_, ?_, I.none, ?_⟩
    · rw [hroom, e1, e2, e3, e4]
    · exact ⟨movedTo_lt I.addr.1, movedTo_lt I.addr.2.1, movedTo_lt I.addr.2.2.1, movedTo_lt I.addr.2.2.2⟩
    · intro v p q hp hq
      have V := I.view v p q hp hq
      refine ⟨V.num, V.cols, ?_, ?_, ?_, ?_, ?_, ?_⟩
      · simp only [c1, e1]; exact mat_moved_iff V.known.1 V.past.1 V.sizes
      · simp only [c2, e2]; exact mat_moved_iff V.known.2.1 V.past.2.1 V.offsets
      · simp only [c3, e3]; exact mat_moved_iff V.known.2.2.1 V.past.2.2 V.columns
      · simp only [c4, e4]; exact mat_moved_iff V.known.2.2.2 V.past.2.2 V.entries
      · have := V.known; simp only; omega
      · have := V.past; simp only; omega
  | take v =>
    simp only [matStep, Option.some.injEq, Prod.mk.injEq] at hs
    obtain ⟨rfl, rfl⟩ := hs
    refine ⟨_, rfl, I.good, I.caps, I.room, I.addr, ?_, ?_⟩
    · intro u
      simp only [upd]
      split
      · simp
      · exact I.none u
    · intro u p q hp hq
      simp only [upd] at hp hq
      split at hp
      · rw [if_pos (by assumption)] at hq
        cases hp; cases hq
        exact ⟨crs_num I.good, I.good.cols, by simp, by simp, by simp, by simp, I.addr, by simp⟩
      · rw [if_neg (by assumption)] at hq
        have V := I.view u p q hp hq
        exact ⟨V.num, V.cols, V.sizes, V.offsets, V.columns, V.entries, V.known, V.past⟩
  | dup v u =>
    simp only [matStep, Option.map_eq_some_iff, Prod.mk.injEq] at hs
    obtain ⟨q0, h1, rfl, rfl⟩ := hs
    obtain ⟨p0, h2, h3, V0⟩ := I.lookup h1
    refine ⟨{ w with views := upd w.views v (some p0) }, by simp only [MatWorld.step, h3, bind_ok], I.good, I.caps, I.room, I.addr, ?_, ?_⟩
    · intro k
      simp only [upd]
      split
      · simp
      · exact I.none k
    · intro k p q hp hq
      simp only [upd] at hp hq
      split at hp
      · rw [if_pos (by assumption)] at hq
        cases hp; cases hq
        exact ⟨V0.num, V0.cols, V0.sizes, V0.offsets, V0.columns, V0.entries, V0.known, V0.past⟩
      · rw [if_neg (by assumption)] at hq
        have V := I.view k p q hp hq
        exact ⟨V.num, V.cols, V.sizes, V.offsets, V.columns, V.entries, V.known, V.past⟩
  | numRows v =>
    simp only [matStep, Option.map_eq_some_iff, Prod.mk.injEq] at hs
    obtain ⟨q0, h1, rfl, rfl⟩ := hs
    obtain ⟨p0, h2, h3, V0⟩ := I.lookup h1
    refine ⟨w, ?_, I⟩
    simp only [MatWorld.step, h3, bind_ok]
    rw [← V0.num]; rfl
  | numColumns v =>
    simp only [matStep, Option.map_eq_some_iff, Prod.mk.injEq] at hs
    obtain ⟨q0, h1, rfl, rfl⟩ := hs
    obtain ⟨p0, h2, h3, V0⟩ := I.lookup h1
    refine ⟨w, ?_, I⟩
    simp only [MatWorld.step, h3, bind_ok]
    rw [← V0.cols]; rfl
  | via v op =>
    simp only [matStep, Option.bind_eq_some_iff, Option.ite_none_right_eq_some, Option.some.injEq, Prod.mk.injEq] at hs
    obtain ⟨q0, h1, ⟨hcur, hv⟩, ⟨M', out⟩, h2, h3, rfl, rfl⟩ := hs
    obtain ⟨p0, _, h5, V0⟩ := I.lookup h1
    have hcur : q0 = (s.matrix.rows.length, s.matrix.numCols, s.replaced) := hcur
    have ha : p0.2.2 = w.addr := by
      have a1 := V0.sizes.2 (by rw [hcur])
      have a2 := V0.offsets.2 (by rw [hcur])
      have a3 := V0.columns.2 (by rw [hcur])
      have a4 := V0.entries.2 (by rw [hcur])
      cases hh : p0.2.2; cases hw : w.addr
      rw [hh, hw] at a1 a2 a3 a4
      simp only at a1 a2 a3 a4
      rw [a1, a2, a3, a4]
    have hp : p0 = (w.obj.shape.numArrays, w.obj.numCols, w.addr) := by
      have b1 := V0.num
      have b2 := V0.cols
      rw [hcur] at b1 b2
      rw [crs_num I.good, I.good.cols, ← ha]
      exact Prod.ext b1 (Prod.ext b2 rfl)
    obtain ⟨m', k1, k2, k3⟩ := call h2
    have k4 := viewStep_eq I.good hg hL hv h2 k1 k2 (by rw [hcaps]; exact h3)
    obtain ⟨d1, d2⟩ := onView_shape hv h2
    have hobj : (w.putBack p0 m').obj = m' := mat_putBack ha (by rw [crs_num k2, crs_num I.good]; exact d2) (by
      rw [k2.cols, I.good.cols]; exact d1)
    refine ⟨w.putBack p0 m', ?_, ?_, ?_, ?_, I.addr, I.none, ?_⟩
    · simp only [MatWorld.step, h5, bind_ok, mat_through hp, k4]
    · rw [hobj]; exact k2
    · rw [hobj]
      have := k3.offsets
      rw [h3] at this
      exact this
    · rw [hobj, k3.room, onView_needs hv, h3]
      have f1 := fitsC hg
      have f2 := fitsE hg
      rw [← caps_sum, hcaps] at f1 f2
      rw [matRoom_le (Nat.zero_le _), matRoom_le (Nat.zero_le _), matRoom_le f1, matRoom_le f2, e1, e2, e3, e4]
    · intro k p q hp hq
      have V := I.view k p q hp hq
      exact ⟨V.num, V.cols, V.sizes, V.offsets, V.columns, V.entries, V.known, V.past⟩

theorem MatInv.run {colMax : Nat} (ht : c.trivial = true) {sts : List (MatStmt V)} : ∀ {w : MatWorld V} {s s' : MatShelf V}
    {xs : List (AoSOut (Nat ⊕ V))}, MatInv w s → matRun colMax s sts = some (s', xs) →
    ∃ w', w.run c colMax sts = .ok (w', xs) ∧ MatInv w' s' := by
  induction sts with
  | nil =>
    intro w s s' xs I h
    simp only [matRun, Option.some.injEq, Prod.mk.injEq] at h
    obtain ⟨rfl, rfl⟩ := h
    exact ⟨w, rfl, I⟩
  | cons st sts ih =>
    intro w s s' xs I h
    simp only [matRun, Option.bind_eq_some_iff, Option.map_eq_some_iff, Prod.mk.injEq] at h
    obtain ⟨⟨s1, x⟩, h1, ⟨s2, ys⟩, h2, rfl, rfl⟩ := h
    obtain ⟨w1, k1, I1⟩ := I.step ht h1
    obtain ⟨w2, k2, I2⟩ := ih I1 h2
    refine ⟨w2, ?_, I2⟩
    unfold MatWorld.run
    rw [k1, bind_ok]
    simp only
    rw [k2, bind_ok]

/-- **C86** (what views show).  For every program with a `CRSMatrix` and views of it: if the specification allows it, it runs
without error and gets exactly the answers of the specification, in which a view goes on sharing the non zeros with the matrix until
a storage is replaced, and in which a storage is replaced only by a call that needs more room than there is. -/
theorem C86_views (c : Cfg) (ht : c.trivial = true) (colMax rows columns capacity : Nat) (hn : columns ≤ colMax + 1)
    (program : List (MatStmt V)) {s : MatShelf V} {answers : List (AoSOut (Nat ⊕ V))}
    (h : matRun colMax (MatShelf.init V rows columns capacity) program = some (s, answers)) :
    ∃ w0 w : MatWorld V, MatWorld.construct c colMax rows columns capacity = .ok w0 ∧ w0.run c colMax program = .ok (w, answers) := by
  obtain ⟨w0, h1, I⟩ := MatInv.start (V := V) (c := c) (r := rows) (k := capacity) hn
  obtain ⟨w, h2, _⟩ := I.run ht h
  exact ⟨w0, w, h1, h2⟩

/-- A program with room reserved: the view shows what the matrix gets, the matrix what the view writes. -/
def matSharing : List (MatStmt Int) :=
  [.call (.reserveNonZerosTotal 16), .take 0, .call (.insert 0 3 5), .via 0 (.getColumn 0 0), .via 0 (.insertMany 1 [(0, 7), (2, 8)]),
    .call (.getEntry 1 1), .dup 1 0, .via 1 (.addToRow .auto 1 [(2, 10)]), .call (.insertMany 1 [(1, 1), (3, 3)]),
    .via 0 (.getEntry 1 2), .via 1 (.remove 0 3), .call .numNonZeros, .numRows 0, .numColumns 1]

/-- The hypotheses of `C86_views`, and the answers. -/
example : (matRun 9 (MatShelf.init Int 2 4 2) matSharing).map (·.2) =
    some [.unit, .bool true, .val (.inl 3), .num 2, .val (.inr 8), .unit, .num 2, .val (.inr 18), .bool true, .num 4, .num 2,
      .num 4] := by rfl

/-! ## Calls that fit in the room there is -/

theorem mat_fit_run {colMax : Nat} {ops : List (CrsOp V)} : ∀ {s : MatShelf V}, fitMatrix colMax s.room s.matrix s.caps ops →
    ∃ M' caps' outs, crsRun colMax s.matrix ops = some (M', outs) ∧ M'.numCols = s.matrix.numCols ∧
      M'.rows.length = s.matrix.rows.length ∧
      matRun colMax s (ops.map .call) = some ({ s with matrix := M', caps := caps' }, outs) := by
  induction ops with
  | nil => intro s _; exact ⟨s.matrix, s.caps, [], rfl, rfl, rfl, rfl⟩
  | cons op ops ih =>
    intro s h
    obtain ⟨M', out, h1, h2, h3, h4, h5, h6, h7⟩ := h
    obtain ⟨M2, caps2, outs, k1, k2, k3, k4⟩ := ih (s := { s with matrix := M', caps := capsAfter s.matrix M' s.caps op }) h7
    refine ⟨M2, caps2, out :: outs, ?_, k2.trans h2, k3.trans h3, ?_⟩
    · simp only [crsRun, h1, k1, Option.bind_some, Option.map_some]
    · simp only [List.map_cons, matRun, matStep, h1, Option.map_some, Option.bind_some, matRoom_le h4, matRoom_le h5, matRoom_le h6,
        tooSmall_fit h4, tooSmall_fit h5, tooSmall_fit h6, Bool.toNat_false, Nat.add_zero]
      rw [k4]
      rfl

theorem matRun_append {colMax : Nat} {P Q : List (MatStmt V)} : ∀ {s s1 s2 : MatShelf V} {xs ys : List (AoSOut (Nat ⊕ V))},
    matRun colMax s P = some (s1, xs) → matRun colMax s1 Q = some (s2, ys) → matRun colMax s (P ++ Q) = some (s2, xs ++ ys) := by
  induction P with
  | nil =>
    intro s s1 s2 xs ys h k
    simp only [matRun, Option.some.injEq, Prod.mk.injEq] at h
    obtain ⟨rfl, rfl⟩ := h
    exact k
  | cons st P ih =>
    intro s s1 s2 xs ys h k
    simp only [matRun, Option.bind_eq_some_iff, Option.map_eq_some_iff, Prod.mk.injEq] at h
    obtain ⟨⟨s3, x⟩, h1, ⟨s4, zs⟩, h2, rfl, rfl⟩ := h
    simp only [List.cons_append, matRun, h1, Option.bind_some, ih h2 k, Option.map_some, List.append_assoc]

/-- **C86** (room).  After every legal program: a view taken since a storage was last replaced survives every sequence of calls that
keeps the number of rows and columns and never needs more room than there is, and every call that is then legal on the matrix and
needs no more room for a row gets through the view what it gets on the matrix. -/
theorem C86_room (c : Cfg) (ht : c.trivial = true) (colMax rows columns capacity : Nat) (hn : columns ≤ colMax + 1)
    (program : List (MatStmt V)) {s : MatShelf V} {answers : List (AoSOut (Nat ⊕ V))}
    (h : matRun colMax (MatShelf.init V rows columns capacity) program = some (s, answers)) {v : Nat} {seen : Nat × Nat × Three Nat}
    (hv : s.views v = some seen) (hnow : s.current seen) (ops : List (CrsOp V)) (hfit : fitMatrix colMax s.room s.matrix s.caps ops) :
    ∃ M' caps' outs, crsRun colMax s.matrix ops = some (M', outs) ∧
      matRun colMax s (ops.map .call) = some ({ s with matrix := M', caps := caps' }, outs) ∧
      ∀ op M'' out, op.onView = true → crsStep colMax M' op = some (M'', out) → capsAfter M' M'' caps' op = caps' →
        ∃ w0 w : MatWorld V, MatWorld.construct c colMax rows columns capacity = .ok w0 ∧
          w0.run c colMax (program ++ ops.map .call ++ [.via v op]) = .ok (w, answers ++ outs ++ [out]) := by
  obtain ⟨M', caps', outs, k1, k2, k3, k4⟩ := mat_fit_run hfit
  refine ⟨M', caps', outs, k1, k4, fun op M'' out g1 g2 g3 => ?_⟩
  have hc : ({ s with matrix := M', caps := caps' } : MatShelf V).current seen := by
    unfold MatShelf.current at hnow ⊢
    rw [hnow, k2, k3]
  have k5 : matRun colMax { s with matrix := M', caps := caps' } [.via v op] =
      some ({ s with matrix := M'', caps := caps' }, [out]) := by
    simp only [matRun, matStep, hv, Option.bind_some, hc, g1, g2, g3, and_self, if_true, Option.map_some]
    rfl
  exact C86_views c ht colMax rows columns capacity hn _ (matRun_append (matRun_append h k4) k5)

/-- The hypotheses of `C86_room`: a view of a matrix with room for 16 non zeros, and calls that make a row larger. -/
def matRoomy : List (MatStmt Int) := [.call (.reserveNonZerosTotal 16), .take 0]

example : (matRun 9 (MatShelf.init Int 2 4 2) matRoomy).map (fun r => (r.1.room, r.1.caps, r.1.replaced, r.1.views 0)) =
    some (⟨2, 3, 16⟩, [2, 2], ⟨0, 0, 1⟩, some (2, 4, ⟨0, 0, 1⟩)) := by rfl

example : fitMatrix 9 ⟨2, 3, 16⟩ ⟨4, [fun _ => none, fun _ => (none : Option Int)]⟩ [2, 2]
    [.insertMany 1 [(0, 7), (1, 8), (2, 9)], .reserveNonZeros 0 3, .compress] := by
  refine ⟨_, _, rfl, rfl, rfl, ?_, ?_, ?_, _, _, rfl, rfl, rfl, ?_, ?_, ?_, _, _, rfl, rfl, rfl, ?_, ?_, ?_, trivial⟩ <;> decide

/-! ## Views whose storage was replaced -/

/-- A row of the matrix as a view with some pointers gone sees it. -/
structure RowSeen (m : Crs V) (i n : Nat) (S O W : Prop) : Prop where
  num : i < m.shape.numArrays
  size : S → m.shape.sizes.read i = .ok n
  noSize : ¬ S → ∀ k, m.shape.sizes.read k = .error (.ub .outOfBounds)
  offset : O → ∃ p, m.shape.offsets.read i = .ok p
  next : O → ∃ p, m.shape.offsets.read (i + 1) = .ok p
  noOffset : ¬ O → ∀ k, m.shape.offsets.read k = .error (.ub .outOfBounds)
  noColumn : ¬ W → ∀ k, m.columns.read k = .error (.ub .outOfBounds)
  noEntry : ¬ W → ∀ k, m.entries.read k = .error (.ub .outOfBounds)

omit [Add V] in
theorem MatInv.seen {w : MatWorld V} {s : MatShelf V} (I : MatInv w s) {p : Nat × Nat × Four Nat} {q : Nat × Nat × Three Nat}
    (R : SameMatView w s p q) {i : Nat} {f : Nat → Option V} (hi : i < q.1) (hr : s.matrix.rows[i]? = some f) :
    RowSeen (w.through p) i (rowList s.matrix.numCols f).length (q.2.2.sizes = s.replaced.sizes) (q.2.2.offsets = s.replaced.offsets)
      (q.2.2.values = s.replaced.values) := by
  obtain ⟨A, cap, B, rfl, hg, _⟩ := I.good.at_ hr
  have hn : w.obj.shape.checkBounds ⟨true, false, false⟩ A.length = .ok () := by
    unfold Shape.checkBounds errorIf; simp
  refine ⟨by show A.length < p.1; rw [R.num]; exact hi, ?_, ?_, ?_, ?_, ?_, ?_, ?_⟩
  · intro h
    have k := hg.shape.sizeOfAt (c := ⟨true, false, false⟩) rfl
    unfold Shape.sizeOfArray at k
    rw [hn, bind_ok] at k
    show (follow p.2.2.sizes w.addr.sizes w.obj.shape.sizes).read A.length = _
    unfold follow
    rw [if_pos (R.sizes.2 h), k]
  · intro h k
    show (follow p.2.2.sizes w.addr.sizes w.obj.shape.sizes).read k = _
    unfold follow
    rw [if_neg (fun e => h (R.sizes.1 e))]
    rfl
  · intro h
    have k := hg.shape.capacityOfAt (c := ⟨true, false, false⟩) rfl
    unfold Shape.capacityOfArray at k
    rw [hn, bind_ok] at k
    obtain ⟨n1, _, k⟩ := bind_eq_ok.1 k
    obtain ⟨n2, k2, _⟩ := bind_eq_ok.1 k
    refine ⟨n2, ?_⟩
    show (follow p.2.2.offsets w.addr.offsets w.obj.shape.offsets).read A.length = _
    unfold follow
    rw [if_pos (R.offsets.2 h), k2]
  · intro h
    have k := hg.shape.capacityOfAt (c := ⟨true, false, false⟩) rfl
    unfold Shape.capacityOfArray at k
    rw [hn, bind_ok] at k
    obtain ⟨n1, k1, _⟩ := bind_eq_ok.1 k
    refine ⟨n1, ?_⟩
    show (follow p.2.2.offsets w.addr.offsets w.obj.shape.offsets).read (A.length + 1) = _
    unfold follow
    rw [if_pos (R.offsets.2 h), k1]
  · intro h k
    show (follow p.2.2.offsets w.addr.offsets w.obj.shape.offsets).read k = _
    unfold follow
    rw [if_neg (fun e => h (R.offsets.1 e))]
    rfl
  · intro h k
    show (follow p.2.2.columns w.addr.columns w.obj.columns).read k = _
    unfold follow
    rw [if_neg (fun e => h (R.columns.1 e))]
    rfl
  · intro h k
    show (follow p.2.2.entries w.addr.entries w.obj.entries).read k = _
    unfold follow
    rw [if_neg (fun e => h (R.entries.1 e))]
    rfl

section
variable {m : Crs V} {i n : Nat} {S O W : Prop}
omit [Add V]

theorem RowSeen.bounds (h : RowSeen m i n S O W) : m.shape.checkBounds c i = .ok () := by
  have : decide (m.shape.numArrays ≤ i) = false := by have := h.num; simp; omega
  unfold Shape.checkBounds errorIf
  simp [this]

theorem RowSeen.sizeOf (h : RowSeen m i n S O W) : m.shape.sizeOfArray c i = m.shape.sizes.read i := by
  unfold Shape.sizeOfArray
  rw [h.bounds, bind_ok]

/-- An expression that needs the size, the capacity, the offset, and something else. -/
theorem RowSeen.both {α : Type} {P : Prop} (h : RowSeen m i n S O W) (hn : ¬ S ∨ ¬ O ∨ P) (f : Nat → Nat → Nat → R α)
    (hf : P → ∀ cap p, f n cap p = .error (.ub .outOfBounds)) :
    (do let k ← m.shape.sizeOfArray c i; let cap ← m.shape.capacityOfArray c i; let p ← m.shape.offsets.read i; f k cap p) =
      .error (.ub .outOfBounds) := by
  by_cases hS : S
  · unfold Shape.capacityOfArray
    rw [h.sizeOf, h.size hS, bind_ok, h.bounds, bind_ok]
    by_cases hO : O
    · obtain ⟨p, hp⟩ := h.offset hO
      obtain ⟨q, hq⟩ := h.next hO
      simp only [hp, hq, bind_ok]
      exact hf ((hn.resolve_left (fun h => h hS)).resolve_left (fun h => h hO)) _ _
    · rw [h.noOffset hO, bind_err, bind_err]
  · rw [h.sizeOf, h.noSize hS, bind_err]

/-- An expression that needs the size, the offset, and something else. -/
theorem RowSeen.start {α : Type} {P : Prop} (h : RowSeen m i n S O W) (hn : ¬ S ∨ ¬ O ∨ P) (f : Nat → Nat → R α)
    (hf : P → ∀ p, f n p = .error (.ub .outOfBounds)) :
    (do let k ← m.shape.sizeOfArray c i; m.shape.checkBounds c i; let p ← m.shape.offsets.read i; f k p) =
      .error (.ub .outOfBounds) := by
  by_cases hS : S
  · rw [h.sizeOf, h.size hS, bind_ok, h.bounds, bind_ok]
    by_cases hO : O
    · obtain ⟨p, hp⟩ := h.offset hO
      rw [hp, bind_ok]
      exact hf ((hn.resolve_left (fun h => h hS)).resolve_left (fun h => h hO)) _
    · rw [h.noOffset hO, bind_err]
  · rw [h.sizeOf, h.noSize hS, bind_err]

theorem bind_gone {α β : Type} {x : R α} {f : α → R β} (e : x = .error (.ub .outOfBounds)) : (x >>= f) = .error (.ub .outOfBounds) := by
  rw [e, bind_err]

theorem RowSeen.insertNonZero (q : RowSeen m i n S O W) (hn : ¬ S ∨ ¬ O ∨ ¬ W ∧ n ≠ 0) (k : Nat) (x : V) :
    m.insertNonZero c false i k x = .error (.ub .outOfBounds) := by
  unfold Crs.insertNonZero Crs.insertNonZeroIn
  refine q.both hn _ ?_
  rintro ⟨hW, h0⟩ cap p'
  refine bind_gone ?_
  exact gone_insertOne (t := Crs.target c false i n cap [x]) (s := m) (fun k => q.noColumn hW _) h0 k

theorem RowSeen.insertNonZeros (q : RowSeen m i n S O W) {ks : List Nat} {es : List V} (hn : ¬ S ∨ ¬ O ∨ ¬ W ∧ n ≠ 0 ∧ ks ≠ [])
    (hs : sortedUnique ks) : m.insertNonZeros c false i ks es = .error (.ub .outOfBounds) := by
  have key : ¬ W ∧ n ≠ 0 ∧ ks ≠ [] → ∀ cap,
      sortedArrayManipulation.insertRange c.ix (Crs.target c false i n cap es) m n ks = .error (.ub .outOfBounds) :=
    fun ⟨hW, h0, hne⟩ cap => gone_insertRange (t := Crs.target c false i n cap es) (s := m) (fun k => q.noColumn hW _) h0 hs hne
  unfold Crs.insertNonZeros Crs.insertNonZerosIn
  refine q.both hn _ ?_
  intro hP cap p'
  exact bind_gone (key hP cap)

theorem RowSeen.removeNonZero (q : RowSeen m i n S O W) (hn : ¬ S ∨ ¬ O ∨ ¬ W ∧ n ≠ 0) (k : Nat) :
    m.removeNonZero c i k = .error (.ub .outOfBounds) := by
  unfold Crs.removeNonZero Crs.removeNonZeroIn
  refine q.both hn _ ?_
  rintro ⟨hW, h0⟩ cap p'
  refine bind_gone ?_
  exact gone_removeOne (t := Crs.target c false i n cap []) (s := m) (fun k => q.noColumn hW _) h0 k

theorem RowSeen.removeNonZeros (q : RowSeen m i n S O W) {ks : List Nat} (hn : ¬ S ∨ ¬ O ∨ ¬ W ∧ n ≠ 0 ∧ ks ≠ [])
    (hs : sortedUnique ks) : m.removeNonZeros c i ks = .error (.ub .outOfBounds) := by
  unfold Crs.removeNonZeros Crs.removeNonZerosIn
  refine q.both hn _ ?_
  rintro ⟨hW, h0, hne⟩ cap p'
  refine bind_gone ?_
  exact gone_removeRange (t := Crs.target c false i n cap []) (s := m) (fun k => q.noColumn hW _) h0 hs hne

theorem RowSeen.position {α : Type} (h : RowSeen m i n S O W) {j : Nat} (hj : j < n) (hn : ¬ O ∨ ¬ W ∨ c.boundsCheck = true ∧ ¬ S)
    (f : Nat → R α) (hf : ¬ W → ∀ p, f p = .error (.ub .outOfBounds)) :
    (do m.shape.checkBounds2 c i j; let p ← m.shape.offsets.read i; f p) = .error (.ub .outOfBounds) := by
  have h1 : ¬ (m.shape.numArrays ≤ i) := by have := h.num; omega
  have h2 : decide (n ≤ j) = false := by simp; omega
  have rest : (¬ O ∨ ¬ W) → (do let p ← m.shape.offsets.read i; f p) = .error (.ub .outOfBounds) := by
    intro hn
    by_cases hO : O
    · obtain ⟨p, hp⟩ := h.offset hO
      rw [hp, bind_ok, hf (hn.resolve_left (fun h => h hO))]
    · rw [h.noOffset hO, bind_err]
  unfold Shape.checkBounds2
  cases hb : c.boundsCheck
  · simp only [Bool.false_eq_true, if_false, bind_ok]
    refine rest ?_
    rcases hn with hn | hn | hn
    · exact .inl hn
    · exact .inr hn
    · rw [hb] at hn; exact absurd hn.1 (by simp)
  · rw [if_pos rfl, if_neg h1]
    by_cases hS : S
    · rw [h.size hS, bind_ok, h2]
      simp only [errorIf, Bool.false_eq_true, if_false, bind_ok]
      refine rest ?_
      rcases hn with hn | hn | hn
      · exact .inl hn
      · exact .inr hn
      · exact absurd hS hn.2
    · rw [h.noSize hS, bind_err, bind_err]

end

/-- **C86** (after the storage was replaced).  After every legal program: a call about a row, which the view takes there to be and
which would be legal on the matrix, is undefined behaviour through the view when a storage that the call looks at was replaced
since the view was taken: no check notices. -/
theorem C86_gone (c : Cfg) (ht : c.trivial = true) (colMax rows columns capacity : Nat) (hn : columns ≤ colMax + 1)
    (program : List (MatStmt V)) {s : MatShelf V} {answers : List (AoSOut (Nat ⊕ V))}
    (h : matRun colMax (MatShelf.init V rows columns capacity) program = some (s, answers)) {v : Nat} {seen : Nat × Nat × Three Nat}
    (hv : s.views v = some seen) {op : CrsOp V} {i : Nat} (hi : rowOf op = some i) (hrow : i < seen.1)
    (hlegal : crsStep colMax s.matrix op ≠ none) (hg : matGone c.boundsCheck s.matrix seen.2.2 s.replaced op) :
    ∃ w0 w : MatWorld V, MatWorld.construct c colMax rows columns capacity = .ok w0 ∧ w0.run c colMax program = .ok (w, answers) ∧
      ∃ u, w.step c colMax (.via v op) = .error (.ub u) := by
  obtain ⟨w0, h1, I⟩ := MatInv.start (V := V) (c := c) (r := rows) (k := capacity) hn
  obtain ⟨w, h2, I⟩ := I.run ht h
  refine ⟨w0, w, h1, h2, .outOfBounds, ?_⟩
  obtain ⟨p, _, h5, R⟩ := I.lookup hv
  simp only [MatWorld.step, h5, bind_ok]
  obtain ⟨⟨M', out⟩, hs⟩ := Option.ne_none_iff_exists'.1 hlegal
  suffices key : (w.through p).viewStep c op = .error (.ub .outOfBounds) by simp only [key, bind_err]
  -- the row there is, and what is left of it
  have row : ∀ {ok : (Nat → Option V) → Bool} {g : (Nat → Option V) → Nat → Option V} {o : (Nat → Option V) → AoSOut (Nat ⊕ V)}
      {r : Spec.Matrix V × AoSOut (Nat ⊕ V)}, s.matrix.onRow i ok g o = some r →
      RowSeen (w.through p) i (s.matrix.count i) (seen.2.2.sizes = s.replaced.sizes) (seen.2.2.offsets = s.replaced.offsets)
        (seen.2.2.values = s.replaced.values) := by
    intro ok g o r hr
    obtain ⟨f, hf, _⟩ := CrsGood.onRow_some (M' := r.1) (out := r.2) hr
    have := I.seen R hrow hf
    rw [← columnsOf_length] at this
    have hc : s.matrix.count i = (columnsOf s.matrix.numCols f).length := by
      unfold Matrix.count Matrix.counts
      rw [List.getElem?_map, hf]
      rfl
    rw [hc]
    exact this
  have fail : ∀ {α β : Type} {x : LvArray.R α} {f : α → LvArray.R β}, x = .error (.ub .outOfBounds) → (x >>= f) = .error (.ub .outOfBounds) := by
    intro α β x f e
    rw [e, bind_err]
  cases op with
  | insert i' k x =>
    cases hi
    simp only [crsStep] at hs
    split at hs
    · exact fail ((row hs).insertNonZero hg k x)
    · cases hs
  | insertMany i' args =>
    cases hi
    simp only [crsStep] at hs
    split at hs
    · rename_i hord
      exact fail ((row hs).insertNonZeros (by simpa [matGone] using hg) hord.1)
    · cases hs
  | remove i' k =>
    cases hi
    simp only [crsStep] at hs
    exact fail ((row hs).removeNonZero hg k)
  | removeMany i' ks =>
    cases hi
    simp only [crsStep] at hs
    split at hs
    · rename_i hord
      exact fail ((row hs).removeNonZeros hg hord)
    · cases hs
  | isEmpty i' k =>
    cases hi
    simp only [crsStep] at hs
    have q := row hs
    refine fail ?_
    unfold Crs.isEmpty
    rw [q.bounds, bind_ok]
    have := q.start (c := c) hg (fun n p' => do
      let r ← sortedArrayManipulation.contains c sortedArrayManipulation.less (fun k => (w.through p).columns.read (p' + k)) n k
      .ok (!r)) (fun ⟨hW, h0⟩ p' => fail (gone_contains (fun k => q.noColumn hW _) h0 k))
    simp only [q.bounds, bind_ok] at this
    exact this
  | getColumn i' k =>
    cases hi
    simp only [crsStep, Option.bind_eq_bind, Option.bind_eq_some_iff] at hs
    obtain ⟨f, hf, j, hj, _⟩ := hs
    obtain ⟨hlt, _⟩ := List.getElem?_eq_some_iff.1 hj
    rw [columnsOf_length] at hlt
    exact fail ((I.seen R hrow hf).position hlt hg _ (fun hW p' => (I.seen R hrow hf).noColumn hW _))
  | getEntry i' k =>
    cases hi
    simp only [crsStep, Option.bind_eq_bind, Option.bind_eq_some_iff] at hs
    obtain ⟨f, hf, j, hj, _⟩ := hs
    obtain ⟨hlt, _⟩ := List.getElem?_eq_some_iff.1 hj
    rw [columnsOf_length] at hlt
    exact fail ((I.seen R hrow hf).position hlt hg _ (fun hW p' => (I.seen R hrow hf).noEntry hW _))
  | addToRow how i' args =>
    cases hi
    simp only [crsStep] at hs
    split at hs
    · rename_i hord
      have q := row hs
      have sorted : sortedUnique (args.map (·.1)) →
          errorIf (c.debug && !sortedArrayManipulation.isSortedUnique sortedArrayManipulation.less (args.map (·.1))) = .ok () := by
        intro h
        have : sortedArrayManipulation.isSortedUnique sortedArrayManipulation.less (args.map (·.1)) = true := by
          refine sortedArrayManipulation.isSortedUnique_of_pairwise (List.Pairwise.imp ?_ h)
          intro a b hab
          simp only [sortedArrayManipulation.less, decide_eq_true_eq, decide_eq_false_iff_not]
          omega
        rw [this]
        simp [errorIf]
      have hb : sortedUnique (args.map (·.1)) → (w.through p).addToRowBinarySearch c i args = .error (.ub .outOfBounds) := by
        intro h
        unfold Crs.addToRowBinarySearch
        rw [sorted h, bind_ok]
        refine q.start hg _ (fun ⟨hW, h0, hne⟩ p' => ?_)
        obtain ⟨⟨col, v⟩, rest, rfl⟩ := List.exists_cons_of_ne_nil hne
        unfold Crs.binaryLoop
        rw [if_neg (by omega)]
        exact fail (gone_find (fun k => q.noColumn hW _) h0 col)
      have hl : sortedUnique (args.map (·.1)) → (w.through p).addToRowLinearSearch c i args = .error (.ub .outOfBounds) := by
        intro h
        unfold Crs.addToRowLinearSearch
        rw [sorted h, bind_ok]
        refine q.start hg _ (fun ⟨hW, h0, hne⟩ p' => ?_)
        obtain ⟨⟨col, v⟩, rest, rfl⟩ := List.exists_cons_of_ne_nil hne
        obtain ⟨k, hk⟩ := Nat.exists_eq_succ_of_ne_zero h0
        unfold Crs.linearLoop
        rw [hk]
        exact fail (fail (q.noColumn hW _))
      cases how with
      | auto =>
        refine fail ?_
        unfold Crs.addToRow
        by_cases hS : seen.2.2.sizes = s.replaced.sizes
        · rw [q.sizeOf, q.size hS, bind_ok]
          split
          · exact hb hord
          · exact hl hord
        · rw [q.sizeOf, q.noSize hS, bind_err]
      | binary => exact fail (hb hord)
      | linear => exact fail (hl hord)
      | unsorted =>
        refine fail (q.start hg _ (fun ⟨hW, h0, hne⟩ p' => ?_))
        obtain ⟨⟨col, v⟩, rest, rfl⟩ := List.exists_cons_of_ne_nil hne
        unfold Crs.unsortedLoop
        exact fail (gone_find (fun k => q.noColumn hW _) h0 col)
    · cases hs
  | _ => cases hi

/-- A program after which the columns and entries that a view knows are gone (a row has become larger), and one after which the
sizes and offsets are gone as well (there are more rows). -/
def matOutgrown : List (MatStmt Int) := [.take 0, .call (.insertMany 0 [(0, 7), (1, 8), (2, 9)])]

/-- The hypotheses of `C86_gone`. -/
example : (matRun 9 (MatShelf.init Int 2 4 2) matOutgrown).map (fun r => (r.1.room, r.1.caps, r.1.replaced, r.1.views 0)) =
    some (⟨2, 3, 12⟩, [4, 2], ⟨0, 0, 1⟩, some (2, 4, ⟨0, 0, 0⟩)) := by rfl

example : (matRun 9 (MatShelf.init Int 2 4 2) (matOutgrown ++ [.call (.resize 3 4 1)])).map
    (fun r => (r.1.room, r.1.caps, r.1.replaced, (crsStep 9 r.1.matrix (.getEntry 0 2)).map (·.2))) =
    some (⟨3, 4, 12⟩, [4, 2, 1], ⟨1, 1, 1⟩, some (.val (.inr 9))) := by rfl

example : (matRun 9 (MatShelf.init Int 2 4 2) matOutgrown).map (fun r => r.1.matrix.count 0) = some 3 := by rfl

example (M : Spec.Matrix Int) (h : M.count 0 = 3) : matGone false M ⟨0, 0, 0⟩ ⟨0, 0, 1⟩ (.getEntry 0 2) ∧
    matGone false M ⟨0, 0, 0⟩ ⟨0, 0, 1⟩ (.addToRow .auto 0 [(1, 4)]) ∧ matGone false M ⟨0, 0, 0⟩ ⟨1, 1, 1⟩ (.insert 0 1 4) ∧
    rowOf (CrsOp.insert 0 1 4 : CrsOp Int) = some 0 :=
  ⟨.inr (.inl (by decide)), .inr (.inr ⟨by decide, by omega, by decide⟩), .inl (by decide), rfl⟩

end LvArray.Props

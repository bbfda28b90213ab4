import Verif.HeapLemmas
import Verif.HeapClasses
import Verif.PyCrs
import Verif.PySets
import Verif.PyArr

/-!
# Every container class realises its values
-/

namespace LvArray.Heap

open Spec Layout Props bufferManipulation

variable {T : Type} {c : Cfg}

/-! ## `SortedArray` -/

section
variable [LinearOrder T] [Inhabited T]

/-- Some valid contents. -/
def sortedWeak (a : SortedArr T) : Prop := ∃ xs, Good none { buf := a.buf, size := a.size } xs

theorem sorted_copy (c : Cfg) {a src : SortedArr T} {S : Finset T} (h : sortedWeak a) (hs : SGood none src S) :
    ∃ a', a.copyAssign c src = .ok a' ∧ SGood none a' S := by
  obtain ⟨xs, h1, h2, h3, h4, -⟩ := h
  obtain ⟨g1, g2, g3, g4, -⟩ := hs
  replace h4 : a.buf.kind = .malloc := h4 rfl
  simp only at h1 h2 h3 g1 g2 g3
  unfold SortedArr.copyAssign
  rw [h1, g1, copyInto_rep c h2 g2 _ (.inl h4), bind_ok]
  exact ⟨_, rfl, rfl, ⟨rfl, Nat.le_max_right _ _⟩, h3, fun _ => h4, fun n hn => by cases hn⟩

theorem sorted_refines (c : Cfg) : Refines c (sortedArray T) (finsetValues T) (SGood none) sortedWeak sortedWeak where
  join := fun o => rfl
  count := fun _ _ => rfl
  weak := fun {o s} h => ⟨_, h⟩
  spent := fun h => h
  construct := by
    intro args s h
    cases h
    refine ⟨_, rfl, ?_⟩
    show Good none _ (Finset.sort ∅ _)
    rw [Finset.sort_empty]
    exact Good.init T none
  call := fun {o s op s' out} h hs => SortedArr.step_good c h op hs
  copyNew := fun {o s} h => sorted_copy (a := .init T none) c ⟨[], Good.init T none⟩ h
  copyOver := fun {o d src s} h hs _ => sorted_copy c ⟨_, h⟩ hs
  copySpent := fun {o src s} h hs => sorted_copy c h hs
  selfCopy := fun {o s} h _ => sorted_copy c ⟨_, h⟩ h
  moved := by
    intro o b _
    have g : Good none ({ buf := Buf.empty, size := 0 } : Array1 T) [] := Good.init T none
    refine ⟨⟨_, g⟩, fun s hs => ?_⟩
    cases hs
    show Good none _ (Finset.sort ∅ _)
    rw [Finset.sort_empty]
    exact g
  beforeMove := fun {o} h => ⟨o, rfl, h⟩
  dtor := by
    intro o h
    obtain ⟨xs, h1, h2, h3, h4, -⟩ := (show sortedWeak o from h)
    replace h4 : o.buf.kind = .malloc := h4 rfl
    simp only at h1 h2 h3
    refine ⟨{ buf := { o.buf with cap := 0, cell := fun _ => .raw }, size := 0 }, ?_, ⟨[], rfl, ⟨?_, by simp⟩, h3, fun _ => h4, fun n hn => by cases hn⟩, ?_⟩
    · show (bufferManipulation.free c o.buf o.size >>= _) = _
      rw [h1, free_rep c h2 h4, bind_ok]; rfl
    · funext k; rfl
    · intro s hs
      have : s = .val { o.buf with cap := 0, cell := fun _ => .raw } := by simpa [sortedArray] using hs
      rw [this]; rfl

end

/-! ## Arrays of arrays -/

theorem copyRange_self (ht : c.trivial = true) {b : Buf T} {off n : Nat} (h : ∀ k, off ≤ k → k < off + n → ∃ v, b.read k = .ok v) :
    Shape.copyRange c b off n b = .ok b := by
  unfold Shape.copyRange
  refine forUp_eq (fun _ => b) n off rfl fun k h1 h2 => ?_
  obtain ⟨v, hv⟩ := h k h1 h2
  rw [hv, bind_ok]
  unfold Buf.read at hv
  split at hv
  · rename_i hk
    unfold Buf.construct
    rw [if_pos hk]
    split at hv
    · cases hv
    · rename_i w hw
      cases hv
      have : upd b.cell k (.live v) = b.cell := by
        funext j
        by_cases e : j = k
        · subst e; rw [upd_same, hw]
        · rw [upd_ne _ _ e]
      simp [Buf.place, this, hw, Cell.lostL, Cell.lostM, ht]
    · cases hv
  · cases hv

theorem copyRows_self (ht : c.trivial = true) {s : Shape} {b : Buf T} {L : Layout T} (h : LShape s L) (hl : Lay b L) :
    s.copyRows c b b = .ok b := by
  unfold Shape.copyRows
  refine forUp_eq (fun _ => b) _ 0 rfl fun i _ hi => ?_
  rw [Nat.zero_add, ShGood.num h] at hi
  simp only [caps_length] at hi
  obtain ⟨A, xs, cap, B, rfl, rfl, _⟩ := split1 hi
  rw [h.readOffAt rfl, bind_ok, h.sizeOfAt rfl, bind_ok]
  refine copyRange_self ht fun k h1 h2 => ?_
  have h2 : k < total A + xs.length := h2
  refine ⟨xs[k - total A]'(by omega), ?_⟩
  have := (hl.toWin IsRaw).read_front (k - total A) (by omega)
  rwa [show total A + (k - total A) = k by omega] at this

theorem reserve_noop (c : Cfg) {b : Buf T} {n : Nat} (h : n ≤ b.cap) : bufferManipulation.reserve c b n n = .ok b := by
  unfold bufferManipulation.reserve
  rw [check_ok c b n h, bind_ok, if_neg (by omega)]

theorem aoa_selfAssign (ht : c.trivial = true) {a : AoA T} {L : Layout T} (h : AGood a L) : a.selfAssign c = .ok a := by
  unfold AoA.selfAssign
  have hread : a.shape.offsets.read a.shape.numArrays = .ok (total L) := ShGood.readLast h.shape
  simp only [ht, if_true, hread, bind_ok, reserve_noop c h.lay.room, copyRows_self ht h.shape h.lay]

theorem copyRoom {D M : Layout T} {dst src : List (List T)} {cap : Nat} (hd : D.map (·.1) = dst) (hs : M.map (·.1) = src)
    (ht : c.trivial = true) (hcap : total D ≤ cap) (h : roomFor dst src = true) : CopyRoom c cap D M := by
  have e1 : D.length = dst.length := by rw [← hd]; simp
  have e2 : M.length = src.length := by rw [← hs]; simp
  simp only [roomFor, Bool.or_eq_true, List.isEmpty_iff, decide_eq_true_eq] at h
  rcases h with h | h
  · refine .inr (.inl ?_)
    have : D = [] := List.eq_nil_of_length_eq_zero (by rw [e1, h]; rfl)
    subst this
    simp [staleOffset]
  · refine .inr (.inr ⟨ht, ?_⟩)
    unfold staleOffset
    rw [if_neg (by omega)]
    exact hcap

theorem release_short (c : Cfg) {b : Buf Nat} (h : b.kind = .malloc) : Short (b.release c) 1 := by
  unfold Buf.release
  rw [h]
  exact ⟨rfl, fun _ _ => rfl⟩

theorem release_repM (c : Cfg) {b : Buf Nat} (h : b.kind = .malloc) : RepM (b.release c) [] := by
  unfold Buf.release
  rw [h]
  exact ⟨⟨rfl, Nat.le_refl _⟩, rfl⟩

theorem release_cap (c : Cfg) {b : Buf T} (h : b.kind = .malloc) : (b.release c).cap = 0 := by
  unfold Buf.release
  rw [h]

theorem shWeak_kinds {s : Shape} {szs caps : List Nat} (h : ShWeak s szs caps) : s.offsets.kind = .malloc ∧ s.sizes.kind = .malloc := by
  refine ⟨?_, h.siz.2⟩
  rcases h with h | ⟨h, -⟩
  · exact h.off.2
  · exact h.2.1.1

theorem countL_raw (c : Cfg) {b : Buf T} (h : ∀ k, b.cell k = .raw) : ∀ n, b.countL c n = 0
  | 0 => rfl
  | n + 1 => by rw [Buf.countL, countL_raw c h n, h]; rfl

theorem release_lay (c : Cfg) {b : Buf T} (h : Lay b []) : Lay (b.release c) [] := by
  unfold Buf.release
  rw [h.kind]
  refine ⟨rfl, by simp, by simp [total], rfl, ?_⟩
  show b.lostLive + _ = 0
  rw [h.lost, countL_raw c (fun k => by rw [h.cell]; rfl)]

theorem aoa_free (c : Cfg) {a : AoA T} {L : Layout T} (h : AWeak a L) :
    ∃ a', a.free c = .ok a' ∧ AWeak a' [] ∧ ∀ s ∈ AoA.buffers a', s.cap = 0 := by
  obtain ⟨b, h1, h2, -⟩ := h.destroyAll (c := c)
  obtain ⟨k1, k2⟩ := shWeak_kinds h.shape
  unfold AoA.free
  rw [h1, bind_ok]
  refine ⟨_, rfl, ⟨.inr ⟨⟨rfl, release_short _ k1, release_repM _ k2⟩, rfl, rfl⟩, release_lay c h2⟩, ?_⟩
  intro s hs
  simp only [AoA.buffers, List.mem_cons, List.not_mem_nil, or_false] at hs
  rcases hs with rfl | rfl | rfl
  · exact release_cap _ k1
  · exact release_cap _ k2
  · exact release_cap _ h2.kind

/-- Some valid contents. -/
def rowsWeak (a : AoA T) : Prop := ∃ L, AWeak a L

/-- No arrays. -/
def rowsSpent (a : AoA T) : Prop := AWeak a []

open Python in
theorem rows_copy (ht : c.trivial = true) {a src : AoA T} {d s : List (List T)} (h : RowsRel a d) (hs : RowsRel src s)
    (hr : roomFor d s = true) : ∃ a', a.copyAssign c src = .ok a' ∧ RowsRel a' s := by
  obtain ⟨D, hg, hd⟩ := h
  obtain ⟨M, hm, rfl⟩ := hs
  obtain ⟨a', h1, h2⟩ := copyAssign_good c hg.weak hm (copyRoom hd rfl ht hg.lay.room hr)
  exact ⟨a', h1, M, h2, rfl⟩

open Python in
theorem rows_copySpent (c : Cfg) {a src : AoA T} {s : List (List T)} (h : rowsSpent a) (hs : RowsRel src s) :
    ∃ a', a.copyAssign c src = .ok a' ∧ RowsRel a' s := by
  obtain ⟨M, hm, rfl⟩ := hs
  obtain ⟨a', h1, h2⟩ := copyAssign_good c h hm (.inr (.inl (by simp [staleOffset])))
  exact ⟨a', h1, M, h2, rfl⟩

open Python in
theorem rows_get [Inhabited T] {a : AoA T} {rows : List (List T)} (h : RowsRel a rows) {i j : Nat} {r : List T} {v : T}
    (hi : rows[i]? = some r) (hj : r[j]? = some v) : a.get c i j = .ok v := by
  obtain ⟨hi', rfl⟩ := List.getElem?_eq_some_iff.1 hi
  obtain ⟨hj', rfl⟩ := List.getElem?_eq_some_iff.1 hj
  obtain ⟨A, cap, B, rfl, hg, -⟩ := h.at_ hi'
  exact hg.get j hj'

open Python in
theorem rows_call [Inhabited T] (ht : c.trivial = true) {a : AoA T} {rows rows' : List (List T)} {op : RowOp T} {out : Option T}
    (h : RowsRel a rows) (hs : rowsCall c.debug rows op = some (rows', out)) :
    ∃ a', a.call c op = .ok (a', out) ∧ RowsRel a' rows' := by
  cases op with
  | get i j =>
    simp only [rowsCall, Option.bind_eq_bind, Option.bind_eq_some_iff] at hs
    obtain ⟨r, h1, v, h2, h3⟩ := hs
    cases h3
    exact ⟨a, by simp [AoA.call, rows_get h h1 h2], h⟩
  | op o =>
    have key : ∃ r, vvStep rows o = some r ∧ (r, none) = (rows', out) ∧ (c.debug = true → o.nonEmptyInsert) := by
      cases o <;> simp only [rowsCall, Option.map_eq_some_iff, Option.ite_none_left_eq_some] at hs
      case insertIntoArray i j vs =>
        obtain ⟨hd, r, h1, h2⟩ := hs
        refine ⟨r, h1, h2, fun hdb hv => hd ⟨hdb, ?_⟩⟩
        subst hv; rfl
      all_goals
        obtain ⟨r, h1, h2⟩ := hs
        exact ⟨r, h1, h2, fun _ => trivial⟩
    obtain ⟨r, h1, h2, h3⟩ := key
    cases h2
    obtain ⟨a', e, h'⟩ := h.step ht o h1 h3
    exact ⟨a', by simp [AoA.call, e], h'⟩

open Python in
theorem rows_refines [Inhabited T] (ht : c.trivial = true) :
    Refines c (arrayOfArrays T) (rowsValues T c.debug) RowsRel rowsWeak rowsSpent where
  join := fun o => rfl
  count := fun _ _ => rfl
  weak := fun {o s} ⟨L, h, _⟩ => ⟨L, h.weak⟩
  spent := fun {o} h => ⟨_, h⟩
  construct := by
    intro args s h
    cases h
    obtain ⟨a, h1, h2⟩ := mk_good (T := T) c args.1 args.2
    exact ⟨a, h1, _, h2, by simp⟩
  call := fun {o s op s' out} h hs => rows_call ht h hs
  copyNew := fun {o s} h => rows_copySpent c AWeak.fresh h
  copyOver := fun {o d src s} h hs hr => rows_copy ht h hs hr
  copySpent := fun {o src s} h hs => rows_copySpent c h hs
  selfCopy := fun {o s} h _ => ⟨o, aoa_selfAssign ht h.choose_spec.1, h⟩
  moved := fun b _ => ⟨AWeak.fresh, fun s hs => by cases hs⟩
  beforeMove := fun {o} ⟨L, h⟩ => by
    obtain ⟨a', h1, h2, -⟩ := aoa_free c h
    exact ⟨a', h1, h2⟩
  dtor := fun {o} ⟨L, h⟩ => aoa_free c h

theorem rows_releases [Inhabited T] : Inv.Releases c (arrayOfArrays T) rowsWeak := by
  rintro o o' ⟨L, h⟩ e
  obtain ⟨a', h1, -, h2⟩ := aoa_free c h
  have : o.free c = .ok o' := e
  rw [h1] at this
  cases this
  exact h2

/-! ## `ArrayOfSets` -/

open Python in
theorem roomFor_map {X Y : Type} (f : X → Y) (d s : List X) : roomFor (d.map f) (s.map f) = roomFor d s := by
  simp [roomFor]

section
variable [LinearOrder T] [Inhabited T]

open Python in
theorem sets_copy (ht : c.trivial = true) {a src : AoA T} {d s : List (Finset T)} (h : SetsGood a d) (hs : SetsGood src s)
    (hr : roomFor d s = true) : ∃ a', a.copyAssign c src = .ok a' ∧ SetsGood a' s :=
  rows_copy ht (SetsGood.rowsRel h) (SetsGood.rowsRel hs) (by rw [roomFor_map]; exact hr)

theorem sets_refines (ht : c.trivial = true) :
    Refines c (arrayOfSets T) (setsValues T) SetsGood rowsWeak rowsSpent where
  join := fun o => rfl
  count := fun _ _ => rfl
  weak := fun {o s} ⟨L, h, _⟩ => ⟨L, h.weak⟩
  spent := fun {o} h => ⟨_, h⟩
  construct := by
    intro args s h
    cases h
    obtain ⟨a, h1, h2⟩ := mk_good (T := T) c args.1 args.2
    exact ⟨a, h1, _, h2, by simp⟩
  call := fun {o s op s' out} h hs => Python.sets_step ht h op hs
  copyNew := fun {o s} h => rows_copySpent c AWeak.fresh h
  copyOver := fun {o d src s} h hs hr => sets_copy ht h hs hr
  copySpent := fun {o src s} h hs => rows_copySpent c h hs
  selfCopy := fun {o s} h _ => ⟨o, aoa_selfAssign ht h.choose_spec.1, h⟩
  moved := fun b _ => ⟨AWeak.fresh, fun s hs => by cases hs⟩
  beforeMove := fun {o} ⟨L, h⟩ => by
    obtain ⟨a', h1, h2, -⟩ := aoa_free c h
    exact ⟨a', h1, h2⟩
  dtor := fun {o} ⟨L, h⟩ => aoa_free c h

theorem sets_releases : Inv.Releases c (arrayOfSets T) rowsWeak := by
  rintro o o' ⟨L, h⟩ e
  obtain ⟨a', h1, -, h2⟩ := aoa_free c h
  have : AoA.free c o = .ok o' := e
  rw [h1] at this
  cases this
  exact h2

end

/-! ## `SparsityPattern` -/

theorem sp_free (c : Cfg) {s : Sp} {L : Layout Nat} (h : AWeak s.sets L) :
    ∃ s', s.free c = .ok s' ∧ AWeak s'.sets [] ∧ ∀ b ∈ AoA.buffers s'.sets, b.cap = 0 := by
  obtain ⟨a', h1, h2, h3⟩ := aoa_free c h
  exact ⟨{ s with sets := a' }, by simp [Sp.free, h1], h2, h3⟩

theorem sp_copySpent (c : Cfg) {o src : Sp} {P : Pattern} (h : rowsSpent o.sets) (hs : SpGood src P) :
    ∃ s', o.copyAssign c src = .ok s' ∧ SpGood s' P := by
  obtain ⟨a', h1, h2⟩ := rows_copySpent c h hs.sets
  exact ⟨{ numCols := src.numCols, sets := a' }, by simp [Sp.copyAssign, h1], hs.cols, h2, hs.inRange⟩

theorem sp_copy (ht : c.trivial = true) {o src : Sp} {D P : Pattern} (h : SpGood o D) (hs : SpGood src P)
    (hr : roomFor D.rows P.rows = true) : ∃ s', o.copyAssign c src = .ok s' ∧ SpGood s' P := by
  obtain ⟨a', h1, h2⟩ := sets_copy ht h.sets hs.sets hr
  exact ⟨{ numCols := src.numCols, sets := a' }, by simp [Sp.copyAssign, h1], hs.cols, h2, hs.inRange⟩

theorem sp_selfAssign (ht : c.trivial = true) {o : Sp} {P : Pattern} (h : SpGood o P) : o.selfAssign c = .ok o := by
  simp [Sp.selfAssign, aoa_selfAssign ht h.sets.choose_spec.1]

theorem pattern_refines (ht : c.trivial = true) (colMax : Nat) :
    Refines c (sparsityPattern colMax) (patternValues colMax) SpGood (fun s => rowsWeak s.sets) (fun s => rowsSpent s.sets) where
  join := fun o => rfl
  count := fun _ _ => rfl
  weak := fun {o s} h => by
    obtain ⟨L, h, _⟩ := h.sets
    exact ⟨L, h.weak⟩
  spent := fun {o} h => ⟨_, h⟩
  construct := by
    intro args s h
    have h : (if args.2.1 ≤ colMax + 1 then (some ({ numCols := args.2.1, rows := List.replicate args.1 ∅ } : Pattern)) else none) = some s := h
    obtain ⟨hn, h⟩ := Option.ite_none_right_eq_some.1 h
    cases h
    exact SpGood.mk_ok c colMax args.1 args.2.1 args.2.2 hn
  call := fun {o s op s' out} h hs => SpGood.step_ok ht colMax h op s' out hs
  copyNew := fun {o s} h => sp_copySpent (o := { numCols := 0, sets := AoA.null Nat }) c AWeak.fresh h
  copyOver := fun {o d src s} h hs hr => sp_copy ht h hs hr
  copySpent := fun {o src s} h hs => sp_copySpent c h hs
  selfCopy := fun {o s} h _ => ⟨o, sp_selfAssign ht h, h⟩
  moved := fun b _ => ⟨AWeak.fresh, fun s hs => by cases hs⟩
  beforeMove := fun {o} ⟨L, h⟩ => by
    obtain ⟨a', h1, h2, -⟩ := sp_free c h
    exact ⟨a', h1, h2⟩
  dtor := fun {o} ⟨L, h⟩ => sp_free c h

theorem pattern_releases (colMax : Nat) : Inv.Releases c (sparsityPattern colMax) (fun s => rowsWeak s.sets) := by
  rintro o o' ⟨L, h⟩ e
  obtain ⟨a', h1, -, h2⟩ := sp_free c h
  have : Sp.free c o = .ok o' := e
  rw [h1] at this
  cases this
  exact h2

/-! ## `CRSMatrix` -/

section
variable {V : Type}

/-- Some valid contents. -/
def crsWeak (m : Crs V) : Prop := ∃ L, CWeak m L

/-- No rows. -/
def crsSpent (m : Crs V) : Prop := CWeak m []

theorem crs_free (c : Cfg) {m : Crs V} {L : Layout (Nat × V)} (h : CWeak m L) :
    ∃ m', m.free c = .ok m' ∧ CWeak m' [] ∧ m'.shape.offsets.cap = 0 ∧ m'.shape.sizes.cap = 0 ∧ m'.columns.cap = 0 ∧
      m'.entries.cap = 0 := by
  obtain ⟨b1, h1, h2, -⟩ := h.cols.destroyAll (c := c.ix)
  obtain ⟨b2, h3, h4, -⟩ := h.ents.destroyAll (c := c)
  obtain ⟨k1, k2⟩ := shWeak_kinds h.shape
  have h1 : m.shape.destroyValues c.ix 0 m.shape.numArrays m.columns = .ok b1 := h1
  have h3 : m.shape.destroyValues c 0 m.shape.numArrays m.entries = .ok b2 := h3
  unfold Crs.free
  rw [h1, bind_ok, h3, bind_ok]
  exact ⟨_, rfl, ⟨.inr ⟨⟨rfl, release_short _ k1, release_repM _ k2⟩, rfl, rfl⟩, release_lay _ h2, release_lay c h4⟩,
    release_cap _ k1, release_cap _ k2, release_cap _ h2.kind, release_cap _ h4.kind⟩

theorem crs_selfAssign (ht : c.trivial = true) {m : Crs V} {L : Layout (Nat × V)} (h : CGood m L) : m.selfAssign c = .ok m := by
  have hread : m.shape.offsets.read m.shape.numArrays = .ok (total L) := ShGood.readLast h.shape
  have r1 : total L ≤ m.columns.cap := by have := h.layC.room; rwa [mapL_total] at this
  have r2 : total L ≤ m.entries.cap := by have := h.layE.room; rwa [mapL_total] at this
  have c1 : m.shape.copyRows c.ix m.columns m.columns = .ok m.columns := copyRows_self rfl h.cols.shape h.cols.lay
  have c2 : m.shape.copyRows c m.entries m.entries = .ok m.entries := copyRows_self ht h.ents.shape h.ents.lay
  unfold Crs.selfAssign
  simp only [ht, if_true, hread, bind_ok, reserve_noop c.ix r1, reserve_noop c r2, c1, c2]

theorem crs_copy (ht : c.trivial = true) {m src : Crs V} {D S : Spec.Matrix V} (h : CrsGood m D) (hs : CrsGood src S)
    (hr : roomFor D.rows S.rows = true) : ∃ m', m.copyAssign c src = .ok m' ∧ CrsGood m' S := by
  obtain ⟨L, hg, hL⟩ := h.rows
  obtain ⟨M, hm, hM⟩ := hs.rows
  have hr' : roomFor (L.map (·.1)) (M.map (·.1)) = true := by
    rw [hL, hM]
    simpa [roomFor] using hr
  have t1 : total L ≤ m.columns.cap := by have := hg.layC.room; rwa [mapL_total] at this
  have t2 : total L ≤ m.entries.cap := by have := hg.layE.room; rwa [mapL_total] at this
  obtain ⟨m', h1, h2, h3⟩ := CGood.copyAssign c hg.weak hm (copyRoom rfl rfl rfl t1 hr') (copyRoom rfl rfl ht t2 hr')
  exact ⟨m', h1, h2.trans hs.cols, ⟨M, h3, hM⟩, hs.inRange⟩

theorem crs_copySpent (c : Cfg) {m src : Crs V} {S : Spec.Matrix V} (h : crsSpent m) (hs : CrsGood src S) :
    ∃ m', m.copyAssign c src = .ok m' ∧ CrsGood m' S := by
  obtain ⟨M, hm, hM⟩ := hs.rows
  obtain ⟨m', h1, h2, h3⟩ := CGood.copyAssign c h hm (.inr (.inl (by simp [staleOffset]))) (.inr (.inl (by simp [staleOffset])))
  exact ⟨m', h1, h2.trans hs.cols, ⟨M, h3, hM⟩, hs.inRange⟩

theorem crs_buffers_cap [Add V] {colMax : Nat} {m : Crs V} (h1 : m.shape.offsets.cap = 0) (h2 : m.shape.sizes.cap = 0) (h3 : m.columns.cap = 0)
    (h4 : m.entries.cap = 0) : ∀ s ∈ (crsMatrix V colMax).buffers m, s.cap = 0 := by
  intro s hs
  simp only [crsMatrix, List.mem_cons, List.not_mem_nil, or_false] at hs
  rcases hs with rfl | rfl | rfl | rfl
  · exact h1
  · exact h2
  · exact h3
  · exact h4

theorem matrix_refines [Add V] (ht : c.trivial = true) (colMax : Nat) :
    Refines c (crsMatrix V colMax) (matrixValues V colMax) CrsGood crsWeak crsSpent where
  join := fun o => rfl
  count := fun _ _ => rfl
  weak := fun {o s} h => by
    obtain ⟨L, h, _⟩ := h.rows
    exact ⟨L, h.weak⟩
  spent := fun {o} h => ⟨_, h⟩
  construct := by
    intro args s h
    have h : (if args.2.1 ≤ colMax + 1 then (some ({ numCols := args.2.1, rows := List.replicate args.1 (fun _ => none) } : Spec.Matrix V)) else none) = some s := h
    obtain ⟨hn, h⟩ := Option.ite_none_right_eq_some.1 h
    cases h
    exact CrsGood.mk_ok c colMax args.1 args.2.1 args.2.2 hn
  call := fun {o s op s' out} h hs => Python.matrix_step ht colMax h op hs
  copyNew := fun {o s} h => crs_copySpent c CWeak.fresh h
  copyOver := fun {o d src s} h hs hr => crs_copy ht h hs hr
  copySpent := fun {o src s} h hs => crs_copySpent c h hs
  selfCopy := fun {o s} h _ => by
    obtain ⟨L, hg, -⟩ := h.rows
    exact ⟨o, crs_selfAssign ht hg, h⟩
  moved := fun b _ => ⟨CWeak.fresh, fun s hs => by cases hs⟩
  beforeMove := fun {o} ⟨L, h⟩ => by
    obtain ⟨a', h1, h2, -⟩ := crs_free c h
    exact ⟨a', h1, h2⟩
  dtor := fun {o} ⟨L, h⟩ => by
    obtain ⟨a', h1, h2, k1, k2, k3, k4⟩ := crs_free c h
    exact ⟨a', h1, h2, crs_buffers_cap k1 k2 k3 k4⟩

theorem matrix_releases [Add V] (colMax : Nat) : Inv.Releases c (crsMatrix V colMax) crsWeak := by
  rintro o o' ⟨L, h⟩ e
  obtain ⟨a', h1, -, k1, k2, k3, k4⟩ := crs_free c h
  have : Crs.free c o = .ok o' := e
  rw [h1] at this
  cases this
  exact crs_buffers_cap k1 k2 k3 k4

end

/-! ## `Array` -/

section
variable [Inhabited T] {perm : List Nat}

open Python

/-- The object holds the values that are known. -/
def arrayRel (c : Cfg) (perm : List Nat) (a : ArrayN T) (s : Box T) : Prop := BoxRel c a s ∧ a.perm = perm

/-- Some valid contents; the strides need not belong to the shape. -/
structure arrayWeak (perm : List Nat) (a : ArrayN T) : Prop where
  order : a.perm = perm
  kind : a.buf.kind = .malloc
  data : ∃ xs, Rep a.buf xs ∧ xs.length = a.dims.prod
  len : a.dims.length = perm.length

theorem arrayRel.weak {a : ArrayN T} {s : Box T} (h : arrayRel c perm a s) : arrayWeak perm a :=
  ⟨h.2, h.1.kind, h.1.wf.data, by rw [← h.2, h.1.wf.len]⟩

theorem array_copy (c : Cfg) {a src : ArrayN T} {s : Box T} (h : arrayWeak perm a) (hs : arrayRel c perm src s) :
    ∃ a', a.copyAssign c src default = .ok a' ∧ arrayRel c perm a' s := by
  obtain ⟨⟨hw, hk, hd, hx, he⟩, hp⟩ := hs
  -- the shape of the destination does not matter
  let a0 : ArrayN T := { a with strides := indexing.calculateStrides a.perm a.dims, resizeIndex := src.resizeIndex }
  have hw0 : Wf a0 := by
    refine ⟨by show typeManipulation.isValidPermutation a.perm = true; rw [h.order, ← hp]; exact hw.perm,
      by show a.perm.length = a.dims.length; rw [h.len, h.order], rfl, ?_, h.data⟩
    show src.resizeIndex < a.dims.length
    rw [h.len, ← hp, hw.len]
    exact hw.index
  obtain ⟨a', h1, h2, h3, h4, h5, -, h7⟩ := (C12_copy_nd c a0 src default hw0 hw (h.order.trans hp.symm)).1 (.inl h.kind)
  have e : a0.copyAssign c src default = a.copyAssign c src default := rfl
  rw [e] at h1
  refine ⟨a', h1, ⟨h2, h7.trans h.kind, h3.trans hd, h4.trans hx, fun idx x hi hsx => ?_⟩, ?_⟩
  · rw [h3] at hi
    rw [h5 idx hi]
    exact he idx x hi hsx
  · unfold ArrayN.copyAssign ArrayN.setSingleParameterResizeIndex at h1
    simp only [bind_eq_ok] at h1
    obtain ⟨b, -, _, -, _, -, h8⟩ := h1
    cases h8
    exact h.order

theorem reshaped_rel {a a' : ArrayN T} {s : Box T} {dims : List Nat} (h : arrayRel c perm a s) (hr : ResizedTo a a' dims default) :
    arrayRel c perm a' (s.reshaped dims) := by
  obtain ⟨⟨hw, hk, hd, hx, he⟩, hp⟩ := h
  obtain ⟨h1, h2, h3, h4, h5, h6, h7, -⟩ := hr
  refine ⟨⟨h1, h7.trans hk, h4, h3.trans hx, fun idx x hi hsx => ?_⟩, h2.trans hp⟩
  have hsx : (if s.dims.prod = 0 then some default else none) = some x := hsx
  obtain ⟨hz, hsx⟩ := Option.ite_none_right_eq_some.1 hsx
  cases hsx
  have hz' : a.size = 0 := by
    show indexing.multiplyAll a.dims = 0
    rw [multiplyAll_eq, hd, hz]
  obtain ⟨m, hm, hm0, hm1⟩ := (C01_bijection c a'.perm a'.dims h1.perm h1.len).2.1 idx hi
  unfold ArrayN.get
  rw [h1.view, hm, bind_ok, if_neg (by omega), h6 m.toNat (by rw [h5, ← h4]; omega), if_neg (by omega)]

theorem array_call (hbox : perm ≠ []) {a : ArrayN T} {s s' : Box T} {op : BoxOp T} {out : Option T} (h : arrayRel c perm a s)
    (hs : boxCall s op = some (s', out)) : ∃ a', a.step c op = .ok (a', out) ∧ arrayRel c perm a' s' := by
  have h0 := h
  obtain ⟨⟨hw, hk, hd, hx, he⟩, hp⟩ := h
  cases op with
  | resize dims =>
    obtain ⟨⟨hl, hn⟩, hs⟩ := Option.ite_none_right_eq_some.1 hs
    cases hs
    obtain ⟨a', h1, h2⟩ := ((C11_resize c a hw dims default).2 (by rw [hd]; exact hl) hn).1 (.inl hk)
    exact ⟨a', by simp [ArrayN.step, h1], reshaped_rel h0 h2⟩
  | resizeDimension pairs =>
    obtain ⟨hn, hs⟩ := Option.ite_none_right_eq_some.1 hs
    cases hs
    obtain ⟨dims, h2, h3, h5, -⟩ := (C11_resizeDimension c a hw pairs default).2 hn
    obtain ⟨a', h1, h4⟩ := h5 (.inl hk)
    refine ⟨a', by simp [ArrayN.step, h1], ?_⟩
    have : dims = pairs.foldl (fun ds q => ds.set q.1 q.2.toNat) s.dims := by
      refine List.ext_getElem (by rw [h2, foldl_set_length, hd]) fun k k1 k2 => ?_
      have e1 := h3 k k1
      have e2 := foldl_set_getD pairs a.dims k (by rw [← h2]; exact k1)
      rw [← e1, hd] at e2
      rw [getD_of_lt _ _ k1, getD_of_lt _ _ k2] at e2
      exact e2.symm
    rw [← this]
    exact reshaped_rel h0 h4
  | resizeDefault n v =>
    obtain ⟨hn, hs⟩ := Option.ite_none_right_eq_some.1 hs
    cases hs
    obtain ⟨a', h1, h2, h3, h4, h5, h6, h7, h8, -⟩ := (C10_resize_preserves c a hw n v).2.2 hn (.inl hk)
    refine ⟨a', by simp [ArrayN.step, h1], ⟨h2, h8.trans hk, by rw [h5, hd, hx], h4.trans hx, fun idx x hi hsx => ?_⟩, h3.trans hp⟩
    have hsx : (if InBounds s.dims idx then s.elem idx else some v) = some x := hsx
    rw [← hd] at hsx
    split at hsx
    · rename_i hin
      rw [h6 idx hin hi]
      exact he idx x hin hsx
    · rename_i hin
      cases hsx
      exact h7 idx hin hi
  | clear =>
    cases hs
    obtain ⟨a', h1, h2, h3, -⟩ := C11_clear c a hw default
    obtain ⟨r1, r2, r3, r4, r5, r6, r7, -⟩ := h2
    refine ⟨a', by simp [ArrayN.step, h1], ⟨r1, r7.trans hk, by rw [r4, hd, hx], r3.trans hx, fun idx x hi _ => ?_⟩, r2.trans hp⟩
    obtain ⟨m, -, hm0, hm1⟩ := (C01_bijection c a'.perm a'.dims r1.perm r1.len).2.1 idx hi
    have : indexing.multiplyAll a'.dims = 0 := h3
    rw [multiplyAll_eq] at this
    omega
  | setResizeIndex k =>
    obtain ⟨⟨hn, hlt⟩, hs⟩ := Option.ite_none_right_eq_some.1 hs
    cases hs
    have h1 : decide (k < 0) = false := by simpa using hn
    have h2 : decide (k ≥ a.dims.length) = false := by rw [hd]; simpa using hlt
    refine ⟨{ a with resizeIndex := k.toNat }, ?_, ⟨⟨hw.perm, hw.len, hw.strides, ?_, hw.data⟩, hk, hd, rfl, he⟩, hp⟩
    · simp only [ArrayN.step, ArrayN.setSingleParameterResizeIndex, h1, h2, errorIf_false, bind_ok]
    · show k.toNat < a.dims.length
      rw [hd]; omega
  | reserve n =>
    cases hs
    obtain ⟨hpv, hlen, hst, hix, xs, hrep, hxs⟩ := hw
    have hsz : a.size = xs.length := by rw [hxs]; exact multiplyAll_eq _
    let b : Buf T := { a.buf with cap := max a.buf.cap n, moves := a.buf.moves + a.buf.growMoves xs.length n }
    have e : a.reserve c n = .ok { a with buf := b } := by
      unfold ArrayN.reserve
      rw [hsz, reserve_rep c hrep n (.inl hk), bind_ok]
    refine ⟨{ a with buf := b }, by rw [ArrayN.step, e, bind_ok], ⟨⟨hpv, hlen, hst, hix, xs, ⟨hrep.1, ?_⟩, hxs⟩, hk, hd, hx, fun idx x hi hsx => ?_⟩, hp⟩
    · exact Nat.le_trans hrep.2 (Nat.le_max_left _ _)
    · have hv := he idx x hi hsx
      have hcall := view_call (c := c) ⟨hpv, hlen, hst, hix, xs, hrep, hxs⟩ hi
      show (a.view.call c idx >>= fun k => if k < 0 then .error (.ub .outOfBounds) else b.read k.toNat) = .ok x
      unfold ArrayN.get at hv
      rw [hcall, bind_ok, if_neg (by omega)] at hv ⊢
      unfold Buf.read at hv ⊢
      split at hv
      · rename_i hlt
        rw [if_pos (show _ < max _ _ by omega)]
        exact hv
      · cases hv
  | set idx v =>
    obtain ⟨hi, hs⟩ := Option.ite_none_right_eq_some.1 hs
    cases hs
    obtain ⟨a', h1, h2, h3, h4, h5, h6, h7⟩ := set_spec c a hw idx v (by rw [hd]; exact hi)
    refine ⟨a', by rw [ArrayN.step, h1, bind_ok], ⟨h2, ?_, h3.trans hd, h5.trans hx, fun j y hj hy => ?_⟩, h4.trans hp⟩
    · unfold ArrayN.set at h1
      rw [view_call hw (by rw [hd]; exact hi), bind_ok, if_neg (by omega), Int.toNat_natCast] at h1
      obtain ⟨b, h8, h9⟩ := bind_eq_ok.1 h1
      cases h9
      unfold Buf.write at h8
      split at h8
      · split at h8 <;> cases h8; exact hk
      · cases h8
    · have hy : (if j = idx then some v else s.elem j) = some y := hy
      rw [h3] at hj
      split at hy
      · rename_i hji
        cases hy
        subst hji
        exact h6
      · rename_i hji
        rw [h7 j hj hji]
        exact he j y hj hy
  | get idx =>
    obtain ⟨hi, hs⟩ := Option.ite_none_right_eq_some.1 hs
    obtain ⟨v, hv, hs⟩ := Option.map_eq_some_iff.1 hs
    cases hs
    exact ⟨a, by simp [ArrayN.step, he idx v (by rw [hd]; exact hi) hv], h0⟩

theorem array_refines (c : Cfg) (hv : typeManipulation.isValidPermutation perm = true) (hn : perm ≠ []) :
    Refines c (array T perm) (boxValues T perm.length) (arrayRel c perm) (arrayWeak perm) (arrayWeak perm) := by
  have hinit : arrayRel c perm (ArrayN.init T perm) { dims := List.replicate perm.length 0, resizeIndex := 0, elem := fun _ => none } :=
    ⟨⟨init_wf perm hv hn, rfl, rfl, rfl, fun _ _ _ h => by cases h⟩, rfl⟩
  have hmoved : ∀ {a : ArrayN T}, arrayWeak perm a → (a.dims.map (fun _ => 0)).prod = 0 := by
    intro a h
    have := h.len
    cases hx : a.dims with
    | nil =>
      rw [hx] at this
      exact absurd (List.length_eq_zero_iff.1 this.symm) hn
    | cons d ds => simp
  exact {
    join := fun o => rfl
    count := fun _ _ => rfl
    weak := fun {o s} h => h.weak
    spent := fun h => h
    construct := fun {args s} h => by cases h; exact ⟨_, rfl, hinit⟩
    call := fun {o s op s' out} h hs => array_call hn h hs
    copyNew := fun {o s} h => array_copy c hinit.weak h
    copyOver := fun {o d src s} h hs _ => array_copy c h.weak hs
    copySpent := fun {o src s} h hs => array_copy c h hs
    selfCopy := fun {o s} h _ => array_copy c h.weak h
    moved := by
      intro o b h
      refine ⟨⟨h.order, rfl, ⟨[], ⟨by funext k; rfl, Nat.zero_le _⟩, (hmoved h).symm⟩, ?_⟩, fun s hs => by cases hs⟩
      show (o.dims.map (fun _ => 0)).length = _
      rw [List.length_map]; exact h.len
    beforeMove := fun {o} h => ⟨o, rfl, h⟩
    dtor := by
      intro o h
      obtain ⟨xs, hrep, hxs⟩ := h.data
      have hsz : o.size = xs.length := by rw [hxs]; exact multiplyAll_eq _
      refine ⟨{ o.movedFrom with buf := { o.buf with cap := 0, cell := fun _ => .raw } }, ?_,
        ⟨h.order, h.kind, ⟨[], ⟨by funext k; rfl, Nat.zero_le _⟩, (hmoved h).symm⟩, ?_⟩, ?_⟩
      · show (bufferManipulation.free c o.buf o.size >>= _) = _
        rw [hsz, free_rep c hrep h.kind, bind_ok]; rfl
      · show (o.dims.map (fun _ => 0)).length = _
        rw [List.length_map]; exact h.len
      · intro s hs
        have : s = .val { o.buf with cap := 0, cell := fun _ => .raw } := by simpa [array] using hs
        rw [this]; rfl }

end

end LvArray.Heap

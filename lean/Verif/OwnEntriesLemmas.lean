import Verif.OwnEntries
import Verif.OwnSetsLemmas
import Verif.CrsMore

/-!
# Lemmas about calls of `CRSMatrix` with columns and entries of the matrix itself
-/

namespace LvArray

open sortedArrayManipulation OwnSets

set_option linter.unusedSectionVars false

namespace OwnEntries

section generic

variable {σ T : Type} [LinearOrder T]

/-- Call backs that only differ in what they insert: the one reads it through references. -/
structure Alike (t t' : Target σ T) : Prop where
  read : t'.read = t.read
  modify : ∀ s f, t'.modify s f = t.modify s f
  inc : t'.incrementSize = t.incrementSize

theorem insertLoopRef_alike (c : Cfg) (t t' : Target σ T) (ha : Alike t t') (val : σ → Nat → R T) (vs : List T) (M : Nat)
    (P : σ → Prop) (hval : ∀ s, P s → ∀ k (hk : k < vs.length), val s k = .ok vs[k])
    (hshift : ∀ s ub pos nL s1, P s → pos ≤ ub → ub + nL ≤ M →
      t.modify s (fun b p => arrayManipulation.shiftUp c b p ub pos nL) = .ok s1 → P s1)
    (hcons : ∀ s k v s1, P s → k < M → t.modify s (fun b p => b.construct c (p + k) v) = .ok s1 → P s1)
    (hins : ∀ s n vp pos pp, P s → vp < vs.length → pos ≤ pp → pp + n ≤ M → pos + n ≠ 0 →
      t'.insertMany s n vp pos pp = t.insertMany s n vp pos pp ∧ ∀ s1, t.insertMany s n vp pos pp = .ok s1 → P s1) :
    ∀ (m : Nat) (s : σ) (ub nL : Nat), m ≤ vs.length → P s → ub + nL ≤ M →
      insertLoopRef c t val m s ub nL = insertLoop c t' (vs.take m).reverse s ub nL := by
  intro m
  induction m with
  | zero => intro s ub nL _ _ _; rfl
  | succ m ih =>
    intro s ub nL hm hP hM
    rw [take_reverse (by omega)]
    unfold insertLoopRef insertLoop
    rw [hval s hP m (by omega), bind_ok, ha.read]
    cases hf : find c less (t.read s) ub vs[m] with
    | error e => rfl
    | ok pos =>
      have hle := Counted.find_le c less (t.read s) ub pos vs[m] hf
      simp only [bind_ok]
      cases isAt (t.read s) ub pos vs[m] with
      | error e => rfl
      | ok present =>
        simp only [bind_ok]
        cases present with
        | true => exact ih s ub nL (by omega) hP hM
        | false =>
          simp only [Bool.false_eq_true, if_false]
          rw [ha.modify]
          cases hs : t.modify s (fun b p => arrayManipulation.shiftUp c b p ub pos nL) with
          | error e => rfl
          | ok s1 =>
            have hP1 := hshift s ub pos nL s1 hP hle hM hs
            simp only [bind_ok]
            rw [hval s1 hP1 m (by omega), bind_ok, ha.modify]
            have hlen : (vs.take m).reverse.length = m := by simp; omega
            rw [hlen]
            by_cases h0 : pos + nL = 0
            · simp only [h0, if_true]; rfl
            · simp only [h0, if_false]
              cases hc : t.modify s1 (fun b p => b.construct c (p + (pos + nL - 1)) vs[m]) with
              | error e => rfl
              | ok s2 =>
                have hP2 := hcons s1 _ _ s2 hP1 (by omega) hc
                obtain ⟨e1, e2⟩ := hins s2 nL m pos ub hP2 (by omega) hle hM h0
                simp only [bind_ok]
                rw [e1]
                cases hi : t.insertMany s2 nL m pos ub with
                | error e => rfl
                | ok s3 => exact ih s3 pos (nL - 1) (by omega) (e2 _ hi) (by omega)

theorem forUp_set_alike [Inhabited T] (c : Cfg) (t t' : Target σ T) (ha : Alike t t') (val : σ → Nat → R T) (vs : List T) (M : Nat)
    (P : σ → Prop) (hval : ∀ s, P s → ∀ k (hk : k < vs.length), val s k = .ok vs[k])
    (hcons : ∀ s k v s1, P s → k < M → t.modify s (fun b p => b.construct c (p + k) v) = .ok s1 → P s1)
    (hset : ∀ s k, P s → k < vs.length → t'.set s k k = t.set s k k ∧ ∀ s1, t.set s k k = .ok s1 → P s1) (hM : vs.length ≤ M) :
    ∀ (m lo : Nat) (s : σ), lo + m = vs.length → (m ≠ 0 → P s) →
      forUp m lo (fun i s => do
        let v ← val s i
        let s ← t.modify s (fun b p => b.construct c (p + i) v)
        t.set s i i) s =
      forUp m lo (fun i s => do
        let s ← t'.modify s (fun b p => b.construct c (p + i) (vs.getD i default))
        t'.set s i i) s
  | 0, _, _, _, _ => rfl
  | m + 1, lo, s, hlo, hP => by
    have hP := hP (by omega)
    unfold forUp
    simp only
    rw [hval s hP lo (by omega), bind_ok]
    have hg : vs.getD lo default = vs[lo]'(by omega) := by
      rw [List.getD_eq_getElem?_getD, List.getElem?_eq_getElem (by omega)]; rfl
    rw [hg, ha.modify]
    cases hc : t.modify s (fun b p => b.construct c (p + lo) (vs[lo]'(by omega))) with
    | error e => rfl
    | ok s1 =>
      obtain ⟨e1, e2⟩ := hset s1 lo (hcons _ _ _ _ hP (by omega) hc) (by omega)
      simp only [bind_ok]
      rw [e1]
      cases hs : t.set s1 lo lo with
      | error e => rfl
      | ok s2 =>
        simp only [bind_ok]
        exact forUp_set_alike c t t' ha val vs M P hval hcons hset hM m (lo + 1) s2 (by omega) (fun _ => e2 _ hs)

theorem insertRangeRef_alike [Inhabited T] (c : Cfg) (t t' : Target σ T) (ha : Alike t t') (val : σ → Nat → R T) (vs : List T)
    (size : Nat) (s : σ) (M : Nat) (P : σ → Prop)
    (h0 : ∀ k (hk : k < vs.length), val s k = .ok vs[k])
    (hstart : ∀ n s1, (size = 0 → n = vs.length) → (size ≠ 0 → countLoop c (t.read s) size vs.reverse size 0 = .ok n) → n ≠ 0 →
      t.incrementSize s n = .ok s1 → P s1 ∧ size + n ≤ M)
    (hval : ∀ s, P s → ∀ k (hk : k < vs.length), val s k = .ok vs[k])
    (hshift : ∀ s ub pos nL s1, P s → pos ≤ ub → ub + nL ≤ M →
      t.modify s (fun b p => arrayManipulation.shiftUp c b p ub pos nL) = .ok s1 → P s1)
    (hcons : ∀ s k v s1, P s → k < M → t.modify s (fun b p => b.construct c (p + k) v) = .ok s1 → P s1)
    (hset : ∀ s k, P s → k < vs.length → k < M → t'.set s k k = t.set s k k ∧ ∀ s1, t.set s k k = .ok s1 → P s1)
    (hins : ∀ s n vp pos pp, P s → vp < vs.length → pos ≤ pp → pp + n ≤ M → pos + n ≠ 0 →
      t'.insertMany s n vp pos pp = t.insertMany s n vp pos pp ∧ ∀ s1, t.insertMany s n vp pos pp = .ok s1 → P s1) :
    insertRangeRef c t val s size vs.length = insertRange c t' s size vs := by
  unfold insertRangeRef insertRange
  rw [assertSource_eq c h0, ha.read, ha.inc]
  cases assertRange c (t.read s) size (isSortedUnique less) with
  | error e => rfl
  | ok _ =>
    simp only [bind_ok]
    cases errorIf (c.debug && !isSortedUnique less vs) with
    | error e => rfl
    | ok _ =>
      simp only [bind_ok]
      by_cases hz : size = 0
      · rw [if_pos hz, if_pos hz]
        cases hi : t.incrementSize s vs.length with
        | error e => rfl
        | ok s1 =>
          simp only [bind_ok]
          by_cases hv : vs.length = 0
          · rw [hv]; rfl
          · have hs := hstart vs.length s1 (fun _ => rfl) (fun h => absurd hz h) hv hi
            rw [forUp_set_alike c t t' ha val vs M P hval hcons (fun s k hP hk => hset s k hP hk (by omega)) (by omega) vs.length 0 s1
              (by omega) (fun _ => hs.1)]
      · rw [if_neg hz, if_neg hz]
        have := countLoopRef_eq c (t.read s) size h0 vs.length size 0 (Nat.le_refl _)
        rw [List.take_length] at this
        rw [this]
        cases hcount : countLoop c (t.read s) size vs.reverse size 0 with
        | error e => rfl
        | ok n =>
          simp only [bind_ok]
          cases hi : t.incrementSize s n with
          | error e => rfl
          | ok s1 =>
            simp only [bind_ok]
            by_cases hn : n = 0
            · rw [if_pos hn, if_pos hn]
            · rw [if_neg hn, if_neg hn]
              have hs := hstart n s1 (fun h => absurd h hz) (fun _ => hcount) hn hi
              have := insertLoopRef_alike c t t' ha val vs M P hval hshift hcons hins vs.length s1 size n (Nat.le_refl _) hs.1 hs.2
              rw [List.take_length] at this
              rw [this]

end generic

variable {V : Type} {c : Cfg} {own : Bool}

theorem alike (row nnz cap : Nat) (ent : Crs V → Nat → R V) (es : List V) :
    Alike (Crs.targetRef c own row nnz cap ent) (Crs.target c own row nnz cap es) where
  read := rfl
  modify := fun _ _ => rfl
  inc := rfl

/-- A single insertion: what the reference reads after the entries have been shifted is what is inserted. -/
theorem insertOne_ref (m : Crs V) (row nnz cap col : Nat) (ent : Crs V → Nat → R V) (e : R V)
    (H : ∀ (pos : Nat) (m1 s2 : Crs V) (b : Buf V), insertPosition c.ix (fun i => m.columns.read (m.rowPtr row + i)) nnz col = .ok pos →
      isAt (fun i => m.columns.read (m.rowPtr row + i)) nnz pos col = .ok false →
      (Crs.target c own row nnz cap ([] : List V)).incrementSize m 1 = .ok m1 → s2.entries = m1.entries → s2.shape = m1.shape →
      arrayManipulation.shiftUp c m1.entries (m1.rowPtr row) nnz pos 1 = .ok b → ent { s2 with entries := b } 0 = e) :
    insertOne c.ix (Crs.targetRef c own row nnz cap ent) m nnz col =
      match (generalizing := false) e with
      | .ok v => insertOne c.ix (Crs.target c own row nnz cap [v]) m nnz col
      | .error _ => insertOne c.ix (Crs.targetRef c own row nnz cap (fun _ _ => e)) m nnz col := by
  have key : insertOne c.ix (Crs.targetRef c own row nnz cap ent) m nnz col =
      insertOne c.ix (Crs.targetRef c own row nnz cap (fun _ _ => e)) m nnz col := by
    unfold insertOne
    change (assertRange c.ix (fun i => m.columns.read (m.rowPtr row + i)) _ _ >>= _) =
      (assertRange c.ix (fun i => m.columns.read (m.rowPtr row + i)) _ _ >>= _)
    congr 1
    funext _
    change (insertPosition c.ix (fun i => m.columns.read (m.rowPtr row + i)) nnz col >>= _) =
      (insertPosition c.ix (fun i => m.columns.read (m.rowPtr row + i)) nnz col >>= _)
    cases hp : insertPosition c.ix (fun i => m.columns.read (m.rowPtr row + i)) nnz col with
    | error e => rfl
    | ok pos =>
      simp only [bind_ok]
      change (isAt (fun i => m.columns.read (m.rowPtr row + i)) nnz pos col >>= _) =
        (isAt (fun i => m.columns.read (m.rowPtr row + i)) nnz pos col >>= _)
      cases hpr : isAt (fun i => m.columns.read (m.rowPtr row + i)) nnz pos col with
      | error e => rfl
      | ok present =>
       simp only [bind_ok]
       cases present with
       | true => rfl
       | false =>
        simp only [Bool.false_eq_true, if_false]
        change ((Crs.target c own row nnz cap ([] : List V)).incrementSize m 1 >>= _) =
          ((Crs.target c own row nnz cap ([] : List V)).incrementSize m 1 >>= _)
        cases hi : (Crs.target c own row nnz cap ([] : List V)).incrementSize m 1 with
        | error e => rfl
        | ok m1 =>
          simp only [bind_ok]
          unfold Target.modify
          change ((arrayManipulation.emplace c.ix m1.columns (m1.rowPtr row) nnz pos col >>= fun b => Except.ok { m1 with columns := b })
            >>= _) = ((arrayManipulation.emplace c.ix m1.columns (m1.rowPtr row) nnz pos col >>= fun b =>
              Except.ok { m1 with columns := b }) >>= _)
          cases arrayManipulation.emplace c.ix m1.columns (m1.rowPtr row) nnz pos col with
          | error e => rfl
          | ok b2 =>
            simp only [bind_ok]
            have hh := H pos m1 { m1 with columns := b2 }
            unfold Crs.targetRef
            simp only
            change ((arrayManipulation.assertNonNull c m1.entries (m1.rowPtr row) >>= _) >>= _) =
              ((arrayManipulation.assertNonNull c m1.entries (m1.rowPtr row) >>= _) >>= _)
            congr 1
            congr 1
            funext _
            congr 1
            funext _
            change (arrayManipulation.shiftUp c m1.entries (m1.rowPtr row) nnz pos 1 >>= _) =
              (arrayManipulation.shiftUp c m1.entries (m1.rowPtr row) nnz pos 1 >>= _)
            cases hs : arrayManipulation.shiftUp c m1.entries (m1.rowPtr row) nnz pos 1 with
            | error e => rfl
            | ok b =>
              simp only [bind_ok]
              rw [hh b hp hpr hi rfl rfl hs]
  rw [key]
  cases e with
  | error e => rfl
  | ok v =>
    have : Crs.targetRef c own row nnz cap (fun _ _ => Except.ok v) =
        { Crs.target c own row nnz cap [v] with
          set := (Crs.targetRef c own row nnz cap (fun _ _ => Except.ok v)).set
          insertMany := (Crs.targetRef c own row nnz cap (fun _ _ => Except.ok v)).insertMany } := by
      unfold Crs.targetRef Crs.target
      simp only [bind_ok, Target.mk.injEq, true_and, and_true]
      funext m pos
      simp only [List.getElem?_cons_zero]
      unfold arrayManipulation.emplace
      cases arrayManipulation.assertNonNull c m.entries (m.rowPtr row) with
      | error e => rfl
      | ok _ =>
        cases arrayManipulation.checkInsertBounds c nnz pos with
        | error e => rfl
        | ok _ =>
          simp only [bind_ok]
          cases arrayManipulation.shiftUp c m.entries (m.rowPtr row) nnz pos 1 with
          | error e => rfl
          | ok b => rfl
    rw [this]
    rfl

/-- If the reference cannot be read the insertion fails. -/
theorem insertOne_unreadable (m s' : Crs V) (row nnz cap col : Nat) (v : V) (err : Err)
    (hok : insertOne c.ix (Crs.target c own row nnz cap [v]) m nnz col = .ok (s', true)) :
    insertOne c.ix (Crs.targetRef c own row nnz cap (fun _ _ => .error err)) m nnz col = .error err := by
  unfold insertOne at hok
  obtain ⟨_, e1, hok⟩ := LvArray.bind_eq_ok.1 hok
  obtain ⟨pos, e2, hok⟩ := LvArray.bind_eq_ok.1 hok
  obtain ⟨present, e3, hok⟩ := LvArray.bind_eq_ok.1 hok
  cases present with
  | true =>
    simp only [if_true] at hok
    obtain ⟨_, -, hok⟩ := LvArray.bind_eq_ok.1 hok
    cases hok
  | false =>
    simp only [Bool.false_eq_true, if_false] at hok
    obtain ⟨s1, e4, hok⟩ := LvArray.bind_eq_ok.1 hok
    obtain ⟨s2, e5, hok⟩ := LvArray.bind_eq_ok.1 hok
    obtain ⟨s3, e6, hok⟩ := LvArray.bind_eq_ok.1 hok
    change (arrayManipulation.emplace c s2.entries (s2.rowPtr row) nnz pos v >>= fun entries => Except.ok { s2 with entries := entries })
      = _ at e6
    obtain ⟨b, e7, -⟩ := LvArray.bind_eq_ok.1 e6
    unfold arrayManipulation.emplace at e7
    obtain ⟨_, q1, e7⟩ := LvArray.bind_eq_ok.1 e7
    obtain ⟨_, q2, e7⟩ := LvArray.bind_eq_ok.1 e7
    obtain ⟨b2, q3, -⟩ := LvArray.bind_eq_ok.1 e7
    unfold insertOne
    rw [show (Crs.targetRef c own row nnz cap (fun _ _ => Except.error err)).read = (Crs.target c own row nnz cap [v]).read from rfl,
      e1, bind_ok, e2, bind_ok, e3, bind_ok]
    simp only [Bool.false_eq_true, if_false]
    rw [show (Crs.targetRef c own row nnz cap (fun _ _ => Except.error err)).incrementSize =
      (Crs.target c own row nnz cap [v]).incrementSize from rfl, e4, bind_ok]
    rw [show ∀ s f, (Crs.targetRef c own row nnz cap (fun _ _ => Except.error err)).modify s f =
      (Crs.target c own row nnz cap [v]).modify s f from fun _ _ => rfl, e5, bind_ok]
    unfold Crs.targetRef
    simp only
    rw [q1, bind_ok, q2, bind_ok, q3, bind_ok]
    rfl

section rows

open Layout

variable {m : Crs V} {A B : Layout (Nat × V)} {xs args : List (Nat × V)} {cap q : Nat}

theorem readOwnColumn_keeps (c : Cfg) {m s : Crs V} {q : Nat} {vs : List Nat} (h : Keeps q m.columns.cap vs s.columns)
    (hq : q + vs.length ≤ m.columns.cap) (k : Nat) (hk : k < vs.length) : m.readOwnColumn c s (q + k) = .ok vs[k] := by
  unfold Crs.readOwnColumn Buf.readStale
  rw [if_neg (by have := h.1; omega), h.2 k hk]
  exact read_live (by have := h.1; omega) (h.2 k hk)

theorem readOwnEntry_keeps (c : Cfg) {m s : Crs V} {q : Nat} {vs : List V} (h : Keeps q m.entries.cap vs s.entries)
    (hq : q + vs.length ≤ m.entries.cap) (k : Nat) (hk : k < vs.length) : m.readOwnEntry c s (q + k) = .ok vs[k] := by
  unfold Crs.readOwnEntry Buf.readStale
  rw [if_neg (by have := h.1; omega), h.2 k hk]
  exact read_live (by have := h.1; omega) (h.2 k hk)

/-- Where a part of a row is. -/
theorem keeps_both (h : CGood m (A ++ (xs, cap) :: B)) {lo n : Nat} (hn : lo + n ≤ xs.length) :
    Keeps (total A + lo) m.columns.cap (((xs.drop lo).take n).map (·.1)) m.columns ∧
    Keeps (total A + lo) m.entries.cap (((xs.drop lo).take n).map (·.2)) m.entries ∧
    total A + lo + n ≤ m.columns.cap ∧ total A + lo + n ≤ m.entries.cap := by
  have hlen : ((xs.drop lo).take n).length = n := by simp; omega
  have h1 := h.cols
  have h2 := h.ents
  rw [mapL_append, mapL_cons] at h1 h2
  have k1 := keeps_row h1 (lo := lo) (n := n) (by simpa using hn)
  have k2 := keeps_row h2 (lo := lo) (n := n) (by simpa using hn)
  rw [mapL_total, ← List.map_drop, ← List.map_take, List.length_map, hlen] at k1 k2
  exact ⟨k1.1, k2.1, k1.2, k2.2⟩

theorem iteratorAt_ok (h : CGood m (A ++ (xs, cap) :: B)) (lo : Nat) : m.iteratorAt c A.length lo = .ok (total A + lo) := by
  unfold Crs.iteratorAt
  rw [show m.shape.checkBounds c A.length = .ok () from by
    have := h.cols.checkBounds (c := c) (i := A.length) (by simp)
    exact this, bind_ok, h.readOff, bind_ok]

theorem elementAt_ok (h : CGood m (A ++ (xs, cap) :: B)) {k : Nat} (hk : k < xs.length) :
    m.elementAt c A.length k = .ok (total A + k) := by
  have h1 := h.cols
  rw [mapL_append, mapL_cons] at h1
  have h2 := h1.element (c := c) (k := k) (by simpa using hk)
  unfold AoA.element at h2
  obtain ⟨_, e1, h2⟩ := LvArray.bind_eq_ok.1 h2
  unfold Crs.elementAt
  rw [mapL_length] at e1
  rw [show m.shape.checkBounds2 c A.length k = .ok _ from e1, bind_ok, h.readOff, bind_ok]

/-- With room the call backs' `incrementSize` does nothing. -/
theorem inc_room (row nnz : Nat) (n : Nat) (hn : nnz + n ≤ cap) (es : List V) :
    (Crs.target c own row nnz cap es).incrementSize m n = .ok m := by
  show (if own then if cap < nnz + n then m.setRowCapacity c row (2 * (nnz + n)) else .ok m
    else errorIf (c.boundsCheck && decide (cap < nnz + n)) >>= fun _ => .ok m) = _
  rw [if_neg (by omega : ¬ cap < nnz + n), decide_eq_false (by omega), Bool.and_false]
  split <;> rfl

theorem modify_ref {row nnz : Nat} {ent : Crs V → Nat → R V} {s s1 : Crs V} {f : Buf Nat → Nat → R (Buf Nat)}
    (he : (Crs.targetRef c own row nnz cap ent).modify s f = .ok s1) :
    ∃ b, f s.columns (s.rowPtr row) = .ok b ∧ s1 = { s with columns := b } := by
  unfold Target.modify at he
  obtain ⟨b, h1, h2⟩ := LvArray.bind_eq_ok.1 he
  cases h2
  exact ⟨b, h1, rfl⟩

theorem counted_row {n : Nat} (h : CGood m (A ++ (xs, cap) :: B)) (hx : Increasing Prod.fst xs) (hv : Increasing Prod.fst args)
    (hz : xs.length = 0 → n = (args.map (·.1)).length)
    (hnz : xs.length ≠ 0 → countLoop c.ix (fun i => m.columns.read (m.rowPtr A.length + i)) xs.length (args.map (·.1)).reverse
      xs.length 0 = .ok n) : n = newCount Prod.fst xs args := by
  by_cases h0 : xs.length = 0
  · rw [hz h0, List.eq_nil_of_length_eq_zero h0]
    simp [newCount]
  · have hc := countLoop_spec c.ix Prod.fst (fun i => m.columns.read (m.rowPtr A.length + i)) xs hx
      (fun i hi => Crs.readRow h i hi) (args.map (·.1)).reverse xs [] 0 (by simp) (by simp)
      (List.pairwise_reverse.mpr (List.pairwise_map.2 hv))
    rw [hnz h0] at hc
    cases hc
    rw [Nat.zero_add, List.filter_reverse, List.length_reverse, List.filter_map, List.length_map]
    rfl

/-- Inserting a part of another row, or of the row itself, for which there is room. -/
theorem insertNonZerosOwn_eq (h : CGood m (A ++ (xs, cap) :: B)) (hx : Increasing Prod.fst xs) (hv : Increasing Prod.fst args)
    {j lo : Nat} (hit : m.iteratorAt c j lo = .ok q) (kc : Keeps q m.columns.cap (args.map (·.1)) m.columns)
    (ke : Keeps q m.entries.cap (args.map (·.2)) m.entries) (hqc : q + args.length ≤ m.columns.cap)
    (hqe : q + args.length ≤ m.entries.cap) (hroom : xs.length + newCount Prod.fst xs args ≤ cap)
    (hd : newCount Prod.fst xs args ≠ 0 → q + args.length ≤ total A ∨ total A + cap ≤ q) :
    m.insertNonZerosOwn c own A.length j lo args.length =
      m.insertNonZeros c own A.length (args.map (·.1)) (args.map (·.2)) := by
  unfold Crs.insertNonZerosOwn Crs.insertNonZeros Crs.insertNonZerosIn
  simp only [hit, h.shape.sizeOfAt (i := A.length) rfl, h.shape.capacityOfAt (i := A.length) rfl, h.readOff, bind_ok]
  have hc : ∀ s : Crs V, Keeps q m.columns.cap (args.map (·.1)) s.columns → ∀ k (hk : k < (args.map (·.1)).length),
      m.readOwnColumn c s (q + k) = .ok (args.map (·.1))[k] := fun s hs k hk =>
    readOwnColumn_keeps c hs (by simpa using hqc) k hk
  have he : ∀ s : Crs V, Keeps q m.entries.cap (args.map (·.2)) s.entries → ∀ k (hk : k < (args.map (·.2)).length),
      m.readOwnEntry c s (q + k) = .ok (args.map (·.2))[k] := fun s hs k hk =>
    readOwnEntry_keeps c hs (by simpa using hqe) k hk
  have key := insertRangeRef_alike c.ix
    (Crs.targetRef c own A.length xs.length cap (fun s i => m.readOwnEntry c s (q + i)))
    (Crs.target c own A.length xs.length cap (args.map (·.2))) (alike _ _ _ _ _) (fun s i => m.readOwnColumn c s (q + i))
    (args.map (·.1)) xs.length m cap
    (fun s => s.rowPtr A.length = total A ∧ Keeps q m.columns.cap (args.map (·.1)) s.columns ∧
      Keeps q m.entries.cap (args.map (·.2)) s.entries ∧ (q + args.length ≤ total A ∨ total A + cap ≤ q))
    (hc m kc) ?_ (fun s hs => hc s hs.2.1) ?_ ?_ ?_ ?_
  · rw [List.length_map] at key
    rw [key]
  · intro n s1 hz hnz hn hi
    have hcount := counted_row (c := c) h hx hv hz hnz
    subst hcount
    rw [← (alike (c := c) (own := own) A.length xs.length cap (fun s i => m.readOwnEntry c s (q + i)) (args.map (·.2))).inc,
      inc_room _ _ _ hroom] at hi
    have hi : m = s1 := by injection hi
    subst hi
    exact ⟨⟨h.rowPtr, kc, ke, hd hn⟩, hroom⟩
  · rintro s ub pos nL s1 ⟨h1, h2, h3, h4⟩ hpos hM hm
    obtain ⟨b, hb, rfl⟩ := modify_ref hm
    rw [h1] at hb
    exact ⟨h1, h2.shiftUp hpos (by simp only [List.length_map]; omega) hb, h3, h4⟩
  · rintro s k v s1 ⟨h1, h2, h3, h4⟩ hk hm
    obtain ⟨b, hb, rfl⟩ := modify_ref hm
    rw [h1] at hb
    exact ⟨h1, h2.construct (by simp only [List.length_map]; omega) hb, h3, h4⟩
  · rintro s k ⟨h1, h2, h3, h4⟩ hk hkM
    have hk' : k < (args.map (·.2)).length := by simpa using hk
    constructor
    · unfold Crs.target Crs.targetRef
      simp only
      rw [List.getElem?_eq_getElem hk', he s h3 k hk']
      rfl
    · intro s1 hs
      change (m.readOwnEntry c s (q + k) >>= fun e => s.entries.construct c (s.rowPtr A.length + k) e >>= fun entries =>
        Except.ok { s with entries := entries }) = _ at hs
      rw [he s h3 k hk', bind_ok, h1] at hs
      obtain ⟨b, hb, hs⟩ := LvArray.bind_eq_ok.1 hs
      cases hs
      exact ⟨h1, h2, h3.construct (by simp only [List.length_map]; omega) hb, h4⟩
  · rintro s n vp pos pp ⟨h1, h2, h3, h4⟩ hvp hpos hM hne
    have hk' : vp < (args.map (·.2)).length := by simpa using hvp
    have hsh : ∀ b, arrayManipulation.shiftUp c s.entries (total A) pp pos n = .ok b → Keeps q m.entries.cap (args.map (·.2)) b :=
      fun b hb => h3.shiftUp hpos (by simp only [List.length_map]; omega) hb
    constructor
    · unfold Crs.target Crs.targetRef
      simp only
      rw [List.getElem?_eq_getElem hk', h1]
      cases hb : arrayManipulation.shiftUp c s.entries (total A) pp pos n with
      | error e => rfl
      | ok b =>
        simp only [bind_ok]
        rw [he { s with entries := b } (hsh b hb) vp hk', bind_ok]
    · intro s1 hs
      change (arrayManipulation.shiftUp c s.entries (s.rowPtr A.length) pp pos n >>= fun b =>
        m.readOwnEntry c { s with entries := b } (q + vp) >>= fun e =>
          b.construct c (s.rowPtr A.length + (pos + n - 1)) e >>= fun entries => Except.ok { s with entries := entries }) = _ at hs
      rw [h1] at hs
      obtain ⟨b, hb, hs⟩ := LvArray.bind_eq_ok.1 hs
      rw [he { s with entries := b } (hsh b hb) vp hk', bind_ok] at hs
      obtain ⟨b', hb', hs⟩ := LvArray.bind_eq_ok.1 hs
      cases hs
      exact ⟨h1, h2, (hsh b hb).construct (by simp only [List.length_map]; omega) hb', h4⟩

/-- A single insertion of an entry of another row, for which there is room. -/
theorem insertNonZeroOwn_eq (h : CGood m (A ++ (xs, cap) :: B)) (hx : Increasing Prod.fst xs) {col j k : Nat} {e : V}
    (hit : m.elementAt c j k = .ok q) (ke : Keeps q m.entries.cap [e] m.entries) (hqe : q + 1 ≤ m.entries.cap)
    (hroom : (∀ x ∈ xs, x.1 ≠ col) → xs.length + 1 ≤ cap) (hd : q + 1 ≤ total A ∨ total A + cap ≤ q) :
    m.insertNonZeroOwn c own A.length col j k = m.insertNonZero c own A.length col e := by
  unfold Crs.insertNonZeroOwn Crs.insertNonZero Crs.insertNonZeroIn
  simp only [hit, h.shape.sizeOfAt (i := A.length) rfl, h.shape.capacityOfAt (i := A.length) rfl, h.readOff, bind_ok]
  rw [insertOne_ref (c := c) (own := own) m A.length xs.length cap col (fun s i => m.readOwnEntry c s (q + i)) (.ok e)]
  intro pos m1 s2 b hp hat hi h1 h2 hb
  obtain ⟨f1, f2, hf, hpos, k1, k2⟩ := insertPosition_split c.ix Prod.fst (fun i => m.columns.read (m.rowPtr A.length + i)) xs col hx
    (fun i hi => Crs.readRow h i hi)
  rw [hpos] at hp
  cases hp
  have hab : ∀ x ∈ xs, x.1 ≠ col := by
    rw [hf] at hx hat
    rw [present_eq Prod.fst (fun i => m.columns.read (m.rowPtr A.length + i)) f1 f2 col
      (fun i hi => by have := Crs.readRow h i (by rw [hf]; exact hi); simp only [hf] at this; exact this) k2 hx] at hat
    injection hat with hat
    rw [decide_eq_false_iff_not] at hat
    intro x hxm e
    rw [hf] at hxm
    rcases List.mem_append.1 hxm with hm | hm
    · exact absurd e (Nat.ne_of_lt (k1 x hm))
    · exact hat ⟨x, hm, e⟩
  have hroom := hroom hab
  rw [inc_room _ _ _ hroom] at hi
  have hi : m = m1 := by injection hi
  subst hi
  rw [h.rowPtr] at hb
  have hle : f1.length ≤ xs.length := by rw [hf]; simp
  have := ke.shiftUp hle (by simp only [List.length_singleton]; omega) hb
  have := readOwnEntry_keeps c (m := m) (s := { s2 with entries := b }) this (by simpa using hqe) 0 (by simp)
  simpa using this

/-- What a reference to the `k`-th entry of the row reads after the entries from position `pos` on have been shifted up by one. -/
def shifted (bytesStay : Bool) (es : List V) (pos k : Nat) : Option V :=
  if k < pos then es[k]? else if k = pos then (if bytesStay then es[k]? else none) else es[k - 1]?

/-- A single insertion of an entry of the same row, for which there is room. -/
theorem insertNonZeroOwn_self (h : CGood m (A ++ (xs, cap) :: B)) (hx : Increasing Prod.fst xs) {col k pos : Nat}
    (hk : k < xs.length) (hroom : xs.length + 1 ≤ cap) (habs : ∀ x ∈ xs, x.1 ≠ col)
    (hpos : pos = (xs.filter fun x => decide (x.1 < col)).length) :
    m.insertNonZeroOwn c own A.length col A.length k =
      match shifted c.trivial (xs.map (·.2)) pos k with
      | some e => m.insertNonZero c own A.length col e
      | none => .error (.ub .rawRead) := by
  have w := Crs.winE h IsRaw
  have hcell : ∀ i (hi : i < xs.length), m.entries.cell (total A + i) = .live xs[i].2 := fun i hi => by
    have := w.front i (by simpa using hi)
    simpa using this
  have hfit := w.inside
  have hraw : ∀ i, xs.length ≤ i → i < cap → m.entries.cell (total A + i) = .raw := fun i h1 h2 => by
    rw [h.layE.cell, mapL_append, mapL_cons, ← mapL_total Prod.snd A, cells_row _ _ _ _ _ h2]
    exact cellsOf_ge (by simpa using h1)
  obtain ⟨f1, f2, hf, hp, h1, h2⟩ := insertPosition_split c.ix Prod.fst (fun i => m.columns.read (m.rowPtr A.length + i)) xs col hx
    (fun i hi => Crs.readRow h i hi)
  have hpf : pos = f1.length := by
    rw [hpos, hf, List.filter_append, List.filter_eq_self.2 (fun x hx => decide_eq_true (h1 x hx)),
      List.filter_eq_nil_iff.2 (fun x hx => by simpa using h2 x hx), List.append_nil]
  have hle : pos ≤ xs.length := by rw [hpf, hf]; simp
  -- what the reference reads
  have hent : ∀ s2 : Crs V, ∀ b, arrayManipulation.shiftUp c m.entries (total A) xs.length pos 1 = .ok b →
      m.readOwnEntry c { s2 with entries := b } (total A + k) =
        match shifted c.trivial (xs.map (·.2)) pos k with
        | some e => .ok e
        | none => .error (.ub .rawRead) := by
    intro s2 b hb
    rw [arrayManipulation.shiftUp_eq c m.entries (total A) xs.length pos 1 hle (by omega)
      (fun i hi1 hi2 => by
        have := hcell (i - total A) (by omega)
        rw [show total A + (i - total A) = i by omega] at this
        rw [this]; rfl)
      (fun i hi1 hi2 => by
        have := hraw (i - total A) (by omega) (by omega)
        rwa [show total A + (i - total A) = i by omega] at this)] at hb
    injection hb with hb
    subst hb
    unfold Crs.readOwnEntry Buf.readStale Buf.read shifted
    simp only [Nat.lt_irrefl, if_false, Nat.add_lt_add_iff_left, Nat.add_assoc]
    by_cases hk1 : k < pos
    · simp only [hk1, if_true]
      rw [hcell k hk]
      simp only [List.getElem?_map, List.getElem?_eq_getElem hk, Option.map_some]
      rw [if_pos (by omega)]
    · by_cases hk2 : k = pos
      · subst hk2
        simp only [Nat.lt_irrefl, if_false, if_true, Nat.lt_succ_self]
        split
        · rw [hcell k hk]
          simp only [List.getElem?_map, List.getElem?_eq_getElem hk, Option.map_some]
          rw [if_pos (by omega)]
        · rw [if_pos (by omega)]
      · simp only [hk1, hk2, if_false, show ¬ k < pos + 1 by omega, show k < xs.length + 1 by omega, if_true]
        rw [show total A + k - 1 = total A + (k - 1) by omega, hcell (k - 1) (by omega)]
        simp only [List.getElem?_map, List.getElem?_eq_getElem (show k - 1 < xs.length by omega), Option.map_some]
        rw [if_pos (by omega)]
  have href := insertOne_ref (c := c) (own := own) m A.length xs.length cap col
    (fun s i => m.readOwnEntry c s (total A + k + i)) (match shifted c.trivial (xs.map (·.2)) pos k with
      | some e => .ok e
      | none => .error (.ub .rawRead)) (by
    intro pos' m1 s2 b hp' _ hi _ _ hb
    rw [inc_room _ _ _ hroom] at hi
    have hi : m = m1 := by injection hi
    subst hi
    rw [hp] at hp'
    injection hp' with hp'
    subst hp'
    rw [h.rowPtr, ← hpf] at hb
    exact hent s2 b hb)
  cases hsh : shifted c.trivial (xs.map (·.2)) pos k with
  | some e =>
    rw [hsh] at href
    simp only at href ⊢
    unfold Crs.insertNonZeroOwn Crs.insertNonZero Crs.insertNonZeroIn
    simp only [elementAt_ok h hk, h.shape.sizeOfAt (i := A.length) rfl, h.shape.capacityOfAt (i := A.length) rfl, h.readOff, bind_ok]
    rw [href]
  | none =>
    rw [hsh] at href
    simp only at href ⊢
    obtain ⟨m', ys, cap', q1, -⟩ := Crs.insert_ok (ci := c.ix) (c := c) (own := own) h hx col (xs[k].2) (fun n hn => by
      rw [if_pos habs] at hn
      exact ⟨m, cap, inc_room _ _ _ (by omega) _, rfl, h, by omega⟩)
    unfold Crs.insertNonZeroIn at q1
    unfold Crs.insertNonZeroOwn
    simp only [h.shape.sizeOfAt (i := A.length) rfl, h.shape.capacityOfAt (i := A.length) rfl, h.readOff, bind_ok] at q1
    simp only [elementAt_ok h hk, h.shape.sizeOfAt (i := A.length) rfl, h.shape.capacityOfAt (i := A.length) rfl, h.readOff, bind_ok]
    obtain ⟨⟨r1, r2⟩, q2, q1⟩ := LvArray.bind_eq_ok.1 q1
    obtain ⟨sh, -, q1⟩ := LvArray.bind_eq_ok.1 q1
    have hr : r2 = true := by
      injection q1 with q1
      injection q1 with _ q1
      simp only at q1
      rw [q1, decide_eq_true_iff]; exact habs
    subst hr
    rw [href, insertOne_unreadable m _ _ _ _ _ _ _ q2, bind_err]

/-! ### Removing -/

theorem modify_columns {row nnz : Nat} {es : List V} {s s1 : Crs V} {f : Buf Nat → Nat → R (Buf Nat)}
    (he : (Crs.target c own row nnz cap es).modify s f = .ok s1) :
    ∃ b, f s.columns (s.rowPtr row) = .ok b ∧ s1 = { s with columns := b } := by
  unfold Target.modify at he
  obtain ⟨b, h1, h2⟩ := LvArray.bind_eq_ok.1 he
  cases h2
  exact ⟨b, h1, rfl⟩

/-- Removing a part of the row itself. -/
theorem removeNonZerosOwn_self (h : CGood m (A ++ (xs, cap) :: B)) (hx : Increasing Prod.fst xs) {lo n : Nat}
    (hn : lo + n ≤ xs.length) :
    m.removeNonZerosOwn c A.length A.length lo n = m.removeNonZeros c A.length (((xs.map (·.1)).drop lo).take n) := by
  have hlen : (((xs.map (·.1)).drop lo).take n).length = n := by simp; omega
  unfold Crs.removeNonZerosOwn Crs.removeNonZeros Crs.removeNonZerosIn
  obtain ⟨hk, -, hq, -⟩ := keeps_both h hn
  rw [List.map_take, List.map_drop] at hk
  simp only [iteratorAt_ok h lo, h.shape.sizeOfAt (i := A.length) rfl, h.shape.capacityOfAt (i := A.length) rfl, h.readOff, bind_ok]
  have := removeRangeRef_self c.ix (Crs.target c false A.length xs.length cap []) (fun s i => m.readOwnColumn c s (total A + lo + i))
    (xs := xs.map (·.1)) (List.pairwise_map.2 hx) m rfl (fun n p s' hs => by
      change (arrayManipulation.shiftDown c m.entries (m.rowPtr A.length) (p + 1) (p + 1) n >>= fun entries =>
        Except.ok { m with entries := entries }) = _ at hs
      obtain ⟨b, hb, hs⟩ := LvArray.bind_eq_ok.1 hs
      have hb' : b = m.entries := by
        unfold arrayManipulation.shiftDown at hb
        obtain ⟨_, -, hb⟩ := LvArray.bind_eq_ok.1 hb
        obtain ⟨_, -, hb⟩ := LvArray.bind_eq_ok.1 hb
        rw [Nat.sub_self] at hb
        split at hb <;> (cases hb; rfl)
      subst hb'
      cases hs
      rfl)
    (fun i hi => by
      have := Crs.readRow h i (by simpa using hi)
      rw [List.getElem_map]; exact this)
    (by simpa using hn) (fun k hk' => readOwnColumn_keeps c hk (by rw [hlen]; exact hq) k hk')
  rw [hlen, List.length_map] at this
  rw [this]

/-- Removing a part of another row. -/
theorem removeNonZerosOwn_eq (h : CGood m (A ++ (xs, cap) :: B)) (hx : Increasing Prod.fst xs) {vs : List Nat}
    (hv : vs.Pairwise (· < ·)) {j lo : Nat} (hit : m.iteratorAt c j lo = .ok q) (hk : Keeps q m.columns.cap vs m.columns)
    (hq : q + vs.length ≤ m.columns.cap) (hd : q + vs.length ≤ total A ∨ total A + cap ≤ q) :
    m.removeNonZerosOwn c A.length j lo vs.length = m.removeNonZeros c A.length vs := by
  unfold Crs.removeNonZerosOwn Crs.removeNonZeros Crs.removeNonZerosIn
  simp only [hit, h.shape.sizeOfAt (i := A.length) rfl, h.shape.capacityOfAt (i := A.length) rfl, h.readOff, bind_ok]
  have hX : (xs.map (fun x : Nat × V => x.1)).Pairwise (· < ·) := List.pairwise_map.2 hx
  have hXl : (xs.map (fun x : Nat × V => x.1)).length = xs.length := by simp
  have hkw : ∀ (s : Crs V) kept d rest, Win NotRaw m.columns s.columns (total A) cap kept d rest →
      Keeps q m.columns.cap vs s.columns :=
    fun s kept d rest w => ⟨w.capEq, fun k hk' => by rw [w.frame (q + k) (by omega), hk.2 k hk']⟩
  have hreadw : ∀ (s : Crs V) kept d rest, s.rowPtr A.length = total A →
      Win NotRaw m.columns s.columns (total A) cap kept d rest → ∀ i (hi : i < rest.length),
        (Crs.target c false A.length xs.length cap ([] : List V)).read s (kept.length + d + i) = .ok (id rest[i]) := by
    intro s kept d rest hp w i hi
    show s.columns.read (s.rowPtr A.length + (kept.length + d + i)) = _
    rw [hp, w.read_back i hi]; rfl
  have key := removeRangeRef_eq c.ix (Crs.target c false A.length xs.length cap ([] : List V))
    (fun s k => m.readOwnColumn c s (q + k)) vs (xs.map (fun x : Nat × V => x.1)).length m
    (fun s pos nR l => s.rowPtr A.length = total A ∧ l.Pairwise (· < ·) ∧ ∃ kept x rest,
      Win NotRaw m.columns s.columns (total A) cap kept nR (x :: rest) ∧ pos = kept.length + nR ∧
      pos + (x :: rest).length = (xs.map (fun x : Nat × V => x.1)).length ∧ Increasing id (x :: rest) ∧ ∃ l', l = x :: l')
    (fun k hk' => readOwnColumn_keeps c hk hq k hk') ?_ ?_ ?_
  · rw [hXl] at key
    rw [key]
  · intro pos w ws hs
    have w0 := (Crs.winC h NotRaw).join NotRaw (xs.map (fun x : Nat × V => x.1)) [] (by simp)
    obtain ⟨f, g, n, ws', hfg, hs', hf, hcase⟩ := seek_spec c.ix id
      ((Crs.target c false A.length xs.length cap ([] : List V)).read m) (xs.map (fun x : Nat × V => x.1)).length vs 0 (xs.map (fun x : Nat × V => x.1)) (by simp)
      (show Increasing id _ from hX) hv (fun i hi => by
        have := hreadw m [] 0 _ h.rowPtr w0 i hi
        simpa using this)
    rw [hs] at hs'
    cases hs'
    rcases hcase with ⟨hws, -⟩ | ⟨x, g', v, ws'', rfl, hws, hxv, hn, us, hus, -⟩
    · cases hws
    · cases hws
      have hinc := hX
      rw [hfg] at hinc w0
      refine ⟨h.rowPtr, (hus ▸ hv).sublist (List.sublist_append_right _ _), f, x, g', w0.split NotRaw, by omega, ?_,
        (List.pairwise_append.1 hinc).2.1, ws, by rw [← hxv]; rfl⟩
      rw [hfg, List.length_append, hn, Nat.zero_add]
  · rintro s pos nR l ⟨-, -, kept, x, rest, w, -⟩ k hk'
    exact readOwnColumn_keeps c (hkw _ _ _ _ w) hq k hk'
  · rintro s pos nR v rest np w ws s1 s2 ⟨hp, hl, kept, x, r, hw, rfl, hsz, hinc, l', hl'⟩ hs h1 h2
    cases hl'
    rw [List.pairwise_cons] at hl
    obtain ⟨f, g, n, ws', hfg, hs', hf, hcase⟩ := seek_spec c.ix id
      ((Crs.target c false A.length xs.length cap ([] : List V)).read s) (xs.map (fun x : Nat × V => x.1)).length rest (kept.length + nR) (v :: r) hsz
      hinc hl.2 (hreadw s kept nR _ hp hw)
    rw [hs] at hs'
    cases hs'
    rcases hcase with ⟨hws, -⟩ | ⟨y, g', v', ws'', rfl, hws, hyv, hn, us, hus, -⟩
    · cases hws
    · cases hws
      have hyv : y = w := hyv
      subst hyv
      have hlt : v < y := hl.1 y (by rw [hus]; simp)
      cases f with
      | nil =>
        rw [List.nil_append] at hfg
        cases hfg
        exact absurd hlt (lt_irrefl _)
      | cons x' f =>
        rw [List.cons_append] at hfg
        cases hfg
        obtain ⟨b1, e1, e2⟩ := Win.removeStep (f2 := f) (rest := y :: g') c.ix (by simpa using hw)
        obtain ⟨b, hb, rfl⟩ := modify_columns h1
        have hnp : np = kept.length + nR + 1 + f.length := by rw [hn, List.length_cons]; omega
        rw [hp, hnp, e1] at hb
        cases hb
        obtain ⟨b2, -, h2⟩ := LvArray.bind_eq_ok.1 h2
        cases h2
        refine ⟨hp, (hus ▸ hl.2).sublist (List.sublist_append_right _ _), kept ++ f, y, g', e2, ?_, ?_, ?_, ws, rfl⟩
        · rw [hnp, List.length_append]; omega
        · rw [hnp]
          simp only [List.length_cons, List.length_append] at hsz ⊢
          omega
        · exact (List.pairwise_append.1 (List.pairwise_cons.1 hinc).2).2.1

end rows

open Layout

/-! ### `addToRow` -/

section add

variable [Add V] {m : Crs V} {A B : Layout (Nat × V)} {xs : List (Nat × V)} {cap : Nat}

/-- What the pointers read as long as the entries of the columns from the `t`-th one on have not been changed. -/
def ReadsArgs (A : Layout (Nat × V)) (xs : List (Nat × V)) (cap : Nat) (B : Layout (Nat × V)) (cols : Crs V → Nat → R Nat)
    (vals : Crs V → Nat → R V) (t : Nat) (args : List (Nat × V)) : Prop :=
  ∀ (k : Nat) (a : Nat × V), args[k]? = some a → ∀ (m' : Crs V) (xs' : List (Nat × V)), CGood m' (A ++ (xs', cap) :: B) →
    xs'.map (fun x : Nat × V => x.1) = xs.map (fun x : Nat × V => x.1) →
    (∀ (p : Nat) (x : Nat × V), xs[p]? = some x → a.1 ≤ x.1 → xs'[p]? = some x) →
    cols m' (t + k) = .ok a.1 ∧ vals m' (t + k) = .ok a.2

omit [Add V] in
theorem ReadsArgs.tail {cols : Crs V → Nat → R Nat} {vals : Crs V → Nat → R V} {t : Nat} {a : Nat × V} {args : List (Nat × V)}
    (h : ReadsArgs A xs cap B cols vals t (a :: args)) : ReadsArgs A xs cap B cols vals (t + 1) args := by
  intro k b hb m' xs' h1 h2 h3
  have := h (k + 1) b (by simpa using hb) m' xs' h1 h2 h3
  rwa [show t + (k + 1) = t + 1 + k by omega] at this

/-- The entries that agree after one of them has been changed. -/
theorem agree_step {f g : List (Nat × V)} {k : Nat} {x y : V} {a : Nat × V} (hx : Increasing Prod.fst xs)
    (hkeys : (f ++ (k, x) :: g).map (fun x : Nat × V => x.1) = xs.map (fun x : Nat × V => x.1)) (hka : k < a.1)
    (hag : ∀ (p : Nat) (z : Nat × V), xs[p]? = some z → k ≤ z.1 → (f ++ (k, x) :: g)[p]? = some z) :
    ∀ (p : Nat) (z : Nat × V), xs[p]? = some z → a.1 ≤ z.1 → (f ++ (k, y) :: g)[p]? = some z := by
  intro p z hp hz
  have h1 := hag p z hp (by omega)
  have hne : p ≠ f.length := by
    rintro rfl
    rw [List.getElem?_append_right (Nat.le_refl _), Nat.sub_self, List.getElem?_cons_zero] at h1
    injection h1 with h1
    subst h1
    simp only at hz
    omega
  rcases Nat.lt_or_gt_of_ne hne with hl | hl
  · rwa [List.getElem?_append_left hl] at h1 ⊢
  · rw [List.getElem?_append_right (by omega)] at h1 ⊢
    rw [show p - f.length = (p - f.length - 1) + 1 by omega] at h1 ⊢
    simpa using h1

theorem binaryLoopRef_eq {cols : Crs V → Nat → R Nat} {vals : Crs V → Nat → R V} (hx : Increasing Prod.fst xs)
    (args : List (Nat × V)) : ∀ (t : Nat) (m : Crs V) (f g : List (Nat × V)), CGood m (A ++ (f ++ g, cap) :: B) →
    (f ++ g).map (fun x : Nat × V => x.1) = xs.map (fun x : Nat × V => x.1) →
    Increasing Prod.fst args → (∀ a ∈ args, ∃ x ∈ g, x.1 = a.1) → ReadsArgs A xs cap B cols vals t args →
    (∀ a ∈ args, ∀ (p : Nat) (z : Nat × V), xs[p]? = some z → a.1 ≤ z.1 → (f ++ g)[p]? = some z) →
    Crs.binaryLoopRef c A.length (f ++ g).length cols vals args.length m f.length t =
      Crs.binaryLoop c A.length (f ++ g).length m f.length args := by
  induction args with
  | nil => intro t m f g h _ _ _ _ _; rfl
  | cons a args ih =>
    intro t m f g h hkeys ha hp hra hag
    obtain ⟨k, v⟩ := a
    have hi : Increasing Prod.fst (f ++ g) := Crs.increasing_of_keys hx hkeys
    obtain ⟨hc, hv⟩ := hra 0 (k, v) rfl m (f ++ g) h hkeys (hag (k, v) (by simp))
    rw [Nat.add_zero] at hc hv
    simp only at hc hv
    have hg : Increasing Prod.fst g := (List.pairwise_append.1 hi).2.1
    obtain ⟨g1, x, g3, rfl, k1, k2⟩ := Crs.split_at hg (hp (k, v) (by simp))
    obtain ⟨f1, f2, hgs, hf, h1, h2⟩ := find_split c Prod.fst (fun k => Crs.column m A.length (f.length + k)) _ k hg
      (fun i hi' => by
        rw [Crs.column_ok h (f.length + i) (by simp at hi' ⊢; omega)]
        rw [List.getElem_append_right (by omega)]
        simp)
    have hlen : f1.length = g1.length := by
      apply Nat.le_antisymm
      · by_contra hlt
        have : (k, x) ∈ f1 := by
          have hm : g1.length < f1.length := by omega
          have : (f1 ++ f2)[g1.length]? = some (k, x) := by rw [← hgs]; simp
          rw [List.getElem?_append_left hm] at this
          exact List.mem_of_getElem? this
        exact absurd (h1 _ this) (by simp)
      · by_contra hlt
        have hm : f1.length < g1.length := by omega
        have hget : (g1 ++ (k, x) :: g3)[f1.length]? = some g1[f1.length] := by
          rw [List.getElem?_append_left hm]; simp [hm]
        rw [hgs, List.getElem?_append_right (Nat.le_refl _), Nat.sub_self] at hget
        have := h2 _ (List.mem_of_getElem? hget)
        have := k1 g1[f1.length] (List.getElem_mem _)
        omega
    have hre : f ++ (g1 ++ (k, x) :: g3) = (f ++ g1) ++ (k, x) :: g3 := by simp
    rw [List.length_cons]
    unfold Crs.binaryLoopRef Crs.binaryLoop
    rw [if_neg (by simp), if_neg (by simp), hc, bind_ok]
    have hl0 : (f ++ (g1 ++ (k, x) :: g3)).length - f.length = (g1 ++ (k, x) :: g3).length := by simp
    rw [hl0, hf, bind_ok, bind_ok, hlen]
    simp only
    rw [show g1.length + f.length = (f ++ g1).length by simp; omega]
    rw [hre] at h hi hkeys hag ⊢
    rw [Crs.assertColumn_ok h, bind_ok, bind_ok, hv, bind_ok]
    obtain ⟨m1, e1, n1, c1⟩ := Crs.addAt_ok (c := c) h v
    rw [e1, bind_ok, bind_ok]
    have hre2 : (f ++ g1) ++ (k, x + v) :: g3 = (f ++ g1 ++ [(k, x + v)]) ++ g3 := by simp
    have hk2 : (f ++ g1 ++ [(k, x + v)] ++ g3).map (fun x : Nat × V => x.1) = xs.map (fun x : Nat × V => x.1) := by
      rw [← hkeys]; simp
    have hag2 : ∀ b ∈ args, ∀ (p : Nat) (z : Nat × V), xs[p]? = some z → b.1 ≤ z.1 →
        (f ++ g1 ++ [(k, x + v)] ++ g3)[p]? = some z := by
      intro b hb
      rw [← hre2]
      exact agree_step hx hkeys ((List.pairwise_cons.1 ha).1 b hb) (hag (k, v) (by simp))
    rw [hre2] at c1
    have e2 := ih (t + 1) m1 (f ++ g1 ++ [(k, x + v)]) g3 c1 hk2 (List.pairwise_cons.1 ha).2
      (by
        intro b hb
        obtain ⟨z, hz, hzb⟩ := hp b (by simp [hb])
        refine ⟨z, ?_, hzb⟩
        have hkb : k < b.1 := (List.pairwise_cons.1 ha).1 b hb
        simp only [List.mem_append, List.mem_cons] at hz
        rcases hz with hz | rfl | hz
        · have := k1 z hz; omega
        · simp only at hzb; omega
        · exact hz) hra.tail hag2
    have hl2 : (f ++ g1 ++ [(k, x + v)] ++ g3).length = ((f ++ g1) ++ (k, x) :: g3).length := by simp
    rw [hl2, List.length_append (bs := [(k, x + v)]), List.length_singleton] at e2
    exact e2

theorem linearLoopRef_eq {cols : Crs V → Nat → R Nat} {vals : Crs V → Nat → R V} (hx : Increasing Prod.fst xs)
    (args : List (Nat × V)) : ∀ (t : Nat) (m : Crs V) (f g : List (Nat × V)), CGood m (A ++ (f ++ g, cap) :: B) →
    (f ++ g).map (fun x : Nat × V => x.1) = xs.map (fun x : Nat × V => x.1) →
    Increasing Prod.fst args → (∀ a ∈ args, ∃ x ∈ g, x.1 = a.1) → ReadsArgs A xs cap B cols vals t args →
    (∀ a ∈ args, ∀ (p : Nat) (z : Nat × V), xs[p]? = some z → a.1 ≤ z.1 → (f ++ g)[p]? = some z) →
    Crs.linearLoopRef c A.length (f ++ g).length cols vals args.length m f.length t =
      Crs.linearLoop c A.length (f ++ g).length m f.length args := by
  induction args with
  | nil => intro t m f g h _ _ _ _ _; rfl
  | cons a args ih =>
    intro t m f g h hkeys ha hp hra hag
    obtain ⟨k, v⟩ := a
    have hi : Increasing Prod.fst (f ++ g) := Crs.increasing_of_keys hx hkeys
    obtain ⟨hc, hv⟩ := hra 0 (k, v) rfl m (f ++ g) h hkeys (hag (k, v) (by simp))
    rw [Nat.add_zero] at hc hv
    simp only at hc hv
    have hg : Increasing Prod.fst g := (List.pairwise_append.1 hi).2.1
    obtain ⟨g1, x, g3, rfl, k1, k2⟩ := Crs.split_at hg (hp (k, v) (by simp))
    have hre : f ++ (g1 ++ (k, x) :: g3) = (f ++ g1) ++ (k, x) :: g3 := by simp
    rw [List.length_cons]
    unfold Crs.linearLoopRef Crs.linearLoop
    have hl0 : (f ++ (g1 ++ (k, x) :: g3)).length - f.length = (g1 ++ (k, x) :: g3).length := by simp
    have hscan := Crs.linearScan_ok (m := m) h f.length k g1 f g3 x hre (fun y hy => by have := k1 y hy; omega)
      (g1 ++ (k, x) :: g3).length (by simp)
    rw [hc, bind_ok, hl0, hscan, bind_ok, bind_ok]
    rw [hre] at h hi hkeys hag ⊢
    rw [Crs.assertFound_ok h, bind_ok, bind_ok, hv, bind_ok]
    obtain ⟨m1, e1, n1, c1⟩ := Crs.addAt_ok (c := c) h v
    rw [e1, bind_ok, bind_ok]
    have hre2 : (f ++ g1) ++ (k, x + v) :: g3 = (f ++ g1 ++ [(k, x + v)]) ++ g3 := by simp
    have hk2 : (f ++ g1 ++ [(k, x + v)] ++ g3).map (fun x : Nat × V => x.1) = xs.map (fun x : Nat × V => x.1) := by
      rw [← hkeys]; simp
    have hag2 : ∀ b ∈ args, ∀ (p : Nat) (z : Nat × V), xs[p]? = some z → b.1 ≤ z.1 →
        (f ++ g1 ++ [(k, x + v)] ++ g3)[p]? = some z := by
      intro b hb
      rw [← hre2]
      exact agree_step hx hkeys ((List.pairwise_cons.1 ha).1 b hb) (hag (k, v) (by simp))
    rw [hre2] at c1
    have e2 := ih (t + 1) m1 (f ++ g1 ++ [(k, x + v)]) g3 c1 hk2 (List.pairwise_cons.1 ha).2
      (by
        intro b hb
        obtain ⟨z, hz, hzb⟩ := hp b (by simp [hb])
        refine ⟨z, ?_, hzb⟩
        have hkb : k < b.1 := (List.pairwise_cons.1 ha).1 b hb
        simp only [List.mem_append, List.mem_cons] at hz
        rcases hz with hz | rfl | hz
        · have := k1 z hz; omega
        · simp only at hzb; omega
        · exact hz) hra.tail hag2
    have hl2 : (f ++ g1 ++ [(k, x + v)] ++ g3).length = ((f ++ g1) ++ (k, x) :: g3).length := by simp
    rw [hl2, List.length_append (bs := [(k, x + v)]), List.length_singleton] at e2
    exact e2

theorem unsortedLoopRef_eq {cols : Crs V → Nat → R Nat} {vals : Crs V → Nat → R V} (hx : Increasing Prod.fst xs)
    (args : List (Nat × V)) : ∀ (t : Nat) (m : Crs V) (ys : List (Nat × V)), CGood m (A ++ (ys, cap) :: B) →
    ys.map (fun x : Nat × V => x.1) = xs.map (fun x : Nat × V => x.1) →
    Increasing Prod.fst args → (∀ a ∈ args, ∃ x ∈ ys, x.1 = a.1) → ReadsArgs A xs cap B cols vals t args →
    (∀ a ∈ args, ∀ (p : Nat) (z : Nat × V), xs[p]? = some z → a.1 ≤ z.1 → ys[p]? = some z) →
    Crs.unsortedLoopRef c A.length ys.length cols vals args.length m t = Crs.unsortedLoop c A.length ys.length m args := by
  induction args with
  | nil => intro t m ys h _ _ _ _ _; rfl
  | cons a args ih =>
    intro t m ys h hkeys ha hp hra hag
    obtain ⟨k, v⟩ := a
    have hi : Increasing Prod.fst ys := Crs.increasing_of_keys hx hkeys
    obtain ⟨hc, hv⟩ := hra 0 (k, v) rfl m ys h hkeys (hag (k, v) (by simp))
    rw [Nat.add_zero] at hc hv
    simp only at hc hv
    obtain ⟨g1, x, g3, rfl, k1, k2⟩ := Crs.split_at hi (hp (k, v) (by simp))
    obtain ⟨f1, f2, hgs, hf, h1, h2⟩ := find_split c Prod.fst (Crs.column m A.length) _ k hi (fun i hi' => Crs.column_ok h i hi')
    have hlen : f1.length = g1.length := by
      apply Nat.le_antisymm
      · by_contra hlt
        have : (k, x) ∈ f1 := by
          have hm : g1.length < f1.length := by omega
          have : (f1 ++ f2)[g1.length]? = some (k, x) := by rw [← hgs]; simp
          rw [List.getElem?_append_left hm] at this
          exact List.mem_of_getElem? this
        exact absurd (h1 _ this) (by simp)
      · by_contra hlt
        have hm : f1.length < g1.length := by omega
        have hget : (g1 ++ (k, x) :: g3)[f1.length]? = some g1[f1.length] := by
          rw [List.getElem?_append_left hm]; simp [hm]
        rw [hgs, List.getElem?_append_right (Nat.le_refl _), Nat.sub_self] at hget
        have := h2 _ (List.mem_of_getElem? hget)
        have := k1 g1[f1.length] (List.getElem_mem _)
        omega
    rw [List.length_cons]
    unfold Crs.unsortedLoopRef Crs.unsortedLoop
    rw [hc, bind_ok, hf, bind_ok, bind_ok, hlen, Crs.assertColumn_ok h, bind_ok, bind_ok, hv, bind_ok]
    obtain ⟨m1, e1, n1, c1⟩ := Crs.addAt_ok (c := c) h v
    rw [e1, bind_ok, bind_ok]
    have hk2 : (g1 ++ (k, x + v) :: g3).map (fun x : Nat × V => x.1) = (g1 ++ (k, x) :: g3).map (fun x : Nat × V => x.1) := by simp
    have e2 := ih (t + 1) m1 _ c1 (hk2.trans hkeys) (List.pairwise_cons.1 ha).2 (by
      intro b hb
      obtain ⟨z, hz, hzb⟩ := hp b (by simp [hb])
      have : b.1 ∈ (g1 ++ (k, x + v) :: g3).map (fun x : Nat × V => x.1) := by rw [hk2]; exact List.mem_map.2 ⟨z, hz, hzb⟩
      obtain ⟨w, hw, e⟩ := List.mem_map.1 this
      exact ⟨w, hw, e⟩) hra.tail (fun b hb => agree_step hx hkeys ((List.pairwise_cons.1 ha).1 b hb) (hag (k, v) (by simp)))
    have hl2 : (g1 ++ (k, x + v) :: g3).length = (g1 ++ (k, x) :: g3).length := by simp
    rw [hl2] at e2
    exact e2

/-- What a row holds. -/
theorem readBoth (h : CGood m (A ++ (xs, cap) :: B)) {k : Nat} {x : Nat × V} (hk : xs[k]? = some x) :
    m.columns.read (total A + k) = .ok x.1 ∧ m.entries.read (total A + k) = .ok x.2 := by
  obtain ⟨hl, he⟩ := List.getElem?_eq_some_iff.1 hk
  have h1 := Crs.column_ok h k hl
  have h2 := (Crs.winE h IsRaw).read_front k (by simpa using hl)
  unfold Crs.column at h1
  rw [h.rowPtr, he] at h1
  refine ⟨h1, ?_⟩
  simpa [he] using h2

theorem readsArgs_self {lo n : Nat} : ReadsArgs A xs cap B (fun s i => s.columns.read (total A + lo + i))
    (fun s i => s.entries.read (total A + lo + i)) 0 ((xs.drop lo).take n) := by
  intro k a hk m' xs' h _ hag
  have hk' : xs[lo + k]? = some a := by
    rw [List.getElem?_take] at hk
    split at hk
    · rwa [List.getElem?_drop] at hk
    · cases hk
  have := readBoth h (hag _ _ hk' (Nat.le_refl _))
  simpa [Nat.add_assoc] using this

theorem readsArgs_other {lo n p cap' : Nat} {ys : List (Nat × V)}
    (hL : ∀ xs' : List (Nat × V), ∃ A' B', total A' = p ∧ A ++ (xs', cap) :: B = A' ++ (ys, cap') :: B') :
    ReadsArgs A xs cap B (fun s i => s.columns.read (p + lo + i)) (fun s i => s.entries.read (p + lo + i)) 0 ((ys.drop lo).take n) := by
  intro k a hk m' xs' h _ _
  have hk' : ys[lo + k]? = some a := by
    rw [List.getElem?_take] at hk
    split at hk
    · rwa [List.getElem?_drop] at hk
    · cases hk
  obtain ⟨A', B', rfl, he⟩ := hL xs'
  rw [he] at h
  have := readBoth h hk'
  simpa [Nat.add_assoc] using this

/-- The variants of `addToRow` with pointers into the matrix and with copies. -/
theorem addToRowOwn_eq {j lo q : Nat} (h : CGood m (A ++ (xs, cap) :: B)) (hx : Increasing Prod.fst xs) (args : List (Nat × V))
    (hv : Increasing Prod.fst args) (hp : ∀ a ∈ args, ∃ x ∈ xs, x.1 = a.1) (hit : m.iteratorAt c j lo = .ok q)
    (hra : ReadsArgs A xs cap B (fun s i => s.columns.read (q + i)) (fun s i => s.entries.read (q + i)) 0 args) :
    m.addToRowBinarySearchOwn c A.length j lo args.length = m.addToRowBinarySearch c A.length args ∧
    m.addToRowLinearSearchOwn c A.length j lo args.length = m.addToRowLinearSearch c A.length args ∧
    m.addToRowBinarySearchUnsortedOwn c A.length j lo args.length = m.addToRowBinarySearchUnsorted c A.length args ∧
    m.addToRowOwn c A.length j lo args.length = m.addToRow c A.length args := by
  have hs : m.shape.sizeOfArray c A.length = .ok xs.length := h.shape.sizeOfAt rfl
  have hb : m.shape.checkBounds c A.length = .ok () := ShGood.checkBounds h.shape (by simp)
  have hag : ∀ a ∈ args, ∀ (p : Nat) (z : Nat × V), xs[p]? = some z → a.1 ≤ z.1 → xs[p]? = some z := fun _ _ _ _ h _ => h
  have hsrc : assertSource c.ix (fun i => m.columns.read (q + i)) args.length =
      errorIf (c.debug && !isSortedUnique less (args.map (·.1))) := by
    have := assertSource_eq c.ix (val := fun i => m.columns.read (q + i)) (vs := args.map (fun x : Nat × V => x.1)) (fun k hk => by
      have hk' : k < args.length := by simpa using hk
      have := (hra k args[k] (List.getElem?_eq_getElem hk') m xs h rfl (fun _ _ h _ => h)).1
      simp only [Nat.zero_add] at this
      rw [this]; simp)
    rw [List.length_map] at this
    exact this
  have e1 : m.addToRowBinarySearchOwn c A.length j lo args.length = m.addToRowBinarySearch c A.length args := by
    unfold Crs.addToRowBinarySearchOwn Crs.addToRowBinarySearch
    rw [hit, bind_ok, hsrc]
    congr 1
    funext _
    rw [hs, bind_ok, bind_ok, hb, bind_ok, bind_ok, h.readOff, bind_ok, bind_ok]
    exact binaryLoopRef_eq hx args 0 m [] xs h rfl hv hp hra hag
  have e2 : m.addToRowLinearSearchOwn c A.length j lo args.length = m.addToRowLinearSearch c A.length args := by
    unfold Crs.addToRowLinearSearchOwn Crs.addToRowLinearSearch
    rw [hit, bind_ok, hsrc]
    congr 1
    funext _
    rw [hs, bind_ok, bind_ok, hb, bind_ok, bind_ok, h.readOff, bind_ok, bind_ok]
    exact linearLoopRef_eq hx args 0 m [] xs h rfl hv hp hra hag
  refine ⟨e1, e2, ?_, ?_⟩
  · unfold Crs.addToRowBinarySearchUnsortedOwn Crs.addToRowBinarySearchUnsorted
    rw [hit, bind_ok, hs, bind_ok, bind_ok, hb, bind_ok, bind_ok, h.readOff, bind_ok, bind_ok]
    exact unsortedLoopRef_eq hx args 0 m xs h rfl hv hp hra hag
  · unfold Crs.addToRowOwn Crs.addToRow
    rw [hs, bind_ok, bind_ok, e1, e2]

end add

end OwnEntries

end LvArray

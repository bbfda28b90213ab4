import Verif.OwnSets
import Verif.OwnRowsLemmas
import Verif.AoSLemmas
import Verif.CountedSorted

/-!
# Lemmas about calls of the set classes with elements of the object itself

The functions that read their arguments through references do the same as those that are given the values, as long as the
references read these values whenever they are used.
-/

namespace LvArray

open sortedArrayManipulation

set_option linter.unusedSectionVars false

variable {σ T : Type} [LinearOrder T]

namespace OwnSets

/-! ### Removing -/

theorem assertSource_eq (c : Cfg) {val : Nat → R T} {vs : List T} (h : ∀ k (hk : k < vs.length), val k = .ok vs[k]) :
    assertSource c val vs.length = errorIf (c.debug && !isSortedUnique less vs) := by
  unfold assertSource assertRange
  split
  · rename_i hd; rw [readAll_eq h, bind_ok, hd, Bool.true_and]
  · rename_i hd; simp only [Bool.not_eq_true] at hd; rw [hd]; rfl

theorem drop_cons {vs : List T} {m : Nat} (hm : m + 1 ≤ vs.length) :
    vs.drop (vs.length - (m + 1)) = vs[vs.length - (m + 1)]'(by omega) :: vs.drop (vs.length - m) := by
  rw [List.drop_eq_getElem_cons (by omega)]
  congr 2
  omega

theorem seekRef_eq (c : Cfg) (read : Nat → R T) {val : Nat → R T} {vs : List T} (size : Nat)
    (h : ∀ k (hk : k < vs.length), val k = .ok vs[k]) : ∀ (m pos : Nat), m ≤ vs.length →
    seekRef c read val size vs.length pos m =
      (seek c read size pos (vs.drop (vs.length - m)) >>= fun r => .ok (r.1, r.2.length)) := by
  intro m
  induction m with
  | zero => intro pos _; rw [Nat.sub_zero, List.drop_length]; rfl
  | succ m ih =>
    intro pos hm
    rw [drop_cons hm]
    unfold seekRef seek
    rw [h _ (by omega), bind_ok]
    cases find c less (fun i => read (pos + i)) (size - pos) (vs[vs.length - (m + 1)]'(by omega)) with
    | error e => rfl
    | ok k =>
      simp only [bind_ok]
      split
      · rfl
      · cases read (pos + k) with
        | error e => rfl
        | ok x =>
          simp only [bind_ok]
          split
          · simp only [bind_ok, List.length_cons, List.length_drop]
            congr 2
            omega
          · exact ih _ (by omega)

/-- What is left is the end of the values. -/
theorem seek_suffix (c : Cfg) (read : Nat → R T) (size : Nat) : ∀ (vs : List T) (pos np : Nat) (ws : List T),
    seek c read size pos vs = .ok (np, ws) → ws <:+ vs := by
  intro vs
  induction vs with
  | nil => intro pos np ws h; cases h; exact List.suffix_refl _
  | cons v vs ih =>
    intro pos np ws h
    unfold seek at h
    obtain ⟨k, -, h⟩ := LvArray.bind_eq_ok.1 h
    split at h
    · cases h; exact List.nil_suffix
    · obtain ⟨x, -, h⟩ := LvArray.bind_eq_ok.1 h
      split at h
      · cases h; exact List.suffix_refl _
      · exact (ih _ _ _ h).trans (List.suffix_cons _ _)

theorem suffix_drop {ws vs : List T} (h : ws <:+ vs) : ws.length ≤ vs.length ∧ ws = vs.drop (vs.length - ws.length) :=
  ⟨h.length_le, List.suffix_iff_eq_drop.1 h⟩

theorem removeLoopRef_eq (c : Cfg) (t : Target σ T) (val : σ → Nat → R T) (vs : List T) (size : Nat)
    (P : σ → Nat → Nat → List T → Prop)
    (hval : ∀ s pos nR l, P s pos nR l → ∀ k (hk : k < vs.length), val s k = .ok vs[k])
    (hstep : ∀ s pos nR v rest np w ws s1 s2, P s pos nR (v :: rest) → seek c (t.read s) size pos rest = .ok (np, w :: ws) →
      t.modify s (fun b p => arrayManipulation.shiftDown c b p np (pos + 1) (nR + 1)) = .ok s1 →
      t.removeMany s1 (nR + 1) pos np = .ok s2 → P s2 np (nR + 1) (w :: ws)) :
    ∀ (fuel m : Nat) (s : σ) (pos nR : Nat), m ≤ vs.length → (m ≠ 0 → P s pos nR (vs.drop (vs.length - m))) →
      removeLoopRef c t val size vs.length fuel s pos nR m = removeLoop c t size fuel s pos nR (vs.drop (vs.length - m)) := by
  intro fuel
  induction fuel with
  | zero =>
    intro m s pos nR hm hP
    cases m with
    | zero => rw [Nat.sub_zero, List.drop_length]; rfl
    | succ m => rw [drop_cons hm]; rfl
  | succ fuel ih =>
    intro m s pos nR hm hP
    cases m with
    | zero => rw [Nat.sub_zero, List.drop_length]; rfl
    | succ m =>
      have hP := hP (by omega)
      have hv := hval _ _ _ _ hP
      rw [drop_cons hm] at hP ⊢
      unfold removeLoopRef removeLoop
      rw [seekRef_eq c (t.read s) size hv m pos (by omega)]
      cases hs : seek c (t.read s) size pos (vs.drop (vs.length - m)) with
      | error e => rfl
      | ok r =>
        obtain ⟨np, ws⟩ := r
        simp only [bind_ok]
        have hsuf := suffix_drop ((seek_suffix c _ _ _ _ _ _ hs).trans (List.drop_suffix _ _))
        have e : (if ws.length = 0 then size else np) = (if ws.isEmpty then size else np) := by cases ws <;> rfl
        rw [e]
        cases hm1 : t.modify s (fun b p => arrayManipulation.shiftDown c b p (if ws.isEmpty then size else np) (pos + 1) (nR + 1)) with
        | error e => rfl
        | ok s1 =>
          simp only [bind_ok]
          cases hm2 : t.removeMany s1 (nR + 1) pos (if ws.isEmpty then size else np) with
          | error e => rfl
          | ok s2 =>
            simp only [bind_ok]
            by_cases hz : (if ws.isEmpty then size else np) = size
            · rw [if_pos hz, if_pos hz]
            · rw [if_neg hz, if_neg hz]
              rw [ih ws.length s2 _ (nR + 1) hsuf.1 ?_, ← hsuf.2]
              intro hne
              rw [← hsuf.2]
              cases ws with
              | nil => exact absurd rfl hne
              | cons w ws => exact hstep _ _ _ _ _ _ _ _ _ _ hP hs hm1 hm2

theorem removeRangeRef_eq (c : Cfg) (t : Target σ T) (val : σ → Nat → R T) (vs : List T) (size : Nat) (s : σ)
    (P : σ → Nat → Nat → List T → Prop)
    (h0 : ∀ k (hk : k < vs.length), val s k = .ok vs[k])
    (hstart : ∀ pos w ws, seek c (t.read s) size 0 vs = .ok (pos, w :: ws) → P s pos 0 (w :: ws))
    (hval : ∀ s pos nR l, P s pos nR l → ∀ k (hk : k < vs.length), val s k = .ok vs[k])
    (hstep : ∀ s pos nR v rest np w ws s1 s2, P s pos nR (v :: rest) → seek c (t.read s) size pos rest = .ok (np, w :: ws) →
      t.modify s (fun b p => arrayManipulation.shiftDown c b p np (pos + 1) (nR + 1)) = .ok s1 →
      t.removeMany s1 (nR + 1) pos np = .ok s2 → P s2 np (nR + 1) (w :: ws)) :
    removeRangeRef c t val s size vs.length = removeRange c t s size vs := by
  unfold removeRangeRef removeRange
  rw [assertSource_eq c h0, seekRef_eq c (t.read s) size h0 vs.length 0 (Nat.le_refl _), Nat.sub_self, List.drop_zero]
  cases assertRange c (t.read s) size (isSortedUnique less) with
  | error e => rfl
  | ok _ =>
    simp only [bind_ok]
    cases errorIf (c.debug && !isSortedUnique less vs) with
    | error e => rfl
    | ok _ =>
      simp only [bind_ok]
      cases hs : seek c (t.read s) size 0 vs with
      | error e => rfl
      | ok r =>
        obtain ⟨pos, ws⟩ := r
        simp only [bind_ok]
        cases ws with
        | nil => rfl
        | cons w ws =>
          have hsuf := suffix_drop (seek_suffix c _ _ _ _ _ _ hs)
          simp only [List.length_cons, Nat.add_one_ne_zero, if_false, List.isEmpty_cons, Bool.false_eq_true]
          have := removeLoopRef_eq c t val vs size P hval hstep vs.length (ws.length + 1) s pos 0 hsuf.1 (fun _ => by
            rw [List.length_cons] at hsuf; rw [← hsuf.2]; exact hstart _ _ _ hs)
          rw [List.length_cons] at hsuf
          rw [← hsuf.2] at this
          rw [this]

/-! ### Inserting -/

/-- The buffer and the pointer behave as parts of the state. -/
structure Parts (t : Target σ T) : Prop where
  buf_put : ∀ s b, t.buf (t.put s b) = b
  ptr_put : ∀ s b, t.ptr (t.put s b) = t.ptr s
  put_put : ∀ s b b', t.put (t.put s b) b' = t.put s b'

theorem insertOneRef_eq (c : Cfg) (t : Target σ T) (ht : Parts t) (val : σ → R T) (v : T) (size : Nat) (s : σ)
    (h0 : val s = .ok v)
    (hstep : ∀ pos s1 s2, insertPosition c (t.read s) size v = .ok pos → isAt (t.read s) size pos v = .ok false →
      t.incrementSize s 1 = .ok s1 → t.modify s1 (fun b p => arrayManipulation.shiftUp c b p size pos 1) = .ok s2 →
      val s2 = .ok v) :
    insertOneRef c t val s size = insertOne c t s size v := by
  unfold insertOneRef insertOne
  rw [h0]
  simp only [bind_ok]
  cases assertRange c (t.read s) size (isSortedUnique less) with
  | error e => rfl
  | ok _ =>
    simp only [bind_ok]
    cases hp : insertPosition c (t.read s) size v with
    | error e => rfl
    | ok pos =>
      simp only [bind_ok]
      cases hpr : isAt (t.read s) size pos v with
      | error e => rfl
      | ok present =>
        simp only [bind_ok]
        cases present with
        | true => rfl
        | false =>
          simp only [Bool.false_eq_true, if_false]
          cases hi : t.incrementSize s 1 with
          | error e => rfl
          | ok s1 =>
            have hstep := fun s2 => hstep pos s1 s2 hp hpr hi
            simp only [bind_ok]
            unfold arrayManipulation.emplace
            unfold Target.modify at hstep ⊢
            simp only at hstep ⊢
            cases arrayManipulation.assertNonNull c (t.buf s1) (t.ptr s1) with
            | error e => rfl
            | ok _ =>
              simp only [bind_ok]
              cases arrayManipulation.checkInsertBounds c size pos with
              | error e => rfl
              | ok _ =>
                simp only [bind_ok]
                cases hsh : arrayManipulation.shiftUp c (t.buf s1) (t.ptr s1) size pos 1 with
                | error e => rfl
                | ok b =>
                  rw [hsh] at hstep
                  simp only [bind_ok] at hstep ⊢
                  rw [hstep _ rfl, bind_ok, ht.buf_put, ht.ptr_put]
                  cases b.construct c (t.ptr s1 + pos) v with
                  | error e => rfl
                  | ok b' => simp only [bind_ok, ht.put_put]

theorem take_reverse {vs : List T} {m : Nat} (hm : m < vs.length) :
    (vs.take (m + 1)).reverse = vs[m] :: (vs.take m).reverse := by
  rw [List.take_succ_eq_append_getElem hm, List.reverse_append]; rfl

theorem countLoopRef_eq (c : Cfg) (read : Nat → R T) {val : Nat → R T} {vs : List T} (size : Nat)
    (h : ∀ k (hk : k < vs.length), val k = .ok vs[k]) : ∀ (m ub n : Nat), m ≤ vs.length →
    countLoopRef c read val size m ub n = countLoop c read size (vs.take m).reverse ub n := by
  intro m
  induction m with
  | zero => intro ub n _; rfl
  | succ m ih =>
    intro ub n hm
    rw [take_reverse (by omega)]
    unfold countLoopRef countLoop
    rw [h m (by omega), bind_ok]
    cases find c less read ub vs[m] with
    | error e => rfl
    | ok ub' =>
      simp only [bind_ok]
      cases isAt read size ub' vs[m] with
      | error e => rfl
      | ok p => exact ih _ _ (by omega)

theorem insertLoopRef_eq (c : Cfg) (t : Target σ T) (ht : Parts t) (val : σ → Nat → R T) (vs : List T) (M : Nat) (P : σ → Prop)
    (hval : ∀ s, P s → ∀ k (hk : k < vs.length), val s k = .ok vs[k])
    (hshift : ∀ s ub pos nL s1, P s → pos ≤ ub → ub + nL ≤ M →
      t.modify s (fun b p => arrayManipulation.shiftUp c b p ub pos nL) = .ok s1 → P s1)
    (hcons : ∀ s k v s1, P s → k < M → t.modify s (fun b p => b.construct c (p + k) v) = .ok s1 → P s1)
    (hins : ∀ s n vp pos pp s1, P s → t.insertMany s n vp pos pp = .ok s1 → P s1) :
    ∀ (m : Nat) (s : σ) (ub nL : Nat), m ≤ vs.length → P s → ub + nL ≤ M →
      insertLoopRef c t val m s ub nL = insertLoop c t (vs.take m).reverse s ub nL := by
  intro m
  induction m with
  | zero => intro s ub nL _ _ _; rfl
  | succ m ih =>
    intro s ub nL hm hP hM
    rw [take_reverse (by omega)]
    unfold insertLoopRef insertLoop
    rw [hval s hP m (by omega), bind_ok]
    cases hf : find c less (t.read s) ub vs[m] with
    | error e => rfl
    | ok pos =>
      have hle := Counted.find_le c less (t.read s) ub pos vs[m] hf
      simp only [bind_ok]
      cases isAt (t.read s) ub pos vs[m] with
      | error e => rfl
      | ok present =>
        simp only [bind_ok]
        cases present with
        | true => exact ih s ub nL (by omega) hP hM
        | false =>
          simp only [Bool.false_eq_true, if_false]
          cases hs : t.modify s (fun b p => arrayManipulation.shiftUp c b p ub pos nL) with
          | error e => rfl
          | ok s1 =>
            have hP1 := hshift s ub pos nL s1 hP hle hM hs
            simp only [bind_ok]
            rw [hval s1 hP1 m (by omega), bind_ok]
            have hlen : (vs.take m).reverse.length = m := by simp; omega
            rw [hlen]
            by_cases h0 : pos + nL = 0
            · simp only [h0, if_true]; rfl
            · simp only [h0, if_false]
              cases hc : t.modify s1 (fun b p => b.construct c (p + (pos + nL - 1)) vs[m]) with
              | error e => rfl
              | ok s2 =>
                have hP2 := hcons s1 _ _ s2 hP1 (by omega) hc
                simp only [bind_ok]
                cases hi : t.insertMany s2 nL m pos ub with
                | error e => rfl
                | ok s3 => exact ih s3 pos (nL - 1) (by omega) (hins _ _ _ _ _ _ hP2 hi) (by omega)

theorem forUp_set_eq [Inhabited T] (c : Cfg) (t : Target σ T) (val : σ → Nat → R T) (vs : List T) (M : Nat) (P : σ → Prop)
    (hval : ∀ s, P s → ∀ k (hk : k < vs.length), val s k = .ok vs[k])
    (hcons : ∀ s k v s1, P s → k < M → t.modify s (fun b p => b.construct c (p + k) v) = .ok s1 → P s1)
    (hset : ∀ s k s1, P s → t.set s k k = .ok s1 → P s1) (hM : vs.length ≤ M) :
    ∀ (m lo : Nat) (s : σ), lo + m = vs.length → (m ≠ 0 → P s) →
      forUp m lo (fun i s => do
        let v ← val s i
        let s ← t.modify s (fun b p => b.construct c (p + i) v)
        t.set s i i) s =
      forUp m lo (fun i s => do
        let s ← t.modify s (fun b p => b.construct c (p + i) (vs.getD i default))
        t.set s i i) s
  | 0, _, _, _, _ => rfl
  | m + 1, lo, s, hlo, hP => by
    have hP := hP (by omega)
    unfold forUp
    simp only
    rw [hval s hP lo (by omega), bind_ok]
    have hg : vs.getD lo default = vs[lo]'(by omega) := by
      rw [List.getD_eq_getElem?_getD, List.getElem?_eq_getElem (by omega)]; rfl
    rw [hg]
    cases hc : t.modify s (fun b p => b.construct c (p + lo) (vs[lo]'(by omega))) with
    | error e => rfl
    | ok s1 =>
      simp only [bind_ok]
      cases hs : t.set s1 lo lo with
      | error e => rfl
      | ok s2 =>
        simp only [bind_ok]
        exact forUp_set_eq c t val vs M P hval hcons hset hM m (lo + 1) s2 (by omega)
          (fun _ => hset _ _ _ (hcons _ _ _ _ hP (by omega) hc) hs)

theorem insertRangeRef_eq [Inhabited T] (c : Cfg) (t : Target σ T) (ht : Parts t) (val : σ → Nat → R T) (vs : List T) (size : Nat) (s : σ)
    (M : Nat) (P : σ → Prop)
    (h0 : ∀ k (hk : k < vs.length), val s k = .ok vs[k])
    (hstart : ∀ n s1, (size = 0 → n = vs.length) → (size ≠ 0 → countLoop c (t.read s) size vs.reverse size 0 = .ok n) → n ≠ 0 →
      t.incrementSize s n = .ok s1 → P s1 ∧ size + n ≤ M)
    (hval : ∀ s, P s → ∀ k (hk : k < vs.length), val s k = .ok vs[k])
    (hshift : ∀ s ub pos nL s1, P s → pos ≤ ub → ub + nL ≤ M →
      t.modify s (fun b p => arrayManipulation.shiftUp c b p ub pos nL) = .ok s1 → P s1)
    (hcons : ∀ s k v s1, P s → k < M → t.modify s (fun b p => b.construct c (p + k) v) = .ok s1 → P s1)
    (hset : ∀ s k s1, P s → t.set s k k = .ok s1 → P s1)
    (hins : ∀ s n vp pos pp s1, P s → t.insertMany s n vp pos pp = .ok s1 → P s1) :
    insertRangeRef c t val s size vs.length = insertRange c t s size vs := by
  unfold insertRangeRef insertRange
  rw [assertSource_eq c h0]
  cases assertRange c (t.read s) size (isSortedUnique less) with
  | error e => rfl
  | ok _ =>
    simp only [bind_ok]
    cases errorIf (c.debug && !isSortedUnique less vs) with
    | error e => rfl
    | ok _ =>
      simp only [bind_ok]
      by_cases hz : size = 0
      · rw [if_pos hz, if_pos hz]
        cases hi : t.incrementSize s vs.length with
        | error e => rfl
        | ok s1 =>
          simp only [bind_ok]
          by_cases hv : vs.length = 0
          · rw [hv]; rfl
          · have hs := hstart vs.length s1 (fun _ => rfl) (fun h => absurd hz h) hv hi
            rw [forUp_set_eq c t val vs M P hval hcons hset (by omega) vs.length 0 s1 (by omega) (fun _ => hs.1)]
      · rw [if_neg hz, if_neg hz]
        have := countLoopRef_eq c (t.read s) size h0 vs.length size 0 (Nat.le_refl _)
        rw [List.take_length] at this
        rw [this]
        cases hcount : countLoop c (t.read s) size vs.reverse size 0 with
        | error e => rfl
        | ok n =>
          simp only [bind_ok]
          cases hi : t.incrementSize s n with
          | error e => rfl
          | ok s1 =>
            simp only [bind_ok]
            by_cases hn : n = 0
            · rw [if_pos hn, if_pos hn]
            · rw [if_neg hn, if_neg hn]
              have hs := hstart n s1 (fun h => absurd h hz) (fun _ => hcount) hn hi
              have := insertLoopRef_eq c t ht val vs M P hval hshift hcons hins vs.length s1 size n (Nat.le_refl _) hs.1 hs.2
              rw [List.take_length] at this
              rw [this]

/-! ### What the modifications leave alone -/

omit [LinearOrder T] in
theorem forUp_keeps {f : Nat → Buf T → R (Buf T)} (P : Buf T → Prop) : ∀ (n lo : Nat) (b b' : Buf T), P b →
    (∀ i b b', lo ≤ i → i < lo + n → P b → f i b = .ok b' → P b') → forUp n lo f b = .ok b' → P b'
  | 0, _, _, _, hP, _, h => by cases h; exact hP
  | n + 1, lo, b, b', hP, hs, h => by
    have h : (f lo b >>= forUp n (lo + 1) f) = .ok b' := h
    obtain ⟨b1, h1, h2⟩ := LvArray.bind_eq_ok.1 h
    exact forUp_keeps P n (lo + 1) b1 b' (hs lo b b1 (by omega) (by omega) hP h1)
      (fun i b b' hi1 hi2 => hs i b b' (by omega) (by omega)) h2

omit [LinearOrder T] in
theorem forDown_keeps {f : Nat → Buf T → R (Buf T)} (P : Buf T → Prop) : ∀ (n lo : Nat) (b b' : Buf T), P b →
    (∀ i b b', lo ≤ i → i < lo + n → P b → f i b = .ok b' → P b') → forDown n lo f b = .ok b' → P b'
  | 0, _, _, _, hP, _, h => by cases h; exact hP
  | n + 1, lo, b, b', hP, hs, h => by
    have h : (f (lo + n) b >>= forDown n lo f) = .ok b' := h
    obtain ⟨b1, h1, h2⟩ := LvArray.bind_eq_ok.1 h
    exact forDown_keeps P n lo b1 b' (hs (lo + n) b b1 (by omega) (by omega) hP h1)
      (fun i b b' hi1 hi2 => hs i b b' (by omega) (by omega)) h2

/-- The slots from `q` on hold `vs` and the block has capacity `cap`. -/
def Keeps (q cap : Nat) (vs : List T) (b : Buf T) : Prop :=
  b.cap = cap ∧ ∀ k (hk : k < vs.length), b.cell (q + k) = .live vs[k]

section keeps

omit [LinearOrder T]

variable {q cap : Nat} {vs : List T} {b b' : Buf T} {c : Cfg}

theorem upd_outside {x : Cell T} {i : Nat} (hi : i < q ∨ q + vs.length ≤ i) (f : Nat → Cell T) {k : Nat} (hk : k < vs.length) :
    upd f i x (q + k) = f (q + k) := by
  unfold upd
  rw [if_neg (by omega)]

theorem Keeps.construct (h : Keeps q cap vs b) {i : Nat} (hi : i < q ∨ q + vs.length ≤ i) {v : T}
    (he : b.construct c i v = .ok b') : Keeps q cap vs b' := by
  unfold Buf.construct at he
  split at he
  · cases he
    exact ⟨h.1, fun k hk => by
      show upd b.cell i _ (q + k) = _
      rw [upd_outside hi b.cell hk, h.2 k hk]⟩
  · cases he

theorem Keeps.moveConstruct (h : Keeps q cap vs b) {i j : Nat} (hi : i < q ∨ q + vs.length ≤ i) (hj : j < q ∨ q + vs.length ≤ j)
    (he : b.moveConstruct c i j = .ok b') : Keeps q cap vs b' := by
  unfold Buf.moveConstruct at he
  split at he
  · split at he
    · split at he
      · cases he
        exact ⟨h.1, fun k hk => by
          show upd b.cell i _ (q + k) = _
          rw [upd_outside hi b.cell hk, h.2 k hk]⟩
      · cases he
    · cases he
      exact ⟨h.1, fun k hk => by
        show upd (upd b.cell j .moved) i _ (q + k) = _
        rw [upd_outside hi _ hk, upd_outside hj b.cell hk, h.2 k hk]⟩
    · cases he
      exact ⟨h.1, fun k hk => by
        show upd b.cell i _ (q + k) = _
        rw [upd_outside hi b.cell hk, h.2 k hk]⟩
  · cases he

theorem Keeps.destroyAt (h : Keeps q cap vs b) {i : Nat} (hi : i < q ∨ q + vs.length ≤ i)
    (he : b.destroyAt c i = .ok b') : Keeps q cap vs b' := by
  have key : Keeps q cap vs { b with cell := upd b.cell i .raw } := ⟨h.1, fun k hk => by
    show upd b.cell i _ (q + k) = _
    rw [upd_outside hi b.cell hk, h.2 k hk]⟩
  unfold Buf.destroyAt at he
  split at he
  · cases he; exact key
  · split at he
    · split at he
      · cases he
      · cases he; exact key
    · cases he

theorem Keeps.shiftUp (h : Keeps q cap vs b) {p ub pos n : Nat} (hpos : pos ≤ ub) (hd : q + vs.length ≤ p ∨ p + ub + n ≤ q)
    (he : arrayManipulation.shiftUp c b p ub pos n = .ok b') : Keeps q cap vs b' := by
  unfold arrayManipulation.shiftUp at he
  obtain ⟨_, -, he⟩ := LvArray.bind_eq_ok.1 he
  split at he
  · cases he; exact h
  · obtain ⟨b1, h1, h2⟩ := LvArray.bind_eq_ok.1 he
    refine forUp_keeps (Keeps q cap vs) _ _ b1 b' (forDown_keeps (Keeps q cap vs) _ _ b b1 h ?_ h1) ?_ h2
    · intro i b b' hi1 hi2 hk he
      exact hk.moveConstruct (by omega) (by omega) he
    · intro i b b' hi1 hi2 hk he
      refine hk.destroyAt ?_ he
      split at hi2 <;> omega

end keeps

omit [LinearOrder T] in
/-- A reference to a slot that is kept reads the value. -/
theorem readOwn_keeps (c : Cfg) {a : AoA T} {b : Buf T} {q : Nat} {vs : List T} (h : Keeps q a.values.cap vs b)
    (hq : q + vs.length ≤ a.values.cap) (k : Nat) (hk : k < vs.length) : a.readOwn c b (q + k) = .ok vs[k] := by
  unfold AoA.readOwn Buf.readStale
  rw [if_neg (by have := h.1; omega), h.2 k hk]
  exact read_live (by have := h.1; omega) (h.2 k hk)

omit [LinearOrder T] in
theorem shiftUp_cap {c : Cfg} {b b' : Buf T} {p ub pos n : Nat} (hpos : pos ≤ ub)
    (he : arrayManipulation.shiftUp c b p ub pos n = .ok b') : b'.cap = b.cap :=
  (Keeps.shiftUp (vs := []) (q := p + ub + n) (cap := b.cap) ⟨rfl, fun k hk => absurd hk (by simp)⟩ hpos (.inr (Nat.le_refl _)) he).1

/-! ### Values of the range itself -/

/-- The search for a value that is at position `j`. -/
theorem seek_present (c : Cfg) {read : Nat → R T} {xs : List T} (hx : xs.Pairwise (· < ·))
    (hread : ∀ i (hi : i < xs.length), read i = .ok xs[i]) {pos j : Nat} (hpj : pos ≤ j) (hj : j < xs.length) (rest : List T) :
    seek c read xs.length pos (xs[j] :: rest) = .ok (j, xs[j] :: rest) := by
  obtain ⟨f1, f2, he, hf, h1, h2⟩ := find_keys c (fun i => read (pos + i)) (xs.drop pos) xs[j]
    (hx.sublist (List.drop_sublist _ _)) (fun i hi => by
      simp only [List.length_drop] at hi
      rw [hread (pos + i) (by omega), List.getElem_drop])
  have hlen : f1.length + f2.length = xs.length - pos := by
    have := congrArg List.length he
    simp only [List.length_drop, List.length_append] at this
    omega
  have hat : ∀ i (hi : i < f1.length + f2.length), (f1 ++ f2)[i]'(by simpa using hi) = xs[pos + i]'(by omega) := fun i hi => by
    have : (xs.drop pos)[i]'(by simp; omega) = xs[pos + i]'(by omega) := List.getElem_drop
    rw [← this]
    congr 1
    exact he.symm
  have hk : f1.length = j - pos := by
    rcases Nat.lt_trichotomy f1.length (j - pos) with hlt | heq | hgt
    · have h3 := hat f1.length (by omega)
      rw [List.getElem_append_right (Nat.le_refl _)] at h3
      have h4 := h2 _ (List.getElem_mem (by omega : f1.length - f1.length < f2.length))
      rw [h3] at h4
      exact absurd (List.pairwise_iff_getElem.mp hx (pos + f1.length) j (by omega) hj (by omega)) (not_lt.2 h4)
    · exact heq
    · have h3 := hat (j - pos) (by omega)
      rw [List.getElem_append_left (by omega)] at h3
      have h4 := h1 _ (List.getElem_mem (by omega : j - pos < f1.length))
      rw [h3] at h4
      have e : xs[pos + (j - pos)]'(by omega) = xs[j] := by congr 1; omega
      rw [e] at h4
      exact absurd h4 (lt_irrefl _)
  unfold seek
  simp only [List.length_drop] at hf
  rw [hf, bind_ok, hk]
  have e : pos + (j - pos) = j := by omega
  rw [e, if_neg (by omega), hread j hj, bind_ok, if_pos rfl]

omit [LinearOrder T] in
theorem drop_take_getElem {xs : List T} {lo n k : Nat} (hn : lo + n ≤ xs.length) (hk : k < ((xs.drop lo).take n).length) :
    ((xs.drop lo).take n)[k] = xs[lo + k]'(by simp at hk; omega) := by
  rw [List.getElem_take, List.getElem_drop]

/-- Removing a part of the range itself: nothing is moved before the last value has been read. -/
theorem removeRangeRef_self (c : Cfg) (t : Target σ T) (val : σ → Nat → R T) {xs : List T} (hx : xs.Pairwise (· < ·)) (s : σ)
    (hput : t.put s (t.buf s) = s) (hrem : ∀ n p s', t.removeMany s n p (p + 1) = .ok s' → s' = s)
    (hread : ∀ i (hi : i < xs.length), t.read s i = .ok xs[i]) {lo n : Nat} (hn : lo + n ≤ xs.length)
    (h0 : ∀ k (hk : k < ((xs.drop lo).take n).length), val s k = .ok ((xs.drop lo).take n)[k]) :
    removeRangeRef c t val s xs.length ((xs.drop lo).take n).length = removeRange c t s xs.length ((xs.drop lo).take n) := by
  have hlen : ((xs.drop lo).take n).length = n := by simp; omega
  have hat : ∀ k (hk : k < n), ((xs.drop lo).take n).drop k = xs[lo + k]'(by omega) :: ((xs.drop lo).take n).drop (k + 1) := by
    intro k hk
    rw [List.drop_eq_getElem_cons (by omega), drop_take_getElem hn (by omega)]
  refine removeRangeRef_eq c t val _ xs.length s
    (fun s' pos _ l => s' = s ∧ ∃ k, k < n ∧ pos = lo + k ∧ l = ((xs.drop lo).take n).drop k) h0 ?_ ?_ ?_
  · intro pos w ws hs
    by_cases hz : n = 0
    · subst hz
      rw [List.take_zero] at hs
      cases hs
    · have e := hat 0 (by omega)
      rw [List.drop_zero] at e
      rw [e, seek_present c hx hread (Nat.zero_le _) (by omega)] at hs
      cases hs
      exact ⟨rfl, 0, by omega, rfl, by rw [List.drop_zero]; exact e.symm⟩
  · rintro s' pos nR l ⟨rfl, -⟩
    exact h0
  · rintro s' pos nR v rest np w ws s1 s2 ⟨rfl, k, hk, rfl, hl⟩ hs h1 h2
    rw [hat k hk] at hl
    cases hl
    by_cases hz : k + 1 < n
    · rw [hat (k + 1) hz, seek_present c hx hread (by omega) (by omega)] at hs
      cases hs
      unfold Target.modify at h1
      obtain ⟨b, hb, h1⟩ := LvArray.bind_eq_ok.1 h1
      have hb' : b = t.buf s' := by
        unfold arrayManipulation.shiftDown at hb
        obtain ⟨_, -, hb⟩ := LvArray.bind_eq_ok.1 hb
        obtain ⟨_, -, hb⟩ := LvArray.bind_eq_ok.1 hb
        rw [if_neg (by omega), show lo + (k + 1) - (lo + k + 1) = 0 by omega] at hb
        cases hb
        rfl
      rw [hb', hput] at h1
      cases h1
      cases hrem _ _ _ h2
      exact ⟨rfl, k + 1, hz, rfl, (hat (k + 1) hz).symm⟩
    · rw [List.drop_eq_nil_of_le (by omega)] at hs
      cases hs

/-- Inserting a part of the range itself: nothing is inserted. -/
theorem insertRangeRef_self [Inhabited T] (c : Cfg) (t : Target σ T) (ht : Parts t) (val : σ → Nat → R T) {xs vs : List T}
    (hx : xs.Pairwise (· < ·)) (hv : vs.Pairwise (· < ·)) (s : σ) (hsub : ∀ v ∈ vs, v ∈ xs)
    (hread : ∀ i (hi : i < xs.length), t.read s i = .ok xs[i])
    (h0 : ∀ k (hk : k < vs.length), val s k = .ok vs[k]) :
    insertRangeRef c t val s xs.length vs.length = insertRange c t s xs.length vs := by
  refine insertRangeRef_eq c t ht val vs xs.length s 0 (fun _ => False) h0 ?_ (fun _ h => h.elim) (fun _ _ _ _ _ h => h.elim)
    (fun _ _ _ _ h => h.elim) (fun _ _ _ h => h.elim) (fun _ _ _ _ _ _ h => h.elim)
  intro n s1 hz hnz hn
  exfalso
  apply hn
  by_cases h : xs.length = 0
  · rw [hz h]
    have : xs = [] := List.eq_nil_of_length_eq_zero h
    subst this
    exact List.length_eq_zero_iff.2 (List.eq_nil_iff_forall_not_mem.2 fun v hv => absurd (hsub v hv) (by simp))
  · have hc := countLoop_spec c id (t.read s) xs hx hread vs.reverse xs [] 0 (by simp) (by simp) (List.pairwise_reverse.mpr hv)
    rw [hnz h] at hc
    cases hc
    rw [Nat.zero_add, List.length_eq_zero_iff, List.filter_eq_nil_iff]
    intro v hv
    simp only [id_eq, decide_eq_true_eq]
    intro hall
    exact hall v (hsub v (List.mem_reverse.1 hv)) rfl

theorem insertOneRef_self (c : Cfg) (t : Target σ T) (ht : Parts t) (val : σ → R T) {xs : List T} {v : T}
    (hx : xs.Pairwise (· < ·)) (s : σ) (hv : v ∈ xs) (hread : ∀ i (hi : i < xs.length), t.read s i = .ok xs[i]) (h0 : val s = .ok v) :
    insertOneRef c t val s xs.length = insertOne c t s xs.length v := by
  refine insertOneRef_eq c t ht val v xs.length s h0 ?_
  intro pos s1 s2 hp ha
  exfalso
  obtain ⟨f1, f2, rfl, hpos, k1, k2⟩ := insertPosition_split c id (t.read s) xs v hx hread
  rw [hpos] at hp
  cases hp
  rw [present_eq id (t.read s) f1 f2 v hread k2 hx] at ha
  have ha : decide (∃ x ∈ f2, id x = v) = false := by injection ha
  rw [decide_eq_false_iff_not] at ha
  rcases List.mem_append.1 hv with h | h
  · exact absurd (k1 v h) (lt_irrefl _)
  · exact ha ⟨v, h, rfl⟩

/-! ### When the references stop being valid -/

theorem insertOneRef_fails (c : Cfg) (t : Target σ T) (ht : Parts t) (val : σ → R T) (v : T) (size : Nat) (s s' : σ) (e : Err)
    (h0 : val s = .ok v) (hok : insertOne c t s size v = .ok (s', true))
    (hstep : ∀ pos s1 s2, insertPosition c (t.read s) size v = .ok pos → t.incrementSize s 1 = .ok s1 →
      t.modify s1 (fun b p => arrayManipulation.shiftUp c b p size pos 1) = .ok s2 → val s2 = .error e) :
    insertOneRef c t val s size = .error e := by
  unfold insertOne at hok
  obtain ⟨_, e1, hok⟩ := LvArray.bind_eq_ok.1 hok
  obtain ⟨pos, e2, hok⟩ := LvArray.bind_eq_ok.1 hok
  obtain ⟨present, e3, hok⟩ := LvArray.bind_eq_ok.1 hok
  cases present with
  | true =>
    rw [if_pos rfl] at hok
    obtain ⟨_, _, hok⟩ := LvArray.bind_eq_ok.1 hok
    cases hok
  | false =>
    simp only [Bool.false_eq_true, if_false] at hok
    obtain ⟨s1, e4, hok⟩ := LvArray.bind_eq_ok.1 hok
    obtain ⟨s2, e5, hok⟩ := LvArray.bind_eq_ok.1 hok
    unfold Target.modify arrayManipulation.emplace at e5
    obtain ⟨b, e5, -⟩ := LvArray.bind_eq_ok.1 e5
    obtain ⟨_, e6, e5⟩ := LvArray.bind_eq_ok.1 e5
    obtain ⟨_, e7, e5⟩ := LvArray.bind_eq_ok.1 e5
    obtain ⟨b1, e8, e5⟩ := LvArray.bind_eq_ok.1 e5
    have e9 : t.modify s1 (fun b p => arrayManipulation.shiftUp c b p size pos 1) = .ok (t.put s1 b1) := by
      unfold Target.modify
      simp only
      rw [e8]; rfl
    unfold insertOneRef
    rw [e1, bind_ok, h0, bind_ok, e2, bind_ok, e3, bind_ok]
    simp only [Bool.false_eq_true, if_false]
    rw [e4, bind_ok, e6, bind_ok, e7, bind_ok, e9, bind_ok, hstep pos s1 _ e2 e4 e9, bind_err]

theorem insertRangeRef_fails [Inhabited T] (c : Cfg) (t : Target σ T) (val : σ → Nat → R T) (vs : List T) (size n : Nat) (s s' : σ)
    (e : Err) (h0 : ∀ k (hk : k < vs.length), val s k = .ok vs[k]) (hok : insertRange c t s size vs = .ok (s', n)) (hn : n ≠ 0)
    (hstep : ∀ s1 k, t.incrementSize s n = .ok s1 → val s1 k = .error e) :
    insertRangeRef c t val s size vs.length = .error e := by
  unfold insertRange at hok
  unfold insertRangeRef
  rw [assertSource_eq c h0]
  obtain ⟨_, e1, hok⟩ := LvArray.bind_eq_ok.1 hok
  obtain ⟨_, e2, hok⟩ := LvArray.bind_eq_ok.1 hok
  rw [e1, bind_ok, e2, bind_ok]
  split at hok
  · rename_i hz
    rw [if_pos hz]
    obtain ⟨s1, e3, hok⟩ := LvArray.bind_eq_ok.1 hok
    obtain ⟨s2, e4, hok⟩ := LvArray.bind_eq_ok.1 hok
    cases hok
    rw [e3, bind_ok]
    obtain ⟨m, hm⟩ := Nat.exists_eq_succ_of_ne_zero hn
    rw [hm] at e3 ⊢
    unfold forUp
    simp only
    rw [hstep s1 0 (hm ▸ e3), bind_err, bind_err, bind_err]
  · rename_i hz
    rw [if_neg hz]
    have hcount := countLoopRef_eq c (t.read s) size h0 vs.length size 0 (Nat.le_refl _)
    rw [List.take_length] at hcount
    rw [hcount]
    obtain ⟨m, e3, hok⟩ := LvArray.bind_eq_ok.1 hok
    obtain ⟨s1, e4, hok⟩ := LvArray.bind_eq_ok.1 hok
    rw [e3, bind_ok, e4, bind_ok]
    split at hok
    · cases hok; exact absurd rfl hn
    · rename_i hm
      obtain ⟨s2, e5, hok⟩ := LvArray.bind_eq_ok.1 hok
      cases hok
      rw [if_neg hm]
      cases hv : vs.length with
      | zero =>
        rw [List.length_eq_zero_iff.1 hv] at e3
        cases e3
        exact absurd rfl hn
      | succ l =>
        unfold insertLoopRef
        rw [hstep s1 l e4, bind_err, bind_err]

/-! ### Rows of an `ArrayOfSets` -/

theorem parts_sets (inc : AoA T → Nat → R (AoA T)) (i : Nat) : Parts (AoS.target inc i) where
  buf_put := fun _ _ => rfl
  ptr_put := fun _ _ => rfl
  put_put := fun _ _ _ => rfl

theorem parts_sorted (c : Cfg) (n : Nat) : Parts (SortedArr.target (T := T) c n) where
  buf_put := fun _ _ => rfl
  ptr_put := fun _ _ => rfl
  put_put := fun _ _ _ => rfl

section rows

open Layout

variable {c : Cfg} {inc : AoA T → Nat → R (AoA T)} {a : AoA T} {A B : Layout T} {S : Finset T} {cap q : Nat} {vs : List T}

omit [LinearOrder T] in
/-- Where the elements of a row are. -/
theorem keeps_row {xs : List T} (h : AGood a (A ++ (xs, cap) :: B)) {lo n : Nat} (hn : lo + n ≤ xs.length) :
    Keeps (total A + lo) a.values.cap ((xs.drop lo).take n) a.values ∧
    total A + lo + ((xs.drop lo).take n).length ≤ a.values.cap := by
  have w := h.lay.toWin IsRaw
  have hi := w.inside
  have hf := w.fits
  simp only [List.length_nil, Nat.add_zero] at hf
  have hlen : ((xs.drop lo).take n).length = n := by simp; omega
  refine ⟨⟨rfl, fun k hk => ?_⟩, by omega⟩
  rw [drop_take_getElem hn hk, ← w.front (lo + k) (by omega), Nat.add_assoc]

theorem modify_keeps {i : Nat} {s s1 : AoA T} {f : Buf T → Nat → R (Buf T)} (he : (AoS.target inc i).modify s f = .ok s1) :
    ∃ b, f s.values (s.rowPtr i) = .ok b ∧ s1 = { s with values := b } := by
  unfold Target.modify at he
  obtain ⟨b, h1, h2⟩ := LvArray.bind_eq_ok.1 he
  cases h2
  exact ⟨b, h1, rfl⟩

/-- The number of values the range insertion counts. -/
theorem counted_eq {t : Target σ T} {s : σ} {n : Nat} (hv : vs.Pairwise (· < ·))
    (hread : ∀ i (hi : i < (S.sort (· ≤ ·)).length), t.read s i = .ok (S.sort (· ≤ ·))[i])
    (hz : (S.sort (· ≤ ·)).length = 0 → n = vs.length)
    (hnz : (S.sort (· ≤ ·)).length ≠ 0 → countLoop c (t.read s) (S.sort (· ≤ ·)).length vs.reverse (S.sort (· ≤ ·)).length 0 = .ok n) :
    n = (vs.toFinset \ S).card := by
  rw [← SortedArr.newCount_card S vs hv]
  by_cases h : (S.sort (· ≤ ·)).length = 0
  · rw [hz h, List.eq_nil_of_length_eq_zero h]
    simp [newCount]
  · have hc := countLoop_spec c id (t.read s) (S.sort (· ≤ ·)) (sort_increasing S) hread vs.reverse (S.sort (· ≤ ·)) [] 0
      (by simp) (by simp) (List.pairwise_reverse.mpr hv)
    rw [hnz h] at hc
    cases hc
    rw [Nat.zero_add, List.filter_reverse, List.length_reverse]
    rfl

theorem insertRangeOwn_eq [Inhabited T] (h : AGood a (A ++ (S.sort (· ≤ ·), cap) :: B)) {j lo : Nat} (hv : vs.Pairwise (· < ·))
    (hit : a.iterator c j lo = .ok q) (hk : Keeps q a.values.cap vs a.values) (hq : q + vs.length ≤ a.values.cap) (M : Nat)
    (hinc : ∀ a1, (vs.toFinset \ S).card ≠ 0 → inc a (vs.toFinset \ S).card = .ok a1 → a1.rowPtr A.length = total A ∧
      Keeps q a.values.cap vs a1.values ∧ S.card + (vs.toFinset \ S).card ≤ M ∧ (q + vs.length ≤ total A ∨ total A + M ≤ q)) :
    AoS.insertRangeOwn c inc a A.length j lo vs.length = AoS.insertRangeIntoSet c inc a A.length vs := by
  unfold AoS.insertRangeOwn AoS.insertRangeIntoSet
  simp only [hit, h.checkBounds (i := A.length) (by simp), h.shape.sizeOfAt (i := A.length) rfl, h.ptr, bind_ok]
  have hread : ∀ i (hi : i < (S.sort (· ≤ ·)).length), (AoS.target inc A.length).read a i = .ok (S.sort (· ≤ ·))[i] :=
    fun i hi => AoS.readRow h i hi
  by_cases hm : (vs.toFinset \ S).card = 0
  · rw [Finset.card_eq_zero, Finset.sdiff_eq_empty_iff_subset] at hm
    rw [insertRangeRef_self c (AoS.target inc A.length) (parts_sets inc A.length) (fun s k => a.readOwn c s.values (q + k))
      (sort_increasing S) hv a (fun v hv => by simpa using hm (List.mem_toFinset.2 hv)) hread
      (fun k hk' => readOwn_keeps c hk hq k hk')]
  have key := insertRangeRef_eq c (AoS.target inc A.length) (parts_sets inc A.length) (fun s k => a.readOwn c s.values (q + k)) vs
    (S.sort (· ≤ ·)).length a M
    (fun s => s.rowPtr A.length = total A ∧ Keeps q a.values.cap vs s.values ∧ (q + vs.length ≤ total A ∨ total A + M ≤ q))
    (fun k hk' => readOwn_keeps c hk hq k hk') ?_ (fun s hs k hk' => readOwn_keeps c hs.2.1 hq k hk') ?_ ?_
    (fun s k s1 hs he => by cases he; exact hs) (fun s n vp pos pp s1 hs he => by cases he; exact hs)
  · rw [key]
  · intro n s1 hz hnz hn he
    have := counted_eq (c := c) hv hread hz hnz
    subst this
    obtain ⟨h1, h2, h3, h4⟩ := hinc s1 hm he
    exact ⟨⟨h1, h2, h4⟩, by simpa using h3⟩
  · rintro s ub pos nL s1 ⟨h1, h2, h3⟩ hpos hM he
    obtain ⟨b, hb, rfl⟩ := modify_keeps he
    rw [h1] at hb
    exact ⟨h1, h2.shiftUp hpos (by omega) hb, h3⟩
  · rintro s k v s1 ⟨h1, h2, h3⟩ hk' he
    obtain ⟨b, hb, rfl⟩ := modify_keeps he
    rw [h1] at hb
    exact ⟨h1, h2.construct (by omega) hb, h3⟩

theorem insertOwn_eq (h : AGood a (A ++ (S.sort (· ≤ ·), cap) :: B)) {j k : Nat} {v : T}
    (hit : a.element c j k = .ok q) (hk : Keeps q a.values.cap [v] a.values) (hq : q + 1 ≤ a.values.cap) (M : Nat)
    (hinc : ∀ a1, v ∉ S → inc a 1 = .ok a1 → a1.rowPtr A.length = total A ∧
      Keeps q a.values.cap [v] a1.values ∧ S.card + 1 ≤ M ∧ (q + 1 ≤ total A ∨ total A + M ≤ q)) :
    AoS.insertOwn c inc a A.length j k = AoS.insertIntoSet c inc a A.length v := by
  unfold AoS.insertOwn AoS.insertIntoSet
  simp only [hit, h.checkBounds (i := A.length) (by simp), h.shape.sizeOfAt (i := A.length) rfl, h.ptr, bind_ok]
  have hread : ∀ i (hi : i < (S.sort (· ≤ ·)).length), (AoS.target inc A.length).read a i = .ok (S.sort (· ≤ ·))[i] :=
    fun i hi => AoS.readRow h i hi
  have hval : ∀ b : Buf T, Keeps q a.values.cap [v] b → a.readOwn c b q = .ok v := fun b hb =>
    readOwn_keeps c hb hq 0 (by simp)
  by_cases hm : v ∈ S
  · rw [insertOneRef_self c (AoS.target inc A.length) (parts_sets inc A.length) (fun s => a.readOwn c s.values q)
      (sort_increasing S) a (by simpa using hm) hread (hval _ hk)]
  · have key := insertOneRef_eq c (AoS.target inc A.length) (parts_sets inc A.length) (fun s => a.readOwn c s.values q) v
      (S.sort (· ≤ ·)).length a (hval _ hk) ?_
    · rw [key]
    intro pos s1 s2 hp _ hi he
    obtain ⟨h1, h2, h3, h4⟩ := hinc s1 hm hi
    obtain ⟨b, hb, rfl⟩ := modify_keeps he
    rw [h1] at hb
    obtain ⟨f1, f2, hx, hpos, -, -⟩ := insertPosition_split c id _ (S.sort (· ≤ ·)) v (sort_increasing S) hread
    rw [hpos] at hp
    cases hp
    have hle : f1.length ≤ (S.sort (· ≤ ·)).length := by rw [hx]; simp
    refine hval _ (h2.shiftUp hle ?_ hb)
    simp only [Finset.length_sort, List.length_singleton]
    omega

theorem removeOwn_eq (h : AGood a (A ++ (S.sort (· ≤ ·), cap) :: B)) {j k : Nat} {v : T}
    (hit : a.element c j k = .ok q) (hk : Keeps q a.values.cap [v] a.values) (hq : q + 1 ≤ a.values.cap) :
    AoS.removeOwn c a A.length j k = AoS.removeFromSet c a A.length v := by
  unfold AoS.removeOwn AoS.removeFromSet removeOneRef
  simp only [hit, h.checkBounds (i := A.length) (by simp), h.shape.sizeOfAt (i := A.length) rfl, h.ptr, bind_ok]
  have := readOwn_keeps c hk hq 0 (by simp)
  simp only [Nat.add_zero, List.getElem_cons_zero] at this
  rw [this, bind_ok]

/-- Removing a part of the set itself. -/
theorem removeRangeOwn_self (h : AGood a (A ++ (S.sort (· ≤ ·), cap) :: B)) {lo n : Nat} (hn : lo + n ≤ S.card) :
    AoS.removeRangeOwn c a A.length A.length lo n = AoS.removeRangeFromSet c a A.length (((S.sort (· ≤ ·)).drop lo).take n) := by
  have hn' : lo + n ≤ (S.sort (· ≤ ·)).length := by simpa using hn
  have hlen : (((S.sort (· ≤ ·)).drop lo).take n).length = n := by simp; omega
  unfold AoS.removeRangeOwn AoS.removeRangeFromSet
  obtain ⟨hk, hq⟩ := keeps_row h hn'
  simp only [h.iterator (c := c) (B := (S.sort (· ≤ ·), cap) :: B) (by simp) lo, h.checkBounds (i := A.length) (by simp),
    h.shape.sizeOfAt (i := A.length) rfl, h.ptr, bind_ok]
  have := removeRangeRef_self c (AoS.target (AoS.checking c A.length) A.length) (fun s k => a.readOwn c s.values (total A + lo + k))
    (sort_increasing S) a rfl (fun _ _ _ h => by cases h; rfl) (fun i hi => AoS.readRow h i hi) hn' (fun k hk' => readOwn_keeps c hk hq k hk')
  rw [hlen] at this
  rw [this]

/-- Removing values of another set. -/
theorem removeRangeOwn_eq (h : AGood a (A ++ (S.sort (· ≤ ·), cap) :: B)) {j lo : Nat} (hv : vs.Pairwise (· < ·))
    (hit : a.iterator c j lo = .ok q) (hk : Keeps q a.values.cap vs a.values) (hq : q + vs.length ≤ a.values.cap)
    (hd : q + vs.length ≤ total A ∨ total A + cap ≤ q) :
    AoS.removeRangeOwn c a A.length j lo vs.length = AoS.removeRangeFromSet c a A.length vs := by
  unfold AoS.removeRangeOwn AoS.removeRangeFromSet
  simp only [hit, h.checkBounds (i := A.length) (by simp), h.shape.sizeOfAt (i := A.length) rfl, h.ptr, bind_ok]
  have hkw : ∀ (s : AoA T) kept d rest, Win NotRaw a.values s.values (total A) cap kept d rest → Keeps q a.values.cap vs s.values :=
    fun s kept d rest w => ⟨w.capEq, fun k hk' => by rw [w.frame (q + k) (by omega), hk.2 k hk']⟩
  have hreadw : ∀ (s : AoA T) kept d rest, s.rowPtr A.length = total A →
      Win NotRaw a.values s.values (total A) cap kept d rest → ∀ i (hi : i < rest.length),
        (AoS.target (AoS.checking c A.length) A.length).read s (kept.length + d + i) = .ok (id rest[i]) := by
    intro s kept d rest hp w i hi
    show s.values.read (s.rowPtr A.length + (kept.length + d + i)) = _
    rw [hp, w.read_back i hi]; rfl
  have key := removeRangeRef_eq c (AoS.target (AoS.checking c A.length) A.length) (fun s k => a.readOwn c s.values (q + k)) vs
    (S.sort (· ≤ ·)).length a
    (fun s pos nR l => s.rowPtr A.length = total A ∧ l.Pairwise (· < ·) ∧ ∃ kept x rest,
      Win NotRaw a.values s.values (total A) cap kept nR (x :: rest) ∧ pos = kept.length + nR ∧
      pos + (x :: rest).length = (S.sort (· ≤ ·)).length ∧ Increasing id (x :: rest) ∧ ∃ l', l = x :: l')
    (fun k hk' => readOwn_keeps c hk hq k hk') ?_ ?_ ?_
  · rw [key]
  · intro pos w ws hs
    have w0 := (h.lay.toWin NotRaw).join NotRaw (S.sort (· ≤ ·)) [] (by simp)
    obtain ⟨f, g, n, ws', hfg, hs', hf, hcase⟩ := seek_spec c id
      ((AoS.target (AoS.checking c A.length) A.length).read a) (S.sort (· ≤ ·)).length vs 0 (S.sort (· ≤ ·)) (by simp)
      (sort_increasing S) hv (fun i hi => by
        have := hreadw a [] 0 _ h.rowPtr w0 i hi
        simpa using this)
    rw [hs] at hs'
    cases hs'
    rcases hcase with ⟨hws, -⟩ | ⟨x, g', v, ws'', rfl, hws, hxv, hn, us, hus, -⟩
    · cases hws
    · cases hws
      have hinc := sort_increasing S
      rw [hfg] at hinc w0
      refine ⟨h.rowPtr, (hus ▸ hv).sublist (List.sublist_append_right _ _), f, x, g', w0.split NotRaw, by omega, ?_,
        (List.pairwise_append.1 hinc).2.1, ws, by rw [← hxv]; rfl⟩
      rw [hfg, List.length_append, hn, Nat.zero_add]
  · rintro s pos nR l ⟨-, -, kept, x, rest, w, -⟩ k hk'
    exact readOwn_keeps c (hkw _ _ _ _ w) hq k hk'
  · rintro s pos nR v rest np w ws s1 s2 ⟨hp, hl, kept, x, r, hw, rfl, hsz, hinc, l', hl'⟩ hs h1 h2
    cases hl'
    rw [List.pairwise_cons] at hl
    obtain ⟨f, g, n, ws', hfg, hs', hf, hcase⟩ := seek_spec c id
      ((AoS.target (AoS.checking c A.length) A.length).read s) (S.sort (· ≤ ·)).length rest (kept.length + nR) (v :: r) hsz
      hinc hl.2 (hreadw s kept nR _ hp hw)
    rw [hs] at hs'
    cases hs'
    rcases hcase with ⟨hws, -⟩ | ⟨y, g', v', ws'', rfl, hws, hyv, hn, us, hus, -⟩
    · cases hws
    · cases hws
      have hyv : y = w := hyv
      subst hyv
      have hlt : v < y := hl.1 y (by rw [hus]; simp)
      cases f with
      | nil =>
        rw [List.nil_append] at hfg
        cases hfg
        exact absurd hlt (lt_irrefl _)
      | cons x' f =>
        rw [List.cons_append] at hfg
        cases hfg
        obtain ⟨b1, e1, e2⟩ := Win.removeStep (f2 := f) (rest := y :: g') c (by simpa using hw)
        obtain ⟨b, hb, rfl⟩ := modify_keeps h1
        have hnp : np = kept.length + nR + 1 + f.length := by rw [hn, List.length_cons]; omega
        rw [hp, hnp, e1] at hb
        cases hb
        cases h2
        refine ⟨hp, (hus ▸ hl.2).sublist (List.sublist_append_right _ _), kept ++ f, y, g', e2, ?_, ?_, ?_, ws, rfl⟩
        · rw [hnp, List.length_append]; omega
        · rw [hnp]
          simp only [List.length_cons, List.length_append] at hsz ⊢
          omega
        · exact (List.pairwise_append.1 (List.pairwise_cons.1 hinc).2).2.1

end rows

end OwnSets

end LvArray

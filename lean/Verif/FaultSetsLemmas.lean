import Verif.FaultSets
import Verif.Spec.FaultSets
import Verif.FaultsLemmas
import Verif.SortedArrayLemmas
/-!
# Calls on a `SortedArray` that end in an exception: lemmas
-/

namespace LvArray.FaultySet

open LvArray Faulty sortedArrayManipulation

set_option linter.unusedSectionVars false

variable {T : Type}

section shadow

/-- A program against the same program without exceptions: where it ends other than by an element that throws, the other ends
the same way. -/
def Shadow {α : Type} (s : Faulty T) (p : FProg T α) (r : R (Buf T × α)) : Prop :=
  match p s with
  | .ok x s' => r = .ok (s'.buf, x) ∧ s'.dim = s.dim
  | .error .element s' => s'.dim = s.dim
  | .error .handler _ => r = .error .abort
  | .error (.ub u) _ => r = .error (.ub u)

theorem Shadow.bind {α β : Type} {s : Faulty T} {p : FProg T α} {r : R (Buf T × α)} {q : α → FProg T β}
    {g : Buf T × α → R (Buf T × β)} (hp : Shadow s p r) (hq : ∀ x s', s'.dim = s.dim → Shadow s' (q x) (g (s'.buf, x))) :
    Shadow s (p >>= q) (r >>= g) := by
  unfold Shadow at hp
  rcases hc : p s with ⟨x, s'⟩ | ⟨_ | _ | u, s'⟩ <;> simp only [hc] at hp
  · have := hq x s' hp.2
    unfold Shadow at this ⊢
    rw [Faulty.bind_eq_ok hc, hp.1, bind_ok]
    rcases hc2 : q x s' with ⟨y, s''⟩ | ⟨_ | _ | u, s''⟩ <;> simp only [hc2] at this ⊢
    · exact ⟨this.1, this.2.trans hp.2⟩
    · exact this.trans hp.2
    · exact this
    · exact this
  · unfold Shadow
    rw [bind_eq_error hc]
    exact hp
  · unfold Shadow
    rw [bind_eq_error hc, hp]
    rfl
  · unfold Shadow
    rw [bind_eq_error hc, hp]
    rfl

theorem Shadow.congr {α : Type} {s : Faulty T} {p : FProg T α} {r r' : R (Buf T × α)} (h : Shadow s p r) (e : r = r') :
    Shadow s p r' := e ▸ h

theorem shadow_look {α : Type} (s : Faulty T) (f : Buf T → R α) : Shadow s (look f) (f s.buf >>= fun x => .ok (s.buf, x)) := by
  unfold Shadow look eval
  rcases f s.buf with (_ | u) | x
  · rfl
  · rfl
  · exact ⟨rfl, rfl⟩

theorem shadow_onBuf (s : Faulty T) (f : Buf T → R (Buf T)) : Shadow s (onBuf f) (f s.buf >>= fun b => .ok (b, ())) := by
  unfold Shadow onBuf
  rcases f s.buf with (_ | u) | x
  · rfl
  · rfl
  · exact ⟨rfl, rfl⟩

theorem shadow_checking (s : Faulty T) (f : Buf T → R Unit) : Shadow s (checking f) (f s.buf >>= fun _ => .ok (s.buf, ())) :=
  (shadow_onBuf s _).congr (by rcases f s.buf with e | _ <;> rfl)

theorem shadow_element (c : Cfg) (throws : Nat → Bool) (s : Faulty T) (f : Buf T → R (Buf T)) :
    Shadow s (element c throws f) (f s.buf >>= fun b => .ok (b, ())) := by
  unfold Shadow element
  split <;> rename_i h <;> split at h
  · cases h
  · unfold onBuf at h
    simp only at h
    rcases hf : f s.buf with (_ | u) | b <;> rw [hf] at h <;> cases h
    exact ⟨rfl, rfl⟩
  · cases h; rfl
  · unfold onBuf at h
    simp only at h
    rcases hf : f s.buf with (_ | u) | b <;> rw [hf] at h <;> cases h
  · cases h
  · unfold onBuf at h
    simp only at h
    rcases hf : f s.buf with (_ | u) | b <;> rw [hf] at h <;> cases h
    rfl
  · cases h
  · unfold onBuf at h
    simp only at h
    rcases hf : f s.buf with (_ | u) | b <;> rw [hf] at h <;> cases h
    rfl

theorem shadow_pure {α : Type} (s : Faulty T) (x : α) : Shadow s (pure x) (.ok (s.buf, x)) := ⟨rfl, rfl⟩

theorem shadow_loop (c : Cfg) (throws : Nat → Bool) (f : Nat → Buf T → R (Buf T)) : ∀ (n lo : Nat) (s : Faulty T),
    Shadow s (loop n lo (fun i => element c throws (f i))) (forUp n lo f s.buf >>= fun b => .ok (b, ()))
  | 0, lo, s => ⟨rfl, rfl⟩
  | n + 1, lo, s => by
    refine ((shadow_element c throws s (f lo)).bind (g := fun y => forUp n (lo + 1) f y.1 >>= fun b => .ok (b, ()))
      (fun x s' _ => shadow_loop c throws f n (lo + 1) s')).congr ?_
    rw [show forUp (n + 1) lo f s.buf = f lo s.buf >>= forUp n (lo + 1) f from rfl]
    rcases f lo s.buf with e | b <;> rfl

end shadow

variable [LT T] [DecidableLT T] [DecidableEq T]

theorem shadow_insertOne (c : Cfg) (throws : Nat → Bool) (n : Nat) (v : T) (s : Faulty T) :
    Shadow s (insertOne c throws n v) (sortedArrayManipulation.insertOne c (SortedArr.target c n) s.buf n v) := by
  unfold insertOne
  refine ((shadow_look s (place c n v)).bind
    (g := fun y => if y.2.2 then (bufferManipulation.dynamicReserve c y.1 n (n + 0) >>= fun b => .ok (b, false))
      else (bufferManipulation.dynamicReserve c y.1 n (n + 1) >>= fun b =>
        arrayManipulation.emplace c b 0 n y.2.1 v >>= fun b => .ok (b, true))) (fun x s' _ => ?_)).congr ?_
  · rcases x with ⟨pos, _ | _⟩
    · simp only [Bool.false_eq_true, if_false]
      refine ((shadow_onBuf s' _).bind (g := fun y => arrayManipulation.emplace c y.1 0 n pos v >>= fun b => .ok (b, true))
        (fun _ s1 _ => ?_)).congr (by rcases bufferManipulation.dynamicReserve c s'.buf n (n + 1) with e | b <;> rfl)
      refine ((shadow_checking s1 _).bind (g := fun y => arrayManipulation.checkInsertBounds c n pos >>= fun _ =>
        arrayManipulation.shiftUp c y.1 0 n pos 1 >>= fun b => b.construct c (0 + pos) v >>= fun b => .ok (b, true))
        (fun _ s2 _ => ?_)).congr (by
          unfold arrayManipulation.emplace
          rcases arrayManipulation.assertNonNull c s1.buf 0 with e | _
          · rfl
          · simp only [bind_ok]
            rcases arrayManipulation.checkInsertBounds c n pos with e | _
            · rfl
            · simp only [bind_ok]
              rcases arrayManipulation.shiftUp c s1.buf 0 n pos 1 with e | _ <;> rfl)
      refine ((shadow_checking s2 _).bind (g := fun y => arrayManipulation.shiftUp c y.1 0 n pos 1 >>= fun b =>
        b.construct c (0 + pos) v >>= fun b => .ok (b, true)) (fun _ s3 _ => ?_)).congr (by
          rcases arrayManipulation.checkInsertBounds c n pos with e | _ <;> rfl)
      refine ((shadow_onBuf s3 _).bind (g := fun y => y.1.construct c (0 + pos) v >>= fun b => .ok (b, true))
        (fun _ s4 _ => ?_)).congr (by rcases arrayManipulation.shiftUp c s3.buf 0 n pos 1 with e | _ <;> rfl)
      exact ((shadow_element c throws s4 _).bind (g := fun y => .ok (y.1, true)) (fun _ s5 _ => shadow_pure s5 true)).congr (by
        rcases s4.buf.construct c (0 + pos) v with e | _ <;> rfl)
    · simp only [if_true]
      exact ((shadow_onBuf s' _).bind (g := fun y => .ok (y.1, false)) (fun _ s5 _ => shadow_pure s5 false)).congr (by
        rcases bufferManipulation.dynamicReserve c s'.buf n (n + 0) with e | _ <;> rfl)
  · unfold sortedArrayManipulation.insertOne place
    show _ = (assertRange c (fun i => s.buf.read (0 + i)) n (isSortedUnique less) >>= fun _ =>
      insertPosition c (fun i => s.buf.read (0 + i)) n v >>= fun pos =>
      isAt (fun i => s.buf.read (0 + i)) n pos v >>= fun present =>
      if present then bufferManipulation.dynamicReserve c s.buf n (n + 0) >>= fun b => .ok (b, false)
      else bufferManipulation.dynamicReserve c s.buf n (n + 1) >>= fun b =>
        (arrayManipulation.emplace c b 0 n pos v >>= fun b => .ok b) >>= fun b => .ok (b, true))
    rcases assertRange c (fun i => s.buf.read (0 + i)) n (isSortedUnique less) with e | _
    · rfl
    simp only [bind_ok]
    rcases insertPosition c (fun i => s.buf.read (0 + i)) n v with e | pos
    · rfl
    simp only [bind_ok]
    rcases isAt (fun i => s.buf.read (0 + i)) n pos v with e | _ | _
    · rfl
    · simp only [bind_ok, Bool.false_eq_true, if_false]
      rcases bufferManipulation.dynamicReserve c s.buf n (n + 1) with e | b
      · rfl
      simp only [bind_ok]
      rcases arrayManipulation.emplace c b 0 n pos v with e | _ <;> rfl
    · rfl

theorem shadow_insertLoop (c : Cfg) (throws : Nat → Bool) (m : Nat) : ∀ (vs : List T) (ub nLeft : Nat) (s : Faulty T),
    Shadow s (insertLoop c throws vs ub nLeft)
      (sortedArrayManipulation.insertLoop c (SortedArr.target c m) vs s.buf ub nLeft >>= fun b => .ok (b, ()))
  | [], ub, nLeft, s => ⟨rfl, rfl⟩
  | v :: vs, ub, nLeft, s => by
    unfold insertLoop
    refine ((shadow_look s _).bind
      (g := fun y => if y.2.2 then (sortedArrayManipulation.insertLoop c (SortedArr.target c m) vs y.1 ub nLeft >>= fun b => .ok (b, ()))
        else arrayManipulation.shiftUp c y.1 0 ub y.2.1 nLeft >>= fun b =>
          (if y.2.1 + nLeft = 0 then .error (.ub .outOfBounds) else b.construct c (0 + (y.2.1 + nLeft - 1)) v) >>= fun b =>
          sortedArrayManipulation.insertLoop c (SortedArr.target c m) vs b y.2.1 (nLeft - 1) >>= fun b => .ok (b, ()))
      (fun x s' _ => ?_)).congr ?_
    · rcases x with ⟨pos, _ | _⟩
      · simp only [Bool.false_eq_true, if_false]
        refine ((shadow_onBuf s' _).bind (g := fun y =>
          (if pos + nLeft = 0 then .error (.ub .outOfBounds) else y.1.construct c (0 + (pos + nLeft - 1)) v) >>= fun b =>
          sortedArrayManipulation.insertLoop c (SortedArr.target c m) vs b pos (nLeft - 1) >>= fun b => .ok (b, ()))
          (fun _ s1 _ => ?_)).congr (by rcases arrayManipulation.shiftUp c s'.buf 0 ub pos nLeft with e | _ <;> rfl)
        refine ((shadow_element c throws s1 _).bind (g := fun y =>
          sortedArrayManipulation.insertLoop c (SortedArr.target c m) vs y.1 pos (nLeft - 1) >>= fun b => .ok (b, ()))
          (fun _ s2 _ => shadow_insertLoop c throws m vs pos (nLeft - 1) s2)).congr ?_
        generalize (if pos + nLeft = 0 then Except.error (Err.ub .outOfBounds) else s1.buf.construct c (0 + (pos + nLeft - 1)) v) = r
        rcases r with e | _ <;> rfl
      · simp only [if_true]
        exact shadow_insertLoop c throws m vs ub nLeft s'
    · rw [sortedArrayManipulation.insertLoop]
      show _ = ((find c less (fun i => s.buf.read (0 + i)) ub v >>= fun pos =>
        isAt (fun i => s.buf.read (0 + i)) ub pos v >>= fun present =>
        if present then sortedArrayManipulation.insertLoop c (SortedArr.target c m) vs s.buf ub nLeft
        else (arrayManipulation.shiftUp c s.buf 0 ub pos nLeft >>= fun b => .ok b) >>= fun b =>
          ((if pos + nLeft = 0 then .error (.ub .outOfBounds) else b.construct c (0 + (pos + nLeft - 1)) v) >>= fun b => .ok b) >>=
          fun b => .ok b >>= fun b => sortedArrayManipulation.insertLoop c (SortedArr.target c m) vs b pos (nLeft - 1)) >>=
          fun b => .ok (b, ()))
      rcases find c less (fun i => s.buf.read (0 + i)) ub v with e | pos
      · rfl
      simp only [bind_ok]
      rcases isAt (fun i => s.buf.read (0 + i)) ub pos v with e | _ | _
      · rfl
      · simp only [bind_ok, Bool.false_eq_true, if_false]
        rcases arrayManipulation.shiftUp c s.buf 0 ub pos nLeft with e | b
        · rfl
        simp only [bind_ok]
        generalize (if pos + nLeft = 0 then Except.error (Err.ub .outOfBounds) else b.construct c (0 + (pos + nLeft - 1)) v) = r
        rcases r with e | _ <;> rfl
      · simp only [bind_ok, if_true]

theorem shadow_insertRange [Inhabited T] (c : Cfg) (throws : Nat → Bool) (n : Nat) (vs : List T) (s : Faulty T) :
    Shadow s (insertRange c throws n vs) (sortedArrayManipulation.insertRange c (SortedArr.target c n) s.buf n vs) := by
  unfold insertRange
  refine ((shadow_look s _).bind (g := fun y => errorIf (c.debug && !isSortedUnique less vs) >>= fun _ =>
    if n = 0 then bufferManipulation.dynamicReserve c y.1 n (n + vs.length) >>= fun b =>
      forUp vs.length 0 (fun i b => b.construct c (0 + i) (vs.getD i default)) b >>= fun b => .ok (b, vs.length)
    else countLoop c (fun i => y.1.read (0 + i)) n vs.reverse n 0 >>= fun k =>
      bufferManipulation.dynamicReserve c y.1 n (n + k) >>= fun b =>
      if k = 0 then .ok (b, 0) else
        sortedArrayManipulation.insertLoop c (SortedArr.target c n) vs.reverse b n k >>= fun b => .ok (b, k))
    (fun _ s1 _ => ?_)).congr ?_
  · refine ((shadow_look s1 _).bind (g := fun y =>
      if n = 0 then bufferManipulation.dynamicReserve c y.1 n (n + vs.length) >>= fun b =>
        forUp vs.length 0 (fun i b => b.construct c (0 + i) (vs.getD i default)) b >>= fun b => .ok (b, vs.length)
      else countLoop c (fun i => y.1.read (0 + i)) n vs.reverse n 0 >>= fun k =>
        bufferManipulation.dynamicReserve c y.1 n (n + k) >>= fun b =>
        if k = 0 then .ok (b, 0) else
          sortedArrayManipulation.insertLoop c (SortedArr.target c n) vs.reverse b n k >>= fun b => .ok (b, k))
      (fun _ s2 _ => ?_)).congr (by rcases errorIf (c.debug && !isSortedUnique less vs) with e | _ <;> rfl)
    by_cases hn : n = 0
    · simp only [if_pos hn]
      refine ((shadow_onBuf s2 _).bind (g := fun y =>
        forUp vs.length 0 (fun i b => b.construct c (0 + i) (vs.getD i default)) y.1 >>= fun b => .ok (b, vs.length))
        (fun _ s3 _ => ?_)).congr (by rcases bufferManipulation.dynamicReserve c s2.buf n (n + vs.length) with e | _ <;> rfl)
      exact ((shadow_loop c throws (fun i b => b.construct c (0 + i) (vs.getD i default)) vs.length 0 s3).bind
        (g := fun y => .ok (y.1, vs.length)) (fun _ s4 _ => shadow_pure s4 _)).congr (by
        simp only
        generalize forUp vs.length 0 _ s3.buf = r
        rcases r with e | _ <;> rfl)
    · simp only [if_neg hn]
      refine ((shadow_look s2 _).bind (g := fun y =>
        bufferManipulation.dynamicReserve c y.1 n (n + y.2) >>= fun b =>
        if y.2 = 0 then .ok (b, 0) else
          sortedArrayManipulation.insertLoop c (SortedArr.target c n) vs.reverse b n y.2 >>= fun b => .ok (b, y.2))
        (fun k s3 _ => ?_)).congr (by
          rcases countLoop c (fun i => s2.buf.read (0 + i)) n vs.reverse n 0 with e | _ <;> rfl)
      refine ((shadow_onBuf s3 _).bind (g := fun y => if k = 0 then .ok (y.1, 0) else
          sortedArrayManipulation.insertLoop c (SortedArr.target c n) vs.reverse y.1 n k >>= fun b => .ok (b, k))
        (fun _ s4 _ => ?_)).congr (by rcases bufferManipulation.dynamicReserve c s3.buf n (n + k) with e | _ <;> rfl)
      by_cases hk : k = 0
      · simp only [if_pos hk]
        exact shadow_pure s4 0
      · simp only [if_neg hk]
        exact ((shadow_insertLoop c throws n vs.reverse n k s4).bind (g := fun y => .ok (y.1, k))
          (fun _ s5 _ => shadow_pure s5 k)).congr (by
          rcases sortedArrayManipulation.insertLoop c (SortedArr.target c n) vs.reverse s4.buf n k with e | _ <;> rfl)
  · unfold sortedArrayManipulation.insertRange
    show _ = (assertRange c (fun i => s.buf.read (0 + i)) n (isSortedUnique less) >>= fun _ => _)
    rcases assertRange c (fun i => s.buf.read (0 + i)) n (isSortedUnique less) with e | _
    · rfl
    simp only [bind_ok]
    rcases errorIf (c.debug && !isSortedUnique less vs) with e | _
    · rfl
    simp only [bind_ok]
    by_cases hn : n = 0
    · simp only [if_pos hn]
      show _ = (bufferManipulation.dynamicReserve c s.buf n (n + vs.length) >>= fun b => _)
      rcases bufferManipulation.dynamicReserve c s.buf n (n + vs.length) with e | b
      · rfl
      simp only [bind_ok]
      congr 1
      congr 1
      funext i b
      show _ = ((b.construct c (0 + i) (vs.getD i default) >>= fun b => .ok b) >>= fun b => .ok b)
      rcases b.construct c (0 + i) (vs.getD i default) with e | _ <;> rfl
    · simp only [if_neg hn]
      rfl

end LvArray.FaultySet

namespace LvArray.FaultySet

open LvArray Faulty sortedArrayManipulation

set_option linter.unusedSectionVars false

variable {T : Type} [LinearOrder T] {limit : Option Nat} {S : Finset T} {s : Faulty T}

/-! ## A state that holds a set -/

/-- The state holds exactly the set `S`. -/
def HoldsSet (limit : Option Nat) (S : Finset T) (s : Faulty T) : Prop :=
  0 ≤ s.dim ∧ SGood limit { buf := s.buf, size := s.dim.toNat } S

theorem HoldsSet.size (h : HoldsSet limit S s) : Faulty.size s = .ok S.card s := by
  rw [size_eq h.1]
  have : s.dim.toNat = _ := h.2.size
  rw [this]

theorem HoldsSet.dim (h : HoldsSet limit S s) : s.dim = S.card := by
  have h1 : s.dim.toNat = S.card := h.2.size
  have := h.1
  omega

/-- The plain array of the state. -/
theorem HoldsSet.plain (h : HoldsSet limit S s) : SGood limit { buf := s.buf, size := S.card } S := by
  have h1 : s.dim.toNat = S.card := h.2.size
  have := h.2
  rwa [h1] at this

theorem HoldsSet.mk (S' : Finset T) (s' : Faulty T) (hd : s'.dim = S'.card)
    (g : SGood limit { buf := s'.buf, size := S'.card } S') : HoldsSet limit S' s' := by
  refine ⟨by omega, ?_⟩
  rw [hd]
  exact g

theorem unsorted_debug {vs : List T} (hv : ¬ Spec.sortedUnique vs) : isSortedUnique less vs = false := by
  cases h : isSortedUnique less vs with
  | false => rfl
  | true =>
    refine absurd ?_ hv
    unfold Spec.sortedUnique
    clear hv
    induction vs with
    | nil => exact List.Pairwise.nil
    | cons a vs ih =>
      cases vs with
      | nil => simp
      | cons b vs =>
        simp only [isSortedUnique] at h
        by_cases hab : a < b
        · have hba : ¬ b < a := not_lt.mpr (le_of_lt hab)
          simp only [less, hab, hba, decide_true, decide_false, Bool.not_true, Bool.or_self, Bool.false_eq_true, if_false] at h
          have := ih h
          rw [List.pairwise_cons]
          refine ⟨fun d hd => ?_, this⟩
          rcases List.mem_cons.mp hd with rfl | hd
          · exact hab
          · exact lt_trans hab ((List.pairwise_cons.mp this).1 d hd)
        · simp [less, hab] at h

theorem assert_plain (c : Cfg) (h : HoldsSet limit S s) :
    assertRange c (fun i => s.buf.read (0 + i)) S.card (isSortedUnique less) = .ok () := by
  have := assertUnique_ok c id (read := (SortedArr.target c S.card).read s.buf) (sort_increasing S)
    (fun i hi => SortedArr.read_target c h.plain _ i hi)
  rw [Finset.length_sort] at this
  exact this

theorem look_eq {α : Type} {f : Buf T → R α} {x : α} (h : f s.buf = .ok x) : look f s = .ok x s := by
  simp only [look, h, eval]

theorem look_abort {α : Type} {f : Buf T → R α} (h : f s.buf = .error .abort) : look f s = .error .handler s := by
  simp only [look, h, eval]

theorem onBuf_abort {f : Buf T → R (Buf T)} (h : f s.buf = .error .abort) : onBuf f s = .error .handler s := by
  simp only [onBuf, h]

/-- Where `insert` puts a value. -/
theorem place_eq (c : Cfg) (h : HoldsSet limit S s) (v : T) : ∃ f1 f2, S.sort (· ≤ ·) = f1 ++ f2 ∧
    place c S.card v s.buf = .ok (f1.length, decide (v ∈ S)) ∧ (∀ x ∈ f1, x < v) ∧ (∀ x ∈ f2, v ≤ x) := by
  have hread : ∀ i (hi : i < (S.sort (· ≤ ·)).length), (fun i => s.buf.read (0 + i)) i = .ok (id (S.sort (· ≤ ·))[i]) :=
    fun i hi => SortedArr.read_target c h.plain S.card i hi
  have hinc := sort_increasing S
  have ha := assert_plain c h
  have hl : (S.sort (· ≤ ·)).length = S.card := by simp
  obtain ⟨f1, f2, hx, hpos, k1, k2⟩ := insertPosition_split c id (fun i => s.buf.read (0 + i)) (S.sort (· ≤ ·)) v hinc hread
  refine ⟨f1, f2, hx, ?_, k1, k2⟩
  rw [hl] at hpos
  unfold place
  rw [ha, bind_ok, hpos, bind_ok, ← hl]
  have hmem : v ∈ S ↔ v ∈ f1 ++ f2 := by rw [← hx]; simp
  rw [hx] at hread hinc ⊢
  rw [present_eq id _ f1 f2 v hread k2 hinc, bind_ok]
  congr 3
  apply propext
  rw [hmem, List.mem_append]
  constructor
  · rintro ⟨x, hx2, rfl⟩; exact Or.inr hx2
  · rintro (h | h)
    · exact absurd (k1 v h) (lt_irrefl v)
    · exact ⟨v, h, rfl⟩

/-- A growing buffer that is refused. -/
theorem reserve_refused (c : Cfg) (h : HoldsSet limit S s) (k : Nat) (hf : ¬ Spec.fits limit (S.card + k)) :
    bufferManipulation.dynamicReserve c s.buf S.card (S.card + k) = .error .abort :=
  SortedArr.grow_abort c h.plain k hf

theorem insert_refused (c : Cfg) (throws : Nat → Bool) (h : HoldsSet limit S s) (v : T)
    (hf : ¬ Spec.fits limit (Insert.insert v S).card) : insert c throws v s = .error .handler s := by
  have hv : v ∉ S := fun hv => hf (by rw [Finset.insert_eq_of_mem hv]; exact h.plain.fits _ (Nat.le_refl _))
  rw [Finset.card_insert_of_notMem hv] at hf
  obtain ⟨f1, f2, -, hp, -, -⟩ := place_eq c h v
  unfold insert insertOne
  rw [Faulty.bind_eq_ok h.size]
  refine bind_eq_error ?_
  rw [Faulty.bind_eq_ok (look_eq hp)]
  simp only [hv, decide_false, Bool.false_eq_true, if_false]
  exact bind_eq_error (onBuf_abort (reserve_refused c h 1 hf))

theorem insertMany_refused [Inhabited T] (c : Cfg) (throws : Nat → Bool) (h : HoldsSet limit S s) (vs : List T)
    (hd : c.debug = true ∨ Spec.sortedUnique vs)
    (hf : ¬ (Spec.sortedUnique vs ∧ Spec.fits limit (S ∪ vs.toFinset).card)) :
    insertMany c throws vs s = .error .handler s := by
  unfold insertMany
  rw [Faulty.bind_eq_ok h.size]
  refine bind_eq_error ?_
  unfold insertRange
  rw [Faulty.bind_eq_ok (look_eq (assert_plain c h))]
  by_cases hv : Spec.sortedUnique vs
  · have hf : ¬ Spec.fits limit (S ∪ vs.toFinset).card := fun hf' => hf ⟨hv, hf'⟩
    have hn := SortedArr.newCount_card S vs hv
    rw [SortedArr.card_union_eq S vs] at hf
    rw [Faulty.bind_eq_ok (look_eq (x := ()) (by
      rw [isSortedUnique_keys hv, Bool.not_true, Bool.and_false]; rfl))]
    by_cases hz : S.card = 0
    · rw [if_pos hz]
      have hS : S = ∅ := Finset.card_eq_zero.mp hz
      refine bind_eq_error (onBuf_abort (reserve_refused c h _ ?_))
      have : (vs.toFinset \ S).card = vs.length := by
        rw [hS, Finset.sdiff_empty, List.toFinset_card_of_nodup (hv.imp (fun hab => ne_of_lt hab))]
      rwa [← this]
    · rw [if_neg hz]
      have hcl := countLoop_spec c id (fun i => s.buf.read (0 + i)) (S.sort (· ≤ ·)) (sort_increasing S)
        (fun i hi => SortedArr.read_target c h.plain S.card i hi) vs.reverse (S.sort (· ≤ ·)) [] 0
        (by simp) (by simp) (List.pairwise_reverse.mpr hv)
      have hcount : 0 + (vs.reverse.filter (fun w => decide (∀ x ∈ S.sort (· ≤ ·), id x ≠ w))).length = (vs.toFinset \ S).card := by
        rw [Nat.zero_add, List.filter_reverse, List.length_reverse, ← hn]; rfl
      rw [hcount, Finset.length_sort] at hcl
      rw [Faulty.bind_eq_ok (look_eq hcl)]
      exact bind_eq_error (onBuf_abort (reserve_refused c h _ hf))
  · have hdb := hd.resolve_right hv
    exact bind_eq_error (look_abort (by rw [hdb, unsorted_debug hv]; rfl))

theorem quiet_eq {α : Type} (h : HoldsSet limit S s) (f : SortedArr T → R (SortedArr T × α)) :
    quiet f s = match f { buf := s.buf, size := S.card } with
      | .ok (a, x) => .ok x { s with buf := a.buf, dim := (a.size : Int) }
      | .error .abort => .error .handler s
      | .error (.ub u) => .error (.ub u) s := by
  exact Faulty.bind_eq_ok h.size

/-- With all checks compiled in, or where the checks that are always compiled in suffice, a call that is not allowed is
refused. -/
theorem call_refused [Inhabited T] (c : Cfg) (throws : Nat → Bool) (hb : c.boundsCheck = true) (hd : c.debug = true)
    (h : HoldsSet limit S s) (op : SetOp T) (hs : Spec.setStep limit S op = none) :
    call c throws op s = .error .handler s := by
  have hq : ∀ f : SortedArr T → R (SortedArr T × SetOut T), f { buf := s.buf, size := S.card } = .error .abort →
      quiet f s = .error .handler s := by
    intro f hf
    rw [quiet_eq h, hf]
  cases op with
  | insert v =>
    simp only [Spec.setStep, ite_eq_right_iff, reduceCtorEq, imp_false] at hs
    exact bind_eq_error (insert_refused c throws h v hs)
  | insertMany vs =>
    simp only [Spec.setStep, ite_eq_right_iff, reduceCtorEq, imp_false] at hs
    exact bind_eq_error (insertMany_refused c throws h vs (.inl hd) hs)
  | remove v => cases hs
  | removeMany vs =>
    simp only [Spec.setStep, ite_eq_right_iff, reduceCtorEq, imp_false] at hs
    refine hq (fun a => a.step c (.removeMany vs)) ?_
    have ha := assert_plain c h
    simp only [SortedArr.step, SortedArr.removeMany, removeRange]
    rw [show assertRange c ((SortedArr.target c S.card).read s.buf) S.card (isSortedUnique less) = .ok () from ha, bind_ok,
      hd, unsorted_debug hs]
    rfl
  | contains v => cases hs
  | get i =>
    refine hq (fun a => a.step c (.get i)) ?_
    have hi : ¬ (0 ≤ i ∧ i < S.card) := by
      intro hi
      have hlt : i.toNat < (S.sort (· ≤ ·)).length := by simp; omega
      simp only [Spec.setStep, if_pos hi, List.getElem?_eq_getElem hlt] at hs
      cases hs
    simp only [SortedArr.step, SortedArr.get, hb, Bool.true_and]
    have : (decide (i < 0) || decide ((S.card : Int) ≤ i)) = true := by
      simp only [Bool.or_eq_true, decide_eq_true_eq]; omega
    rw [this]
    rfl
  | reserve n =>
    simp only [Spec.setStep, ite_eq_right_iff, reduceCtorEq, imp_false] at hs
    refine hq (fun a => a.step c (.reserve n)) ?_
    have hr : ¬ s.buf.room n.toNat := fun hr => hs ((Good.room h.plain _).mp hr)
    have hc : S.card ≤ s.buf.cap := by simpa using h.plain.rep.2
    simp only [SortedArr.step, SortedArr.reserve, bufferManipulation.reserve_abort c hc _ hr]
    rfl
  | clear => cases hs

/-- A call that is allowed returns what the specification says, or an element throws. -/
theorem call_allowed [Inhabited T] (c : Cfg) (throws : Nat → Bool) (h : HoldsSet limit S s) (op : SetOp T) {S' : Finset T}
    {o : SetOut T} (hs : Spec.setStep limit S op = some (S', o)) :
    (∃ s', call c throws op s = .ok o s' ∧ HoldsSet limit S' s') ∨
      ∃ s', call c throws op s = .error .element s' ∧ s'.dim = s.dim := by
  obtain ⟨a', e, g⟩ := SortedArr.step_good c h.plain op hs
  have hq : call c throws op = quiet (fun a => a.step c op) →
      ∃ s', call c throws op s = .ok o s' ∧ HoldsSet limit S' s' := by
    intro hc
    rw [hc, quiet_eq h, e]
    refine ⟨_, rfl, HoldsSet.mk _ _ ?_ ?_⟩
    · show (a'.size : Int) = _
      rw [g.size]
    · have := g.size
      rw [← this]
      exact g
  have key : ∀ (α : Type) (p : FProg T α) (r : R (Buf T × α)) (z : α → Nat) (w : α → SetOut T) (b : Buf T) (x : α),
      Shadow s p r → r = .ok (b, x) → a' = { buf := b, size := S.card + z x } → o = w x →
      (∃ s', ((do let n ← size; let y ← p; setDim ((n + z y : Nat) : Int); pure y) >>= fun y => (pure (w y) : FProg T (SetOut T))) s = .ok o s' ∧
        HoldsSet limit S' s') ∨
      ∃ s', ((do let n ← size; let y ← p; setDim ((n + z y : Nat) : Int); pure y) >>= fun y => (pure (w y) : FProg T (SetOut T))) s = .error .element s' ∧
        s'.dim = s.dim := by
    intro α p r z w b x hsh hr ha ho
    unfold Shadow at hsh
    rcases hp : p s with ⟨y, s'⟩ | ⟨_ | _ | u, s'⟩ <;> simp only [hp] at hsh
    · left
      rw [hr] at hsh
      have hxy := hsh.1
      simp only [Except.ok.injEq, Prod.mk.injEq] at hxy
      obtain ⟨hb, rfl⟩ := hxy
      refine ⟨{ s' with dim := ((S.card + z x : Nat) : Int) }, ?_, ?_⟩
      · refine (Faulty.bind_eq_ok (x := x) (s1 := { s' with dim := ((S.card + z x : Nat) : Int) }) ?_).trans ?_
        · rw [Faulty.bind_eq_ok h.size, Faulty.bind_eq_ok hp]
          rfl
        · rw [ho]; rfl
      · have hsz := g.size
        rw [ha] at hsz g
        simp only at hsz
        refine HoldsSet.mk _ _ ?_ ?_
        · show ((S.card + z x : Nat) : Int) = _
          rw [hsz]
        · rw [← hsz, ← hb]
          exact g
    · right
      exact ⟨s', bind_eq_error (by rw [Faulty.bind_eq_ok h.size]; exact bind_eq_error hp), hsh⟩
    · rw [hr] at hsh; cases hsh
    · rw [hr] at hsh; cases hsh
  cases op with
  | insert v =>
    simp only [SortedArr.step, SortedArr.insert] at e
    rcases hr : sortedArrayManipulation.insertOne c (SortedArr.target c S.card) s.buf S.card v with er | ⟨b, x⟩
    · rw [hr] at e; cases e
    · rw [hr] at e
      simp only [bind_ok, Except.ok.injEq, Prod.mk.injEq] at e
      exact key Bool (insertOne c throws S.card v) _ (fun x => if x then 1 else 0) .bool b x
        (shadow_insertOne c throws S.card v s) hr e.1.symm e.2.symm |>.imp
        (fun ⟨s', q, q'⟩ => ⟨s', by
          rw [← q]
          show ((insert c throws v) >>= _) s = _
          unfold insert
          simp only [bind_assoc]
          rw [Faulty.bind_eq_ok h.size, Faulty.bind_eq_ok h.size], q'⟩)
        (fun ⟨s', q, q'⟩ => ⟨s', by
          rw [← q]
          show ((insert c throws v) >>= _) s = _
          unfold insert
          simp only [bind_assoc]
          rw [Faulty.bind_eq_ok h.size, Faulty.bind_eq_ok h.size], q'⟩)
  | insertMany vs =>
    simp only [SortedArr.step, SortedArr.insertMany] at e
    rcases hr : sortedArrayManipulation.insertRange c (SortedArr.target c S.card) s.buf S.card vs with er | ⟨b, x⟩
    · rw [hr] at e; cases e
    · rw [hr] at e
      simp only [bind_ok, Except.ok.injEq, Prod.mk.injEq] at e
      exact key Nat (insertRange c throws S.card vs) _ (fun x => x) .num b x
        (shadow_insertRange c throws S.card vs s) hr e.1.symm e.2.symm |>.imp
        (fun ⟨s', q, q'⟩ => ⟨s', by
          rw [← q]
          show ((insertMany c throws vs) >>= _) s = _
          unfold insertMany
          simp only [bind_assoc]
          rw [Faulty.bind_eq_ok h.size, Faulty.bind_eq_ok h.size], q'⟩)
        (fun ⟨s', q, q'⟩ => ⟨s', by
          rw [← q]
          show ((insertMany c throws vs) >>= _) s = _
          unfold insertMany
          simp only [bind_assoc]
          rw [Faulty.bind_eq_ok h.size, Faulty.bind_eq_ok h.size], q'⟩)
  | remove v => exact .inl (hq rfl)
  | removeMany vs => exact .inl (hq rfl)
  | contains v => exact .inl (hq rfl)
  | get i => exact .inl (hq rfl)
  | reserve n => exact .inl (hq rfl)
  | clear => exact .inl (hq rfl)

theorem element_threw (c : Cfg) (throws : Nat → Bool) (f : Buf T → R (Buf T)) {s s' : Faulty T}
    (h : element c throws f s = .error .element s') :
    c.trivial = false ∧ throws s.count = true ∧ s' = { s with count := s.count + 1 } := by
  unfold element at h
  split at h
  · rename_i hc
    simp only [Bool.and_eq_true, Bool.not_eq_true'] at hc
    cases h
    exact ⟨hc.1, hc.2, rfl⟩
  · unfold onBuf at h
    simp only at h
    rcases hf : f s.buf with (_ | u) | b <;> rw [hf] at h <;> cases h

/-- The state in which a single insertion that throws leaves the array: the values above the new one have been moved up by
one. -/
theorem insert_threw (c : Cfg) (throws : Nat → Bool) (h : HoldsSet limit S s) (v : T) (hv : v ∉ S)
    (hf : Spec.fits limit (S.card + 1)) :
    ∃ f1 f2 b b', S.sort (· ≤ ·) = f1 ++ f2 ∧ (∀ x ∈ f1, x < v) ∧ (∀ x ∈ f2, v ≤ x) ∧
      SGood limit { buf := b, size := S.card } S ∧ S.card + 1 ≤ b.cap ∧
      arrayManipulation.shiftUp c b 0 S.card f1.length 1 = .ok b' ∧ b'.cap = b.cap ∧
      (f2 ≠ [] → b'.cell f1.length = .raw) ∧
      ∀ t, insertOne c throws S.card v s = .error .element t ↔
        (c.trivial = false ∧ throws s.count = true ∧ t = { s with buf := b', count := s.count + 1 }) := by
  obtain ⟨f1, f2, hx, hp, k1, k2⟩ := place_eq c h v
  have hlen : f1.length + f2.length = S.card := by rw [← List.length_append, ← hx]; simp
  obtain ⟨b, hb, hkind, hlost, hcap, hst, hrep⟩ := SortedArr.grow c h.plain 1 hf
  have hb' : bufferManipulation.dynamicReserve c s.buf S.card (S.card + 1) = .ok b := hb
  have hsh := arrayManipulation.shiftUp_eq c b 0 S.card f1.length 1 (by omega) (by omega) (by
    intro k _ hk
    rw [hrep.1, cellsOf_lt (show k < (S.sort (· ≤ ·)).length by simp; omega)]; rfl) (by
    intro k hk _
    rw [hrep.1]
    exact cellsOf_ge (by simp; omega))
  refine ⟨f1, f2, b, _, hx, k1, k2, Good.mk' h.plain (by simp) hkind hlost hrep.1 hrep.2 hst, hcap, hsh, rfl, ?_, ?_⟩
  · intro h2
    have := List.length_pos_iff.mpr h2
    simp only [Nat.zero_add]
    grind
  · intro t
    unfold insertOne
    rw [Faulty.bind_eq_ok (look_eq hp)]
    simp only [hv, decide_false, Bool.false_eq_true, if_false]
    rw [Faulty.bind_eq_ok (onBuf_eq hb'), Faulty.bind_eq_ok (checking_eq (by
        simp only [arrayManipulation.assertNonNull, errorIf]
        rw [if_neg]; simp only [Bool.and_eq_true, beq_iff_eq]; omega)),
      Faulty.bind_eq_ok (checking_eq (arrayManipulation.checkInsertBounds_ok c _ _ (by omega))),
      Faulty.bind_eq_ok (onBuf_eq hsh)]
    constructor
    · intro ht
      generalize hs1 : ({ s with buf := _ } : Faulty T) = s1 at ht
      rcases hel : element c throws (fun x => x.construct c (0 + f1.length) v) s1 with ⟨y, s2⟩ | ⟨e, s2⟩
      · rw [Faulty.bind_eq_ok hel] at ht
        cases ht
      · rw [bind_eq_error hel] at ht
        cases ht
        obtain ⟨h1, h2, rfl⟩ := element_threw c throws _ hel
        subst hs1
        exact ⟨h1, h2, rfl⟩
    · rintro ⟨h1, h2, rfl⟩
      exact bind_eq_error (element_throw c h1 _ h2)

/-- A single insertion above all values that throws changes nothing. -/
theorem insert_harmless (c : Cfg) (throws : Nat → Bool) (h : HoldsSet limit S s) (v : T) (hv : ∀ x ∈ S, x < v)
    (hf : Spec.fits limit (S.card + 1)) {t : Faulty T} (ht : insertOne c throws S.card v s = .error .element t) :
    HoldsSet limit S t := by
  obtain ⟨f1, f2, b, b', hx, k1, k2, g, hcap, hsh, -, -, hiff⟩ :=
    insert_threw c throws h v (fun hm => absurd (hv v hm) (lt_irrefl v)) hf
  have h2 : f2 = [] := by
    cases f2 with
    | nil => rfl
    | cons x f2 =>
      have hm : x ∈ S := by
        have : x ∈ S.sort (· ≤ ·) := by rw [hx]; simp
        simpa using this
      exact absurd (lt_of_lt_of_le (hv x hm) (k2 x (by simp))) (lt_irrefl x)
  have hlen : f1.length = S.card := by
    have : (S.sort (· ≤ ·)).length = _ := congrArg List.length hx
    simp [h2] at this
    omega
  rw [hlen, shiftUp_end] at hsh
  cases hsh
  obtain ⟨-, -, rfl⟩ := (hiff t).mp ht
  exact HoldsSet.mk _ _ h.dim g

/-- A range inserted into an empty set of which the `k`-th value throws. -/
theorem fill_throw [Inhabited T] (c : Cfg) (ht : c.trivial = false) {throws : Nat → Bool} (h : HoldsSet limit (∅ : Finset T) s)
    (vs : List T) (hv : Spec.sortedUnique vs) (k : Nat) (hk : k < vs.length)
    (hq : ∀ j, j < k → throws (s.count + j) = false) (hthrow : throws (s.count + k) = true) (hf : Spec.fits limit vs.length) :
    ∃ s', insertMany c throws vs s = .error .element s' ∧ s'.dim = 0 ∧ s'.buf.cell = cellsOf (vs.take k) ∧
      vs.length ≤ s'.buf.cap ∧ s'.buf.kind = s.buf.kind ∧ s'.buf.lostLive = s.buf.lostLive := by
  obtain ⟨b, hb, hkind, hlost, hcap, hst, hrep⟩ := SortedArr.grow c h.plain vs.length (by simpa using hf)
  have hb' : bufferManipulation.dynamicReserve c s.buf 0 (0 + vs.length) = .ok b := by
    rw [Finset.card_empty] at hb
    exact hb
  have hcell : b.cell = cellsOf ([] : List T) := by simpa using hrep.1
  simp only [Finset.card_empty, Nat.zero_add] at hcap
  have hsz : Faulty.size s = .ok 0 s := by simpa using h.size
  have ha := assert_plain c h
  simp only [Finset.card_empty] at ha
  have hcr := arrayManipulation.constructRange_eq c b 0 k (fun j => vs.getD j default) (.inr (by omega)) (by
    intro j _ _
    rw [hcell]
    exact cellsOf_ge (by simp))
  unfold insertMany
  rw [Faulty.bind_eq_ok hsz]
  unfold insertRange
  have hin : (do
      look (fun b => assertRange c (fun i => b.read (0 + i)) 0 (isSortedUnique less))
      look (fun _ => errorIf (c.debug && !isSortedUnique less vs))
      if (0 : Nat) = 0 then do
        onBuf (bufferManipulation.dynamicReserve c · 0 (0 + vs.length))
        loop vs.length 0 (fun i => element c throws (·.construct c (0 + i) (vs.getD i default)))
        pure vs.length
      else do
        let nToInsert ← look (fun b => countLoop c (fun i => b.read (0 + i)) 0 vs.reverse 0 0)
        onBuf (bufferManipulation.dynamicReserve c · 0 (0 + nToInsert))
        if nToInsert = 0 then pure 0
        else do
          insertLoop c throws vs.reverse 0 nToInsert
          pure nToInsert : FProg T Nat) s = .error .element { s with
            buf := { b with cell := fun j => if 0 ≤ j ∧ j < 0 + k then .live (vs.getD (j - 0) default) else b.cell j },
            count := s.count + k + 1 } := by
    rw [Faulty.bind_eq_ok (look_eq ha), Faulty.bind_eq_ok (look_eq (x := ()) (by
      rw [isSortedUnique_keys hv, Bool.not_true, Bool.and_false]; rfl)), if_pos rfl,
      Faulty.bind_eq_ok (onBuf_eq hb')]
    refine bind_eq_error ?_
    have hl := loop_throw c ht throws (fun i b => b.construct c (0 + i) (vs.getD i default)) k vs.length 0 { s with buf := b } _
      hk (by exact hq) (by exact hthrow) (by
        rw [← hcr]
        simp only [arrayManipulation.constructRange, Nat.zero_add, Nat.sub_zero])
    exact hl
  rw [bind_eq_error hin]
  refine ⟨_, rfl, by simpa using h.dim, ?_, hcap, hkind, hlost⟩
  simp only
  rw [hcell]
  funext j
  simp only [cellsOf, List.getElem?_take]
  by_cases h2 : j < k
  · rw [if_pos (by omega), if_pos h2]
    simp [List.getD, List.getElem?_eq_getElem (show j < vs.length by omega)]
  · rw [if_neg (by omega), if_neg h2]
    simp

/-! ## Ranges -/

/-- Values that are present are skipped. -/
theorem insertLoop_present (c : Cfg) (throws : Nat → Bool) (xs : List T) (hx : Increasing id xs)
    (hread : ∀ i (hi : i < xs.length), s.buf.read (0 + i) = .ok xs[i]) : ∀ (vs : List T), (∀ v ∈ vs, v ∈ xs) → ∀ nLeft : Nat,
      insertLoop c throws vs xs.length nLeft s = .ok () s
  | [], _, _ => rfl
  | v :: vs, hm, nLeft => by
    have hread' : ∀ i (hi : i < xs.length), (fun i => s.buf.read (0 + i)) i = .ok (id xs[i]) := hread
    obtain ⟨f1, f2, hxs, hpos, k1, k2⟩ := find_split c id (fun i => s.buf.read (0 + i)) xs v hx hread'
    have hv : v ∈ f1 ++ f2 := by rw [← hxs]; exact hm v (by simp)
    have hat : isAt (fun i => s.buf.read (0 + i)) xs.length f1.length v = .ok true := by
      have hx' := hx
      have hr2 := hread'
      rw [hxs] at hr2 hx' ⊢
      rw [present_eq id _ f1 f2 v hr2 k2 hx', decide_eq_true]
      rcases List.mem_append.mp hv with h | h
      · exact absurd (k1 v h) (lt_irrefl v)
      · exact ⟨v, h, rfl⟩
    unfold insertLoop
    rw [Faulty.bind_eq_ok (look_eq (x := (f1.length, true)) (by rw [hpos, bind_ok, hat, bind_ok]))]
    exact insertLoop_present c throws xs hx hread vs (fun w hw => hm w (by simp [hw])) nLeft

/-- A range whose last value is new, inserted into a set that is not empty: the values above the last one are moved up, then the
last one is constructed. -/
theorem insertRange_last [Inhabited T] (c : Cfg) (throws : Nat → Bool) (h : HoldsSet limit S s) (us : List T) (v : T)
    (hv : Spec.sortedUnique (us ++ [v])) (hn : v ∉ S) (hS : S.card ≠ 0) (k : Nat) (hk : k = ((us ++ [v]).toFinset \ S).card)
    (hf : Spec.fits limit (S.card + k)) :
    ∃ f1 f2 b b', S.sort (· ≤ ·) = f1 ++ f2 ∧ (∀ x ∈ f1, x < v) ∧ (∀ x ∈ f2, v ≤ x) ∧
      SGood limit { buf := b, size := S.card } S ∧ S.card + k ≤ b.cap ∧ Rep b (S.sort (· ≤ ·)) ∧ 0 < k ∧
      arrayManipulation.shiftUp c b 0 S.card f1.length k = .ok b' ∧ b'.cap = b.cap ∧ b'.cell f1.length = .raw ∧
      insertRange c throws S.card (us ++ [v]) s =
        (do
          element c throws (fun b => if f1.length + k = 0 then .error (.ub .outOfBounds) else
            b.construct c (0 + (f1.length + k - 1)) v)
          insertLoop c throws us.reverse f1.length (k - 1)
          pure k : FProg T Nat) { s with buf := b' } := by
  have hkpos : 0 < k := by
    rw [hk]
    exact Finset.card_pos.mpr ⟨v, by simp [hn]⟩
  have hnc := SortedArr.newCount_card S (us ++ [v]) hv
  obtain ⟨b, hb, hkind, hlost, hcap, hst, hrep⟩ := SortedArr.grow c h.plain k hf
  have hb' : bufferManipulation.dynamicReserve c s.buf S.card (S.card + k) = .ok b := hb
  have hread : ∀ i (hi : i < (S.sort (· ≤ ·)).length), (fun i => b.read (0 + i)) i = .ok (id (S.sort (· ≤ ·))[i]) := by
    intro i hi
    simp only [Nat.zero_add]
    exact bufferManipulation.read_rep hrep i hi
  have hinc := sort_increasing S
  have hl : (S.sort (· ≤ ·)).length = S.card := by simp
  obtain ⟨f1, f2, hx, hpos, k1, k2⟩ := find_split c id (fun i => b.read (0 + i)) (S.sort (· ≤ ·)) v hinc hread
  have hlen : f1.length + f2.length = S.card := by rw [← List.length_append, ← hx]; simp
  rw [hl] at hpos
  have hat : isAt (fun i => b.read (0 + i)) S.card f1.length v = .ok false := by
    rw [← hl]
    have hnm : v ∉ f1 ++ f2 := by rw [← hx]; simpa using hn
    rw [hx] at hread hinc ⊢
    rw [present_eq id _ f1 f2 v hread k2 hinc, decide_eq_false]
    rintro ⟨x, h2, rfl⟩
    exact hnm (by simp [h2])
  have hsh := arrayManipulation.shiftUp_eq c b 0 S.card f1.length k (by omega) (by omega) (by
    intro j _ hj
    rw [hrep.1, cellsOf_lt (show j < (S.sort (· ≤ ·)).length by simp; omega)]; rfl) (by
    intro j hj _
    rw [hrep.1]
    exact cellsOf_ge (by simp; omega))
  have hcl := countLoop_spec c id (fun i => s.buf.read (0 + i)) (S.sort (· ≤ ·)) (sort_increasing S)
    (fun i hi => SortedArr.read_target c h.plain S.card i hi) (us ++ [v]).reverse (S.sort (· ≤ ·)) [] 0
    (by simp) (by simp) (List.pairwise_reverse.mpr hv)
  have hcount : 0 + ((us ++ [v]).reverse.filter (fun w => decide (∀ x ∈ S.sort (· ≤ ·), id x ≠ w))).length = k := by
    rw [Nat.zero_add, List.filter_reverse, List.length_reverse, hk, ← hnc]; rfl
  rw [hcount, Finset.length_sort] at hcl
  refine ⟨f1, f2, b, _, hx, k1, k2, Good.mk' h.plain (by simp) hkind hlost hrep.1 hrep.2 hst, hcap, hrep, hkpos, hsh, rfl, ?_, ?_⟩
  · simp only [Nat.zero_add]
    rw [if_neg (by omega), if_pos (by omega)]
  · unfold insertRange
    rw [Faulty.bind_eq_ok (look_eq (assert_plain c h)), Faulty.bind_eq_ok (look_eq (x := ()) (by
      rw [isSortedUnique_keys hv, Bool.not_true, Bool.and_false]; rfl)), if_neg hS, Faulty.bind_eq_ok (look_eq hcl),
      Faulty.bind_eq_ok (onBuf_eq hb'), if_neg (by omega)]
    rw [show (us ++ [v]).reverse = v :: us.reverse by simp]
    rw [insertLoop]
    simp only [bind_assoc]
    rw [Faulty.bind_eq_ok (look_eq (x := (f1.length, false)) (by simp only; rw [hpos, bind_ok, hat, bind_ok]))]
    simp only [Bool.false_eq_true, if_false, bind_assoc]
    rw [Faulty.bind_eq_ok (onBuf_eq hsh)]

/-- A range with one new value, above all others, that throws changes nothing. -/
theorem insertRange_harmless [Inhabited T] (c : Cfg) (throws : Nat → Bool) (h : HoldsSet limit S s) (vs : List T)
    (hv : Spec.sortedUnique vs) (hone : ∃ v, vs.toFinset \ S = {v} ∧ ∀ x ∈ S, x < v)
    (hf : Spec.fits limit (S.card + 1)) {t : Faulty T} (ht : insertRange c throws S.card vs s = .error .element t) :
    HoldsSet limit S t := by
  obtain ⟨v, hd, habove⟩ := hone
  have hn : v ∉ S := fun hm => absurd (habove v hm) (lt_irrefl v)
  have hvm : v ∈ vs := by
    have : v ∈ vs.toFinset \ S := by rw [hd]; simp
    simp at this
    exact this.1
  have hothers : ∀ w ∈ vs, w = v ∨ w ∈ S := by
    intro w hw
    by_cases hwS : w ∈ S
    · exact .inr hwS
    · left
      have : w ∈ vs.toFinset \ S := by simp [hw, hwS]
      rw [hd] at this
      simpa using this
  obtain ⟨us, ws, rfl⟩ := List.append_of_mem hvm
  have hws : ws = [] := by
    cases ws with
    | nil => rfl
    | cons w ws =>
      have hlt : v < w := by
        have := (List.pairwise_append.mp hv).2.1
        exact (List.pairwise_cons.mp this).1 w (by simp)
      rcases hothers w (by simp) with rfl | hw
      · exact absurd hlt (lt_irrefl _)
      · exact absurd (lt_trans hlt (habove w hw)) (lt_irrefl v)
  subst hws
  have hus : ∀ w ∈ us, w ∈ S := by
    intro w hw
    rcases hothers w (by simp [hw]) with rfl | hw'
    · have := (List.pairwise_append.mp hv).2.2 w hw w (by simp)
      exact absurd this (lt_irrefl _)
    · exact hw'
  by_cases hS : S.card = 0
  · have hS0 := Finset.card_eq_zero.mp hS
    subst hS0
    have hus0 : us = [] := by
      cases us with
      | nil => rfl
      | cons w us => exact absurd (hus w (by simp)) (by simp)
    subst hus0
    obtain ⟨b, hb, hkind, hlost, hcap, hst, hrep⟩ := SortedArr.grow c h.plain 1 hf
    have hb' : bufferManipulation.dynamicReserve c s.buf (∅ : Finset T).card ((∅ : Finset T).card + 1) = .ok b := hb
    unfold insertRange at ht
    rw [Faulty.bind_eq_ok (look_eq (assert_plain c h)), Faulty.bind_eq_ok (look_eq (x := ()) (by
      rw [isSortedUnique_keys hv, Bool.not_true, Bool.and_false]; rfl)), if_pos hS] at ht
    simp only [List.nil_append, List.length_cons, List.length_nil, Nat.zero_add] at ht
    rw [Faulty.bind_eq_ok (onBuf_eq hb')] at ht
    simp only [loop, bind_assoc] at ht
    rcases hel : element c throws (fun x => x.construct c 0 (([v] : List T).getD 0 default)) ({ s with buf := b } : Faulty T)
      with ⟨y, s2⟩ | ⟨e, s2⟩
    · rw [Faulty.bind_eq_ok hel] at ht
      cases ht
    · rw [bind_eq_error hel] at ht
      cases ht
      obtain ⟨-, -, rfl⟩ := element_threw c throws _ hel
      exact HoldsSet.mk _ _ h.dim (Good.mk' h.plain (by simp) hkind hlost hrep.1 hrep.2 hst)
  · obtain ⟨f1, f2, b, b', hx, k1, k2, g, hcap, hrep, -, hsh, -, -, heq⟩ :=
      insertRange_last c throws h us v hv hn hS 1 (by rw [hd]; simp) hf
    have h2 : f2 = [] := by
      cases f2 with
      | nil => rfl
      | cons x f2 =>
        have hm : x ∈ S := by
          have : x ∈ S.sort (· ≤ ·) := by rw [hx]; simp
          simpa using this
        exact absurd (lt_of_lt_of_le (habove x hm) (k2 x (by simp))) (lt_irrefl x)
    subst h2
    rw [List.append_nil] at hx
    have hlen : f1.length = S.card := by rw [← hx]; simp
    rw [hlen, shiftUp_end] at hsh
    cases hsh
    rw [heq] at ht
    rcases hel : element c throws (fun b => if f1.length + 1 = 0 then .error (.ub .outOfBounds) else
            b.construct c (0 + (f1.length + 1 - 1)) v) ({ s with buf := b } : Faulty T) with ⟨y, s2⟩ | ⟨e, s2⟩
    · rw [Faulty.bind_eq_ok hel] at ht
      exfalso
      have hs2 : ∀ i (hi : i < f1.length), s2.buf.read (0 + i) = .ok f1[i] := by
        intro i hi
        have hcons : b.construct c f1.length v = .ok s2.buf := by
          have := shadow_element c throws ({ s with buf := b } : Faulty T) (fun b => if f1.length + 1 = 0 then .error (.ub .outOfBounds) else
            b.construct c (0 + (f1.length + 1 - 1)) v)
          unfold Shadow at this
          rw [hel] at this
          have h1 := this.1
          simp only [Nat.zero_add, Nat.add_sub_cancel] at h1
          rw [if_neg (by omega)] at h1
          rcases hc : b.construct c f1.length v with e | b2
          · rw [hc] at h1; cases h1
          · rw [hc] at h1
            cases h1
            rfl
        have hr : b.read i = .ok f1[i] := by
          have := bufferManipulation.read_rep hrep i (by rw [hx]; exact hi)
          rw [this]
          congr 1
          simp only [hx]
        rw [arrayManipulation.construct_eq c b _ v (by omega) (by
          rw [hrep.1]
          exact cellsOf_ge (by rw [hx]))] at hcons
        cases hs2b : s2.buf
        rw [hs2b] at hcons
        cases hcons
        rw [Nat.zero_add, ← hr]
        unfold Buf.read
        simp only [upd, if_neg (show ¬ i = f1.length by omega)]
      have hinc : Increasing id f1 := by rw [← hx]; exact sort_increasing S
      rw [Faulty.bind_eq_ok (insertLoop_present c throws f1 hinc hs2 us.reverse (by
        intro w hw
        rw [← hx]
        simpa using hus w (by simpa using hw)) _)] at ht
      cases ht
    · rw [bind_eq_error hel] at ht
      cases ht
      obtain ⟨-, -, rfl⟩ := element_threw c throws _ hel
      exact HoldsSet.mk _ _ h.dim g

/-- The search for a value in the second pass. -/
theorem insertLoop_look (c : Cfg) (xs : List T) (w : T) (hx : Increasing id xs)
    (hlive : ∀ i (hi : i < xs.length), s.buf.cell i = .live xs[i]) (hcap : xs.length ≤ s.buf.cap) :
    ∃ f1 f2, xs = f1 ++ f2 ∧ (∀ x ∈ f1, x < w) ∧ (∀ x ∈ f2, w ≤ x) ∧
      look (fun b => do
        let pos ← find c less (fun i => b.read (0 + i)) xs.length w
        let present ← isAt (fun i => b.read (0 + i)) xs.length pos w
        .ok (pos, present)) s = .ok (f1.length, decide (w ∈ xs)) s := by
  have hread : ∀ i (hi : i < xs.length), (fun i => s.buf.read (0 + i)) i = .ok (id xs[i]) := by
    intro i hi
    simp only [Nat.zero_add, id]
    unfold Buf.read
    rw [if_pos (by omega), hlive i hi]
  obtain ⟨f1, f2, hxs, hpos, k1, k2⟩ := find_split c id (fun i => s.buf.read (0 + i)) xs w hx hread
  have hat : isAt (fun i => s.buf.read (0 + i)) xs.length f1.length w = .ok (decide (w ∈ xs)) := by
    rw [hxs] at hread hx ⊢
    rw [present_eq id _ f1 f2 w hread k2 hx]
    congr 1
    rw [decide_eq_decide]
    constructor
    · rintro ⟨x, h, rfl⟩; simp [h]
    · intro h
      rcases List.mem_append.mp h with h | h
      · exact absurd (k1 w h) (lt_irrefl w)
      · exact ⟨w, h, rfl⟩
  exact ⟨f1, f2, hxs, k1, k2, look_eq (by rw [hpos, bind_ok, hat, bind_ok])⟩

theorem shiftUp_gap (c : Cfg) (b : Buf T) (size index n : Nat) (hi : index ≤ size) (hcap : size + n ≤ b.cap)
    (hl : ∀ k, index ≤ k → k < size → (b.cell k).isLive = true) (hr : ∀ k, size ≤ k → k < size + n → b.cell k = .raw) :
    ∃ b', arrayManipulation.shiftUp c b 0 size index n = .ok b' ∧ b'.cap = b.cap ∧ b'.kind = b.kind ∧ b'.lostLive = b.lostLive ∧
      ∀ k, b'.cell k = if k < index then b.cell k else if k < index + n then .raw
        else if k < size + n then b.cell (k - n) else b.cell k := by
  refine ⟨_, arrayManipulation.shiftUp_eq c b 0 size index n hi (by omega) (fun k h1 h2 => hl k (by omega) (by omega))
    (fun k h1 h2 => hr k (by omega) (by omega)), rfl, rfl, rfl, fun k => ?_⟩
  simp only [Nat.zero_add]

/-- The second pass when the copy of `v` throws. -/
theorem insertLoop_throw (c : Cfg) (ht : c.trivial = false) (throws : Nat → Bool) (v : T) (lo : List T) :
    ∀ (hi xs : List T) (nLeft : Nat) (s : Faulty T), Increasing id xs → (hi ++ [v]).Pairwise (· > ·) → v ∉ xs →
    (∀ i (hi : i < xs.length), s.buf.cell i = .live xs[i]) →
    (∀ j, xs.length ≤ j → j < xs.length + nLeft → s.buf.cell j = .raw) → xs.length + nLeft ≤ s.buf.cap →
    (hi.filter (fun w => decide (w ∉ xs))).length < nLeft →
    (∀ j, j < (hi.filter (fun w => decide (w ∉ xs))).length → throws (s.count + j) = false) →
    throws (s.count + (hi.filter (fun w => decide (w ∉ xs))).length) = true →
    ∃ t, insertLoop c throws (hi ++ v :: lo) xs.length nLeft s = .error .element t ∧ t.dim = s.dim ∧ t.buf.cap = s.buf.cap ∧
      t.buf.kind = s.buf.kind ∧ t.buf.lostLive = s.buf.lostLive ∧
      t.buf.cell (xs.filter (fun x => decide (x < v))).length = .raw ∧
      ((∀ x ∈ xs, x < v) → ∀ j,
        (j < xs.length + nLeft - (hi.filter (fun w => decide (w ∉ xs))).length → t.buf.cell j = s.buf.cell j) ∧
        (xs.length + nLeft - (hi.filter (fun w => decide (w ∉ xs))).length ≤ j → j < xs.length + nLeft →
          ∃ w, t.buf.cell j = .live w) ∧
        (xs.length + nLeft ≤ j → t.buf.cell j = s.buf.cell j))
  | [], xs, nLeft, s, hx, _, hv, hlive, hraw, hcap, hlt, _, hthrow => by
    obtain ⟨f1, f2, hxs, k1, k2, hlook⟩ := insertLoop_look c xs v hx hlive (by omega)
    rw [decide_eq_false hv] at hlook
    have hl : xs.length = f1.length + f2.length := by rw [hxs, List.length_append]
    obtain ⟨b, hsh, hbc, hbk, hbl, hcell⟩ := shiftUp_gap c s.buf xs.length f1.length nLeft (by omega) (by omega)
      (by intro j _ hj; rw [hlive j (by omega)]; rfl) (by intro j h1 h2; exact hraw j (by omega) (by omega))
    have hfil : xs.filter (fun x => decide (x < v)) = f1 := by
      rw [hxs, List.filter_append, List.filter_eq_self.mpr (fun x hm => by simpa using k1 x hm),
        List.filter_eq_nil_iff.mpr (fun x hm => by simpa using k2 x hm), List.append_nil]
    simp only [List.filter_nil, List.length_nil, Nat.add_zero, Nat.sub_zero] at hlt hthrow ⊢
    rw [List.nil_append, insertLoop]
    refine ⟨{ s with buf := b, count := s.count + 1 }, (Faulty.bind_eq_ok hlook).trans ((Faulty.bind_eq_ok (onBuf_eq hsh)).trans
      (bind_eq_error (element_throw c ht _ (by exact hthrow)))), rfl, hbc, hbk, hbl, ?_, ?_⟩
    · rw [hfil]
      simp only
      rw [hcell, if_neg (by omega), if_pos (by omega)]
    · intro hall j
      have h2 : f2 = [] := by
        cases f2 with
        | nil => rfl
        | cons x f2 => exact absurd (lt_of_lt_of_le (hall x (by rw [hxs]; simp)) (k2 x (by simp))) (lt_irrefl x)
      subst h2
      simp only [List.length_nil, Nat.add_zero] at hl
      refine ⟨fun hj => ?_, fun h1 h2 => by omega, fun hj => ?_⟩
      · simp only
        rw [hcell]
        by_cases h1 : j < f1.length
        · rw [if_pos h1]
        · rw [if_neg h1, if_pos (by omega), hraw j (by omega) (by omega)]
      · simp only
        rw [hcell, if_neg (by omega), if_neg (by omega), if_neg (by omega)]
  | w :: hi, xs, nLeft, s, hx, hp, hv, hlive, hraw, hcap, hlt, hq, hthrow => by
    obtain ⟨f1, f2, hxs, k1, k2, hlook⟩ := insertLoop_look c xs w hx hlive (by omega)
    have hp' := List.pairwise_cons.mp (by simpa using hp : (w :: (hi ++ [v])).Pairwise (· > ·))
    have hwv : v < w := hp'.1 v (by simp)
    rw [List.cons_append, insertLoop]
    by_cases hw : w ∈ xs
    · rw [decide_eq_true hw] at hlook
      have hfe : (w :: hi).filter (fun w => decide (w ∉ xs)) = hi.filter (fun w => decide (w ∉ xs)) := by
        rw [List.filter_cons, if_neg (by simpa using hw)]
      rw [hfe] at hlt hq hthrow ⊢
      obtain ⟨t, e, h⟩ := insertLoop_throw c ht throws v lo hi xs nLeft s hx hp'.2 hv hlive hraw hcap hlt hq hthrow
      exact ⟨t, (Faulty.bind_eq_ok hlook).trans e, h⟩
    · rw [decide_eq_false hw] at hlook
      have hl : xs.length = f1.length + f2.length := by rw [hxs, List.length_append]
      have hsub : ∀ u, u < w → (u ∈ xs ↔ u ∈ f1) := by
        intro u hu
        rw [hxs, List.mem_append]
        exact ⟨fun h => h.elim id (fun h => absurd (lt_of_lt_of_le hu (k2 u h)) (lt_irrefl u)), .inl⟩
      have hfe : (w :: hi).filter (fun w => decide (w ∉ xs)) = w :: hi.filter (fun w => decide (w ∉ f1)) := by
        rw [List.filter_cons, if_pos (by simpa using hw)]
        congr 1
        refine List.filter_congr (fun u hu => ?_)
        rw [decide_eq_decide, hsub u (hp'.1 u (by simp [hu]))]
      have hfv : xs.filter (fun x => decide (x < v)) = f1.filter (fun x => decide (x < v)) := by
        have h2 : f2.filter (fun x => decide (x < v)) = [] :=
          List.filter_eq_nil_iff.mpr (fun x hm => by simpa using le_of_lt (lt_of_lt_of_le hwv (k2 x hm)))
        rw [hxs, List.filter_append, h2, List.append_nil]
      rw [hfe] at hlt hq hthrow ⊢
      simp only [List.length_cons] at hlt hq hthrow ⊢
      obtain ⟨b, hsh, hbc, hbk, hbl, hcell⟩ := shiftUp_gap c s.buf xs.length f1.length nLeft (by omega) (by omega)
        (by intro j _ hj; rw [hlive j (by omega)]; rfl) (by intro j h1 h2; exact hraw j (by omega) (by omega))
      have hcons := arrayManipulation.construct_eq c b (f1.length + nLeft - 1) w (by omega) (by
        rw [hcell, if_neg (by omega), if_pos (by omega)])
      have hel := element_quiet c (throws := throws) (s := ({ s with buf := b } : Faulty T)) (fun b =>
        if f1.length + nLeft = 0 then .error (.ub .outOfBounds) else b.construct c (0 + (f1.length + nLeft - 1)) w)
        (by have := hq 0 (by omega); exact this) (by
          simp only
          rw [if_neg (by omega), Nat.zero_add]
          exact hcons)
      obtain ⟨t, e, h1, h2, h3, h4, h5, h6⟩ := insertLoop_throw c ht throws v lo hi f1 (nLeft - 1)
        { s with buf := { b with cell := upd b.cell (f1.length + nLeft - 1) (.live w) }, count := s.count + 1 }
        (by rw [hxs] at hx; exact (List.pairwise_append.mp hx).1) hp'.2 (fun h => hv ((hsub v hwv).mpr h))
        (by
          intro i hi
          simp only [upd]
          rw [if_neg (by omega), hcell, if_pos hi, hlive i (by omega)]
          simp only [hxs]
          rw [List.getElem_append_left hi])
        (by
          intro j j1 j2
          simp only [upd]
          rw [if_neg (by omega), hcell, if_neg (by omega), if_pos (by omega)])
        (by simp only; omega) (by omega)
        (by
          intro j hj
          have := hq (j + 1) (by omega)
          simp only
          rw [show s.count + 1 + j = s.count + (j + 1) by omega]
          exact this)
        (by
          simp only
          rw [show ∀ m, s.count + 1 + m = s.count + (m + 1) by intro m; omega]
          exact hthrow)
      refine ⟨t, (Faulty.bind_eq_ok hlook).trans ((Faulty.bind_eq_ok (onBuf_eq hsh)).trans
        ((Faulty.bind_eq_ok hel).trans e)), h1, h2.trans hbc, h3.trans hbk, h4.trans hbl, by rw [hfv]; exact h5, ?_⟩
      intro hall j
      have hf2 : f2 = [] := by
        cases f2 with
        | nil => rfl
        | cons x f2 =>
          exact absurd (lt_trans hwv (lt_of_le_of_lt (k2 x (by simp)) (hall x (by rw [hxs]; simp)))) (lt_irrefl v)
      subst hf2
      simp only [List.length_nil, Nat.add_zero] at hl
      have hsame : ∀ j, b.cell j = s.buf.cell j := by
        intro j
        rw [hcell]
        by_cases j1 : j < f1.length
        · rw [if_pos j1]
        · rw [if_neg j1]
          by_cases j2 : j < f1.length + nLeft
          · rw [if_pos j2, hraw j (by omega) (by omega)]
          · rw [if_neg j2, if_neg (by omega)]
      obtain ⟨g1, g2, g3⟩ := h6 (fun x hx => hall x (by rw [hxs]; simp [hx])) j
      simp only [upd] at g1 g2 g3
      refine ⟨fun hj => ?_, fun j1 j2 => ?_, fun hj => ?_⟩
      · rw [g1 (by omega), if_neg (by omega), hsame]
      · by_cases j3 : j = f1.length + nLeft - 1
        · exact ⟨w, by rw [g3 (by omega), if_pos j3]⟩
        · exact g2 (by omega) (by omega)
      · rw [g3 (by omega), if_neg (by omega), hsame]

/-- A range inserted into a set that is not empty, when the copy of `v` throws. -/
theorem insertMany_threw [Inhabited T] (c : Cfg) (ht : c.trivial = false) (throws : Nat → Bool) (h : HoldsSet limit S s)
    (vs : List T) (hv : Spec.sortedUnique vs) (hS : S.card ≠ 0) (v : T) (hm : v ∈ vs) (hn : v ∉ S) (k m : Nat)
    (hk : k = (vs.toFinset \ S).card) (hmc : m = ((vs.toFinset \ S).filter (v < ·)).card) (hf : Spec.fits limit (S.card + k))
    (hq : ∀ j, j < m → throws (s.count + j) = false) (hthrow : throws (s.count + m) = true) :
    ∃ t, insertMany c throws vs s = .error .element t ∧ t.dim = S.card ∧ m < k ∧ S.card + k ≤ t.buf.cap ∧
      t.buf.kind = s.buf.kind ∧ t.buf.lostLive = s.buf.lostLive ∧
      t.buf.cell (S.filter (· < v)).card = .raw ∧
      ((∀ x ∈ S, x < v) → (m = 0 → HoldsSet limit S t) ∧ ∀ j,
        (j < S.card + k - m → t.buf.cell j = cellsOf (S.sort (· ≤ ·)) j) ∧
        (S.card + k - m ≤ j → j < S.card + k → ∃ w, t.buf.cell j = .live w) ∧
        (S.card + k ≤ j → t.buf.cell j = .raw)) := by
  have hmk : m < k := by
    rw [hk, hmc]
    refine Finset.card_lt_card ⟨Finset.filter_subset _ _, fun hs => ?_⟩
    have := hs (show v ∈ vs.toFinset \ S by simp [hm, hn])
    simp at this
  have hnc := SortedArr.newCount_card S vs hv
  obtain ⟨b, hb, hkind, hlost, hcap, hst, hrep⟩ := SortedArr.grow c h.plain k hf
  have hb' : bufferManipulation.dynamicReserve c s.buf S.card (S.card + k) = .ok b := hb
  have hl : (S.sort (· ≤ ·)).length = S.card := by simp
  have hcl := countLoop_spec c id (fun i => s.buf.read (0 + i)) (S.sort (· ≤ ·)) (sort_increasing S)
    (fun i hi => SortedArr.read_target c h.plain S.card i hi) vs.reverse (S.sort (· ≤ ·)) [] 0
    (by simp) (by simp) (List.pairwise_reverse.mpr hv)
  have hcount : 0 + (vs.reverse.filter (fun w => decide (∀ x ∈ S.sort (· ≤ ·), id x ≠ w))).length = k := by
    rw [Nat.zero_add, List.filter_reverse, List.length_reverse, hk, ← hnc]; rfl
  rw [hcount, Finset.length_sort] at hcl
  obtain ⟨us, ws, hvs⟩ := List.append_of_mem hm
  have hws : ∀ w ∈ ws, v < w := by
    intro w hw
    rw [hvs] at hv
    exact (List.pairwise_cons.mp (List.pairwise_append.mp hv).2.1).1 w hw
  have hus : ∀ w ∈ us, w < v := by
    intro w hw
    rw [hvs] at hv
    exact (List.pairwise_append.mp hv).2.2 w hw v (by simp)
  have hwp : ws.Pairwise (· < ·) := by
    rw [hvs] at hv
    exact (List.pairwise_cons.mp (List.pairwise_append.mp hv).2.1).2
  have hme : (ws.reverse.filter (fun w => decide (w ∉ S.sort (· ≤ ·)))).length = m := by
    rw [List.filter_reverse, List.length_reverse, hmc]
    have : (vs.toFinset \ S).filter (v < ·) = (ws.filter (fun w => decide (w ∉ S.sort (· ≤ ·)))).toFinset := by
      ext x
      simp only [Finset.mem_filter, Finset.mem_sdiff, List.mem_toFinset, List.mem_filter, Finset.mem_sort, decide_eq_true_eq]
      constructor
      · rintro ⟨⟨h1, h2⟩, h3⟩
        refine ⟨?_, h2⟩
        rw [hvs] at h1
        rcases List.mem_append.mp h1 with h1 | h1
        · exact absurd (lt_trans h3 (hus x h1)) (lt_irrefl v)
        · rcases List.mem_cons.mp h1 with rfl | h1
          · exact absurd h3 (lt_irrefl _)
          · exact h1
      · rintro ⟨h1, h2⟩
        exact ⟨⟨by rw [hvs]; simp [h1], h2⟩, hws x h1⟩
    rw [this, List.toFinset_card_of_nodup ((hwp.imp ne_of_lt).filter _)]
  obtain ⟨t, e, h1, h2, h3, h4, h5, h6⟩ := insertLoop_throw c ht throws v us.reverse ws.reverse (S.sort (· ≤ ·)) k
    { s with buf := b } (sort_increasing S) (by
      refine List.pairwise_append.mpr ⟨List.pairwise_reverse.mpr hwp, by simp, ?_⟩
      intro a ha d hd
      simp only [List.mem_singleton] at hd
      subst hd
      exact hws a (by simpa using ha))
    (by simpa using hn)
    (by intro i hi; simp only; rw [hrep.1, cellsOf_lt hi])
    (by intro j j1 _; simp only; rw [hrep.1]; exact cellsOf_ge j1)
    (by simp only; omega) (by rw [hme]; exact hmk) (by rw [hme]; exact hq) (by rw [hme]; exact hthrow)
  rw [hl, hme] at h6
  rw [hl] at e
  refine ⟨t, ?_, h1.trans h.dim, hmk, by rw [h2]; exact hcap, h3.trans hkind, h4.trans hlost, ?_, ?_⟩
  · unfold insertMany
    refine (Faulty.bind_eq_ok h.size).trans (bind_eq_error ?_)
    unfold insertRange
    rw [Faulty.bind_eq_ok (look_eq (assert_plain c h)), Faulty.bind_eq_ok (look_eq (x := ()) (by
      rw [isSortedUnique_keys hv, Bool.not_true, Bool.and_false]; rfl)), if_neg hS, Faulty.bind_eq_ok (look_eq hcl),
      Faulty.bind_eq_ok (onBuf_eq hb'), if_neg (by omega)]
    refine bind_eq_error ?_
    rw [show vs.reverse = ws.reverse ++ v :: us.reverse by rw [hvs]; simp]
    exact e
  · have : S.filter (· < v) = ((S.sort (· ≤ ·)).filter (fun x => decide (x < v))).toFinset := by
      ext x; simp
    rw [this, List.toFinset_card_of_nodup ((Finset.sort_nodup _ _).filter _)]
    exact h5
  · intro hall
    have h7 := h6 (by intro x hx; exact hall x (by simpa using hx))
    simp only at h7
    have h8 : ∀ j, (j < S.card + k - m → t.buf.cell j = cellsOf (S.sort (· ≤ ·)) j) ∧
        (S.card + k - m ≤ j → j < S.card + k → ∃ w, t.buf.cell j = .live w) ∧ (S.card + k ≤ j → t.buf.cell j = .raw) := by
      intro j
      obtain ⟨g1, g2, g3⟩ := h7 j
      refine ⟨fun hj => ?_, g2, fun hj => ?_⟩
      · rw [g1 hj, hrep.1]
      · rw [g3 hj, hrep.1]
        exact cellsOf_ge (by omega)
    refine ⟨?_, h8⟩
    rintro rfl
    refine HoldsSet.mk _ _ (h1.trans h.dim) (Good.mk' h.plain (by simp) (h3.trans hkind) (h4.trans hlost) ?_
      (by rw [h2]; simp only; omega) (fun hk => h2.trans (hst hk)))
    funext j
    by_cases hj : j < S.card + k
    · exact (h8 j).1 (by omega)
    · rw [(h8 j).2.2 (by omega)]
      exact (cellsOf_ge (by omega)).symm

/-! ## Calls without exceptions -/

theorem noThrow_look {α : Type} (f : Buf T → R α) : NoThrow (look f) := fun s s' => noThrow_eval (f s.buf) s s'

theorem noThrow_quiet {α : Type} (f : SortedArr T → R (SortedArr T × α)) : NoThrow (quiet f) := by
  refine noThrow_size.bind fun n s s' => ?_
  rcases f { buf := s.buf, size := n } with (_ | u) | ⟨a, x⟩ <;> simp

theorem noThrow_pure {α : Type} (x : α) : NoThrow (T := T) (pure x) := nofun

theorem noThrow_insertLoop (c : Cfg) (throws : Nat → Bool) (hq : c.trivial = true ∨ ∀ k, throws k = false) :
    ∀ (vs : List T) (ub nLeft : Nat), NoThrow (insertLoop c throws vs ub nLeft)
  | [], _, _ => noThrow_pure ()
  | v :: vs, ub, nLeft => by
    unfold insertLoop
    refine (noThrow_look _).bind fun x => ?_
    rcases x with ⟨pos, _ | _⟩
    · exact (NoThrow.of_quiet (onBuf _)).bind fun _ => (noThrow_element c throws hq _).bind fun _ =>
        noThrow_insertLoop c throws hq vs pos (nLeft - 1)
    · exact noThrow_insertLoop c throws hq vs ub nLeft

theorem noThrow_call [Inhabited T] (c : Cfg) (throws : Nat → Bool) (hq : c.trivial = true ∨ ∀ k, throws k = false)
    (op : SetOp T) : NoThrow (call c throws op) := by
  have hb (f : Buf T → R (Buf T)) : NoThrow (onBuf f) := .of_quiet _
  have hc (f : Buf T → R Unit) : NoThrow (checking f) := .of_quiet _
  have hd (n : Int) : NoThrow (T := T) (setDim n) := .of_quiet _
  have he := noThrow_element (T := T) c throws hq
  cases op with
  | insert v =>
    refine NoThrow.bind (noThrow_size.bind fun n => NoThrow.bind ?_ fun _ => (hd _).bind fun _ => noThrow_pure _) fun _ => noThrow_pure _
    refine (noThrow_look _).bind fun x => ?_
    rcases x with ⟨pos, _ | _⟩
    · exact (hb _).bind fun _ => (hc _).bind fun _ => (hc _).bind fun _ => (hb _).bind fun _ => (he _).bind fun _ => noThrow_pure _
    · exact (hb _).bind fun _ => noThrow_pure _
  | insertMany vs =>
    refine NoThrow.bind (noThrow_size.bind fun n => NoThrow.bind ?_ fun _ => (hd _).bind fun _ => noThrow_pure _) fun _ => noThrow_pure _
    refine (noThrow_look _).bind fun _ => (noThrow_look _).bind fun _ => ?_
    split
    · exact (hb _).bind fun _ => (noThrow_loop (fun _ => he _) _ _).bind fun _ => noThrow_pure _
    · refine (noThrow_look _).bind fun k => (hb _).bind fun _ => ?_
      split
      · exact noThrow_pure _
      · exact (noThrow_insertLoop c throws hq _ _ _).bind fun _ => noThrow_pure _
  | remove v => exact noThrow_quiet (fun a => a.step c (.remove v))
  | removeMany vs => exact noThrow_quiet (fun a => a.step c (.removeMany vs))
  | contains v => exact noThrow_quiet (fun a => a.step c (.contains v))
  | get i => exact noThrow_quiet (fun a => a.step c (.get i))
  | reserve n => exact noThrow_quiet (fun a => a.step c (.reserve n))
  | clear => exact noThrow_quiet (fun a => a.step c .clear)

end LvArray.FaultySet

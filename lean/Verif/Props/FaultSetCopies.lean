import Verif.FaultSetCopies
import Verif.Props.FaultSets
import Verif.Props.SortedSet
/-!
# C94: copy assignments of a sorted array that end in an exception
-/

namespace LvArray.Props

open LvArray Faulty FaultySet

variable {T : Type} [LinearOrder T] [Inhabited T]

omit [LinearOrder T] [Inhabited T] in
/-- The first `k` assignments of a copy. -/
theorem copyLoop_rep (c : Cfg) {b src : Buf T} {zs ys : List T} (h : Rep b zs) (hsrc : Rep src ys) (hlen : zs.length = ys.length)
    (k : Nat) (hk : k ≤ ys.length) :
    forUp k 0 (fun i (d : Buf T) => src.read i >>= fun x => d.write c i x) b =
      .ok { b with cell := cellsOf (ys.take k ++ zs.drop k) } := by
  have hcap := h.2
  let g : Nat → Buf T := fun i => { b with cell := cellsOf (ys.take i ++ zs.drop i) }
  have := forUp_eq (f := fun i (d : Buf T) => src.read i >>= fun x => d.write c i x) g k 0 (s := b) ?_ ?_
  · rw [this]; simp only [g, Nat.zero_add]
  · simp [g, ← h.1]
  · intro i _ hi
    have hi : i < ys.length := by omega
    have hr : Rep (g i) (ys.take i ++ zs.drop i) := ⟨rfl, by
      simp only [g, List.length_append, List.length_take, List.length_drop]; omega⟩
    show (src.read i >>= fun x => (g i).write c i x) = _
    rw [bufferManipulation.read_rep hsrc i hi, bind_ok, bufferManipulation.write_rep c hr i _ (by simp; omega)]
    simp only [g, Except.ok.injEq, Buf.mk.injEq, true_and, and_true]
    congr 1
    apply List.ext_getElem
    · simp; omega
    · intro k h1 h2
      simp only [List.getElem_set, List.getElem_append, List.length_take, List.getElem_take, List.getElem_drop]
      grind

omit [LinearOrder T] in
/-- The state in which an assignment operator that throws leaves a copy from a source that is not longer. -/
theorem copyAssign_threw (c : Cfg) (ht : c.trivial = false) {throws : Nat → Bool} {limit : Option Nat} {xs ys : List T}
    {s : Faulty T} (h : Holds limit xs s) (rhs : Array1 T) (hrhs : Good none rhs ys) (hle : ys.length ≤ xs.length) (k : Nat)
    (hk : k < ys.length) (hq : ∀ j, j < k → throws (s.count + j) = false) (hthrow : throws (s.count + k) = true) :
    ∃ s', Faulty.copyAssign c throws rhs s = .error .element s' ∧ s'.dim = xs.length ∧ s'.buf.cap = s.buf.cap ∧
      s'.buf.kind = s.buf.kind ∧ s'.buf.lostLive = s.buf.lostLive ∧
      s'.buf.cell = cellsOf (ys.take k ++ (xs.take ys.length).drop k) := by
  have hd := h.dim
  have hn := h.1
  have hrep := h.2.rep
  simp only [arr] at hrep
  have hcap := hrep.2
  have hsz : size s = .ok xs.length s := by rw [size_eq hn, hd]; simp
  have hs : rhs.size = ys.length := hrhs.size
  have hsrc := hrhs.rep
  obtain ⟨b, hb⟩ : ∃ b : Buf T, b = { s.buf with cell := cellsOf (xs.take ys.length) } := ⟨_, rfl⟩
  have hdes : arrayManipulation.destroy c s.buf ys.length (xs.length - ys.length) = .ok b := by
    rw [arrayManipulation.destroy_eq c _ _ _ (.inr (by
      intro j _ hj
      refine ⟨by omega, ?_⟩
      rw [hrep.1, cellsOf_lt (show j < xs.length by omega)]; rfl)), hb]
    congr 2
    funext j
    rw [hrep.1]
    by_cases h1 : j < ys.length
    · rw [if_neg (by omega), cellsOf_lt (by omega), cellsOf_lt (by simp; omega)]
      simp
    · rw [cellsOf_ge (xs := xs.take ys.length) (by simp; omega)]
      split
      · rfl
      · exact cellsOf_ge (by omega)
  have hres : resizeBuffer c throws xs.length ys.length default s = .ok () { s with buf := b } := by
    unfold resizeBuffer
    rw [Faulty.bind_eq_ok (checking_eq (bufferManipulation.check_ok c _ _ hrep.2)),
      Faulty.bind_eq_ok (onBuf_eq (b := s.buf) (by
        unfold bufferManipulation.reserve
        rw [bufferManipulation.check_ok c _ _ hrep.2, bind_ok, if_neg (by omega)])),
      Faulty.bind_eq_ok (onBuf_eq (f := (arrayManipulation.destroy c · ys.length (xs.length - ys.length))) hdes),
      show ys.length - xs.length = 0 by omega]
    rfl
  have hbl : (xs.take ys.length).length = ys.length := by simp; omega
  have hfor := copyLoop_rep c (b := b) (zs := xs.take ys.length) (by subst hb; exact ⟨rfl, by simp only; omega⟩) hsrc hbl k
    (by omega)
  unfold Faulty.copyAssign
  rw [Faulty.bind_eq_ok hsz, Faulty.bind_eq_ok (checking_eq (bufferManipulation.check_ok c _ _ hrep.2)), hs,
    Faulty.bind_eq_ok (checking_eq (f := fun _ => bufferManipulation.check c rhs.buf ys.length)
      (bufferManipulation.check_ok c _ _ hsrc.2)), Faulty.bind_eq_ok hres,
    bind_eq_error (loop_throw c ht throws (fun i b => rhs.buf.read i >>= fun x => b.write c i x) k _ _ _ _ hk
      (by exact hq) (by exact hthrow) hfor)]
  subst hb
  exact ⟨_, rfl, hd, rfl, rfl, rfl, rfl⟩

/-- `a` is a sorted array over a heap buffer that a valid history has given the set `R`. -/
def HoldingSet (c : Cfg) (a : SortedArr T) (R : Finset T) : Prop :=
  ∃ ops outs, Spec.setRun none ∅ ops = some (R, outs) ∧ (SortedArr.init T none).run c ops = .ok (a, outs)

theorem HoldingSet.good {c : Cfg} {a : SortedArr T} {R : Finset T} (h : HoldingSet c a R) : SGood none a R := by
  obtain ⟨ops, outs, hv, hr⟩ := h
  obtain ⟨a', e, g⟩ := set_run_good c none ops _ ∅ R outs (set_init_good none) hv
  rw [hr] at e
  cases e
  exact g

/-- **C94, disagreement.** If the assignment operator of the `k`-th value throws in a copy assignment from a set `R` that is not
larger than the set `S` of the array, the size is what it was and the array lists the first `k` values of `R`, then the values of
`S` up to the size of `R`; the values beyond are destroyed, so that reading them is undefined and so is destroying the array.  If
both sets are of the same size the destructor destroys every value. -/
theorem C94_throw_in_copy (c : Cfg) (ht : c.trivial = false) (throws : Nat → Bool) (limit : Option Nat)
    (ops : List (SetOp T)) (S : Finset T) (s : Faulty T) (h : SetSurvived c throws limit ops S s) (src : SortedArr T) (R : Finset T)
    (hsrc : HoldingSet c src R) (hle : R.card ≤ S.card) (k : Nat) (hk : k < R.card)
    (hq : ∀ j, j < k → throws (s.count + j) = false) (hthrow : throws (s.count + k) = true) :
    ∃ s', FaultySet.copyAssign c throws src s = .error .element s' ∧ s'.dim = S.card ∧
      (∀ i, (hi : i < k) → FaultySet.get c i s' = .ok ((R.sort (· ≤ ·))[i]'(by simp; omega)) s') ∧
      (∀ i, k ≤ i → (hi : i < R.card) → FaultySet.get c i s' = .ok ((S.sort (· ≤ ·))[i]'(by simp; omega)) s') ∧
      (∀ i : Nat, R.card ≤ i → i < S.card → ∃ u, FaultySet.get c i s' = .error (.ub u) s') ∧
      (R.card < S.card → ∃ u, FaultySet.dtor c s' = .error (.ub u) s') ∧
      (limit = none → R.card = S.card → ∃ s'', FaultySet.dtor c s' = .ok () s'' ∧ s''.buf.lostLive = 0) := by
  have hh := h.holds
  have hS : (S.sort (· ≤ ·)).length = S.card := by simp
  have hR : (R.sort (· ≤ ·)).length = R.card := by simp
  obtain ⟨s', e, hd, hcap, hkind, hlost, hcell⟩ := copyAssign_threw c ht (limit := limit) (xs := S.sort (· ≤ ·))
    (ys := R.sort (· ≤ ·)) (s := s) ⟨hh.1, hh.2⟩ { buf := src.buf, size := src.size } hsrc.good (by omega) k (by omega) hq hthrow
  have hcS : S.card ≤ s.buf.cap := by
    have : (S.sort (· ≤ ·)).length ≤ s.buf.cap := hh.plain.rep.2
    omega
  rw [hS] at hd
  rw [hR] at hcell
  have hlen : ((R.sort (· ≤ ·)).take k ++ ((S.sort (· ≤ ·)).take R.card).drop k).length = R.card := by
    simp; omega
  refine ⟨s', e, hd, fun i hi => ?_, fun i h1 hi => ?_, fun i h1 h2 => ?_, fun hlt => ?_, fun hl heq => ?_⟩
  · refine setGet_live c s' S.card i _ hd (by omega) (by omega) ?_
    rw [hcell, cellsOf_lt (by omega), List.getElem_append_left (by simp; omega)]
    simp
  · refine setGet_live c s' S.card i _ hd (by omega) (by omega) ?_
    rw [hcell, cellsOf_lt (by omega), List.getElem_append_right (by simp; omega)]
    simp only [List.length_take, List.getElem_drop, List.getElem_take]
    congr 2
    omega
  · refine setGet_raw c s' S.card i hd h2 (by omega) ?_
    rw [hcell]
    exact cellsOf_ge (by omega)
  · refine dtor_raw c ht R.card (by omega) (by omega) ?_
    rw [hcell]
    exact cellsOf_ge (by omega)
  · subst hl
    have hmal : s'.buf.kind = .malloc := by rw [hkind]; exact hh.plain.heap rfl
    have hfree := bufferManipulation.free_rep c (b := s'.buf) ⟨hcell, by omega⟩ hmal
    rw [hlen, heq] at hfree
    refine ⟨_, (Faulty.bind_eq_ok (show size s' = .ok S.card s' by rw [size_eq (by omega), hd]; rfl)).trans
      (onBuf_eq (f := fun b => bufferManipulation.free c b S.card) hfree), ?_⟩
    show s'.buf.lostLive = 0
    rw [hlost]
    exact hh.plain.lost

omit [LinearOrder T] [Inhabited T] in
/-- A loop in which no element throws. -/
theorem loop_quiet (c : Cfg) (throws : Nat → Bool) (f : Nat → Buf T → R (Buf T)) :
    ∀ (n lo : Nat) (s : Faulty T) (b : Buf T), (∀ j, j < n → throws (s.count + j) = false) → forUp n lo f s.buf = .ok b →
      Faulty.loop n lo (fun i => element c throws (f i)) s = .ok () { s with buf := b, count := s.count + n }
  | 0, lo, s, b, _, hf => by
    cases hf
    rfl
  | n + 1, lo, s, b, hq, hf => by
    unfold forUp at hf
    rcases hl : f lo s.buf with e | b'
    · rw [hl] at hf; cases hf
    · rw [hl, bind_ok] at hf
      have h1 := element_quiet c (throws := throws) (f lo) (hq 0 (by omega)) hl
      refine (Faulty.bind_eq_ok h1).trans ((loop_quiet c throws f n (lo + 1) _ b ?_ hf).trans ?_)
      · intro j hj
        have := hq (j + 1) (by omega)
        rw [← this]; congr 1; simp only; omega
      · simp only [EStateM.Result.ok.injEq, Faulty.mk.injEq, true_and]; omega

omit [LinearOrder T] in
/-- The state in which a constructor or an assignment operator that throws leaves a copy from a longer source: the first `d`
calls default construct the values that are missing, the others assign. -/
theorem copyAssign_threw_growing (c : Cfg) (ht : c.trivial = false) {throws : Nat → Bool} {limit : Option Nat} {xs ys : List T}
    {s : Faulty T} (h : Holds limit xs s) (rhs : Array1 T) (hrhs : Good none rhs ys) (hlt : xs.length < ys.length)
    (hf : Spec.fits limit ys.length) (k : Nat) (hk : k < (ys.length - xs.length) + ys.length)
    (hq : ∀ j, j < k → throws (s.count + j) = false) (hthrow : throws (s.count + k) = true) :
    ∃ s' zs, Faulty.copyAssign c throws rhs s = .error .element s' ∧ s'.dim = xs.length ∧ ys.length ≤ s'.buf.cap ∧
      s'.buf.kind = s.buf.kind ∧ s'.buf.lostLive = s.buf.lostLive ∧ s'.buf.cell = cellsOf zs ∧
      zs.length = xs.length + min k (ys.length - xs.length) ∧
      zs.take xs.length = (ys.take (k - (ys.length - xs.length)) ++ xs.drop (k - (ys.length - xs.length))).take xs.length := by
  have hr := (h.2.room _).2 hf
  have hd := h.dim
  have hn := h.1
  have hrep := h.2.rep
  simp only [arr] at hrep hr
  have hcap := hrep.2
  have hsz : size s = .ok xs.length s := by rw [size_eq hn, hd]; simp
  have hs : rhs.size = ys.length := hrhs.size
  have hsrc := hrhs.rep
  obtain ⟨b0, hb0⟩ : ∃ b : Buf T, b = { s.buf with cap := max s.buf.cap ys.length, moves := s.buf.moves + s.buf.growMoves xs.length ys.length } := ⟨_, rfl⟩
  have hcap0 : ys.length ≤ b0.cap := by subst hb0; simp only; omega
  have hcell0 : b0.cell = cellsOf xs := by subst hb0; exact hrep.1
  have hkind0 : b0.kind = s.buf.kind := by subst hb0; rfl
  have hlost0 : b0.lostLive = s.buf.lostLive := by subst hb0; rfl
  have hcon : ∀ m, m ≤ ys.length - xs.length →
      forUp m xs.length (fun i (b : Buf T) => b.construct c i default) b0 =
        .ok { b0 with cell := cellsOf (xs ++ List.replicate m default) } := by
    intro m hm
    have := arrayManipulation.constructRange_eq c b0 xs.length m (fun _ => default) (by omega) (by
      intro j h1 _; rw [hcell0]; exact cellsOf_ge h1)
    unfold arrayManipulation.constructRange at this
    rw [this]
    congr 2
    funext j
    rw [hcell0]
    by_cases h1 : j < xs.length
    · rw [if_neg (by omega), cellsOf_lt h1, cellsOf_lt (by simp; omega), List.getElem_append_left h1]
    · by_cases h2 : j < xs.length + m
      · rw [if_pos (by omega), cellsOf_lt (by simp; omega), List.getElem_append_right (by omega)]
        simp
      · rw [if_neg (by omega), cellsOf_ge (by omega), cellsOf_ge (by simp; omega)]
  have hdes : arrayManipulation.destroy c b0 ys.length (xs.length - ys.length) = .ok b0 := by
    rw [arrayManipulation.destroy_eq c _ _ _ (.inr (by omega))]
    congr 1
    cases b0
    simp only [Buf.mk.injEq, true_and, and_true]
    funext j
    rw [if_neg (by omega)]
  have hstart : ∀ {e : Faulty T → EStateM.Result Fault (Faulty T) Unit},
      (∀ t : Faulty T, t = { s with buf := b0 } →
        Faulty.loop (ys.length - xs.length) xs.length (fun i => element c throws (·.construct c i default)) t = e t) →
      resizeBuffer c throws xs.length ys.length default s = e { s with buf := b0 } := by
    intro e he
    unfold resizeBuffer
    rw [Faulty.bind_eq_ok (checking_eq (bufferManipulation.check_ok c _ _ hrep.2)),
      Faulty.bind_eq_ok (onBuf_eq (f := (bufferManipulation.reserve c · xs.length ys.length)) (b := b0)
        (by rw [hb0]; exact bufferManipulation.reserve_rep c hrep _ hr)),
      Faulty.bind_eq_ok (onBuf_eq (f := (arrayManipulation.destroy c · ys.length (xs.length - ys.length))) hdes)]
    exact he _ rfl
  by_cases hkd : k < ys.length - xs.length
  · refine ⟨{ s with buf := { b0 with cell := cellsOf (xs ++ List.replicate k default) }, count := s.count + k + 1 },
      xs ++ List.replicate k default, ?_, hd, hcap0, hkind0, hlost0, rfl, by simp; omega, by
        rw [show k - (ys.length - xs.length) = 0 by omega]; simp⟩
    have hres := hstart (e := fun t => .error .element
      { t with buf := { b0 with cell := cellsOf (xs ++ List.replicate k default) }, count := t.count + k + 1 }) (by
      rintro t rfl
      exact loop_throw c ht throws (fun i b => b.construct c i default) k _ _ _ _ hkd hq hthrow (hcon k (by omega)))
    unfold Faulty.copyAssign
    rw [Faulty.bind_eq_ok hsz, Faulty.bind_eq_ok (checking_eq (bufferManipulation.check_ok c _ _ hrep.2)), hs,
      Faulty.bind_eq_ok (checking_eq (f := fun _ => bufferManipulation.check c rhs.buf ys.length)
        (bufferManipulation.check_ok c _ _ hsrc.2)), bind_eq_error hres]
  · obtain ⟨d, hdd⟩ : ∃ d, d = ys.length - xs.length := ⟨_, rfl⟩
    rw [← hdd] at hkd hk hcon hstart ⊢
    have hres := hstart (e := fun t => .ok ()
      { t with buf := { b0 with cell := cellsOf (xs ++ List.replicate d default) }, count := t.count + d }) (by
      rintro t rfl
      exact loop_quiet c throws (fun i b => b.construct c i default) d _ _ _ (fun j hj => hq j (by omega)) (hcon d (by omega)))
    have hbl : (xs ++ List.replicate d (default : T)).length = ys.length := by simp; omega
    have hfor := copyLoop_rep c (b := { b0 with cell := cellsOf (xs ++ List.replicate d default) })
      (zs := xs ++ List.replicate d default) ⟨rfl, by rw [hbl]; exact hcap0⟩ hsrc hbl (k - d) (by omega)
    let cs := cellsOf (ys.take (k - d) ++ (xs ++ List.replicate d default).drop (k - d))
    refine ⟨{ s with buf := { b0 with cell := cs }, count := s.count + d + (k - d) + 1 }, _, ?_, hd, hcap0, hkind0, hlost0, rfl, by simp; omega, ?_⟩
    · unfold Faulty.copyAssign
      rw [Faulty.bind_eq_ok hsz, Faulty.bind_eq_ok (checking_eq (bufferManipulation.check_ok c _ _ hrep.2)), hs,
        Faulty.bind_eq_ok (checking_eq (f := fun _ => bufferManipulation.check c rhs.buf ys.length)
          (bufferManipulation.check_ok c _ _ hsrc.2)), Faulty.bind_eq_ok hres,
        bind_eq_error (loop_throw c ht throws (fun i b => rhs.buf.read i >>= fun x => b.write c i x) (k - d) _ _ _ _ (by omega)
          (fun j hj => (by rw [← hq (d + j) (by omega)]; congr 1; simp only; omega))
          (by rw [← hthrow]; congr 1; simp only; omega) hfor)]
    · apply List.ext_getElem
      · simp; omega
      · intro i h1 h2
        simp only [List.length_take, List.length_append, List.length_drop, List.length_replicate] at h1 h2
        simp only [List.getElem_take, List.getElem_append, List.length_take, List.getElem_drop]
        grind

omit [LinearOrder T] [Inhabited T] in
/-- Destroying an array of size `n` whose buffer holds `m` values more leaks those. -/
theorem dtor_leaks (c : Cfg) (ht : c.trivial = false) (t : Faulty T) (zs : List T) (n m : Nat) (hd : t.dim = n)
    (hc : t.buf.cell = cellsOf zs) (hz : zs.length = n + m) (hcap : n + m ≤ t.buf.cap) (hk : t.buf.kind = .malloc) :
    ∃ t', FaultySet.dtor c t = .ok () t' ∧ t'.buf.lostLive = t.buf.lostLive + m ∧ t'.buf.cap = 0 := by
  have hfree : ∃ b, bufferManipulation.free c t.buf n = .ok b ∧ b.lostLive = t.buf.lostLive + m ∧ b.cap = 0 := by
    unfold bufferManipulation.free
    rw [bufferManipulation.check_ok c _ _ (by omega), bind_ok, if_neg (by simp [ht]),
      arrayManipulation.destroy_eq c _ 0 n (.inr (by
        intro j _ hj
        refine ⟨by omega, ?_⟩
        rw [hc, cellsOf_lt (by omega)]
        rfl)), bind_ok]
    refine ⟨_, rfl, ?_, by simp only [Buf.release, hk]⟩
    simp only [Buf.release, hk]
    rw [countL_between c ht _ n m]
    · omega
    · intro j
      simp only
      constructor
      · intro ⟨h1, h2⟩
        rw [if_neg (by omega), hc, cellsOf_lt (by omega)]
        exact ⟨_, rfl⟩
      · intro hj
        split
        · rfl
        · rw [hc]
          exact cellsOf_ge (by omega)
  obtain ⟨b, hb, hl⟩ := hfree
  refine ⟨{ t with buf := b }, ?_, hl⟩
  have hsz : size t = .ok n t := by rw [size_eq (by omega), hd]; rfl
  exact (Faulty.bind_eq_ok hsz).trans (onBuf_eq (f := fun b => bufferManipulation.free c b n) hb)

/-- **C94, disagreement.** A copy assignment from a set `R` that is larger than the set `S` of the array first default constructs
the values that are missing and then assigns all.  If the `k`-th of these calls throws, the size is what it was; the array lists
the values of `S` if a constructor threw, otherwise the values of `R` that have been assigned and then those of `S`.  Nothing is
undefined, but the default constructed values are never destroyed. -/
theorem C94_throw_in_growing_copy (c : Cfg) (ht : c.trivial = false) (throws : Nat → Bool) (limit : Option Nat)
    (ops : List (SetOp T)) (S : Finset T) (s : Faulty T) (h : SetSurvived c throws limit ops S s) (src : SortedArr T) (R : Finset T)
    (hsrc : HoldingSet c src R) (hlt : S.card < R.card) (hf : Spec.fits limit R.card) (k : Nat)
    (hk : k < (R.card - S.card) + R.card) (hq : ∀ j, j < k → throws (s.count + j) = false) (hthrow : throws (s.count + k) = true) :
    ∃ s', FaultySet.copyAssign c throws src s = .error .element s' ∧ s'.dim = S.card ∧
      (∀ i, i < k - (R.card - S.card) → (hi : i < S.card) →
        FaultySet.get c i s' = .ok ((R.sort (· ≤ ·))[i]'(by simp; omega)) s') ∧
      (∀ i, k - (R.card - S.card) ≤ i → (hi : i < S.card) →
        FaultySet.get c i s' = .ok ((S.sort (· ≤ ·))[i]'(by simpa using hi)) s') ∧
      (limit = none → ∃ s'', FaultySet.dtor c s' = .ok () s'' ∧ s''.buf.lostLive = min k (R.card - S.card)) := by
  have hh := h.holds
  have hS : (S.sort (· ≤ ·)).length = S.card := by simp
  have hR : (R.sort (· ≤ ·)).length = R.card := by simp
  obtain ⟨s', zs, e, hd, hcap, hkind, hlost, hcell, hlen, htake⟩ := copyAssign_threw_growing c ht (limit := limit)
    (xs := S.sort (· ≤ ·)) (ys := R.sort (· ≤ ·)) (s := s) ⟨hh.1, hh.2⟩ { buf := src.buf, size := src.size } hsrc.good
    (by omega) (by rw [hR]; exact hf) k (by omega) hq hthrow
  rw [hS] at hd hlen htake
  rw [hR] at hcap hlen htake
  have hat : ∀ i, (hi : i < S.card) → zs[i]'(by omega) =
      ((R.sort (· ≤ ·)).take (k - (R.card - S.card)) ++ (S.sort (· ≤ ·)).drop (k - (R.card - S.card)))[i]'(by simp; omega) := by
    intro i hi
    have := congrArg (·[i]?) htake
    simp only [List.getElem?_take, hi, if_true] at this
    rw [List.getElem?_eq_getElem (by omega), List.getElem?_eq_getElem (by simp; omega)] at this
    simpa using this
  refine ⟨s', e, hd, fun i h1 hi => ?_, fun i h1 hi => ?_, fun hl => ?_⟩
  · refine setGet_live c s' S.card i _ hd hi (by omega) ?_
    rw [hcell, cellsOf_lt (by omega), hat i hi, List.getElem_append_left (by simp; omega)]
    simp
  · refine setGet_live c s' S.card i _ hd hi (by omega) ?_
    rw [hcell, cellsOf_lt (by omega), hat i hi, List.getElem_append_right (by simp; omega)]
    simp only [List.length_take, List.getElem_drop]
    congr 2
    omega
  · subst hl
    obtain ⟨s'', e2, hl2, -⟩ := dtor_leaks c ht s' zs S.card (min k (R.card - S.card)) hd hcell hlen (by omega)
      (by rw [hkind]; exact hh.plain.heap rfl)
    refine ⟨s'', e2, ?_⟩
    rw [hl2, hlost, show s.buf.lostLive = 0 from hh.plain.lost, Nat.zero_add]

/-- **C94.** If the first assignment operator throws in a copy assignment from a set of the same size, the array can be used
further like any other. -/
theorem C94_throw_in_first_copy (c : Cfg) (ht : c.trivial = false) (throws : Nat → Bool) (limit : Option Nat)
    (ops : List (SetOp T)) (S : Finset T) (s : Faulty T) (h : SetSurvived c throws limit ops S s) (src : SortedArr T) (R : Finset T)
    (hsrc : HoldingSet c src R) (heq : R.card = S.card) (hne : R.Nonempty) (hthrow : throws s.count = true) :
    ∃ s', FaultySet.copyAssign c throws src s = .error .element s' ∧ ∀ later,
      Spec.FaultSets.OnlyHarmless (c.boundsCheck = true ∧ c.debug = true) limit S later (FaultySet.run c throws s' later).1 →
      (Spec.FaultSets.follow limit S later (FaultySet.run c throws s' later).1).isSome = true := by
  have hh := h.holds
  have hpos := Finset.card_pos.mpr hne
  obtain ⟨s', e, hd, hcap, hkind, hlost, hcell⟩ := copyAssign_threw c ht (limit := limit) (xs := S.sort (· ≤ ·))
    (ys := R.sort (· ≤ ·)) (s := s) ⟨hh.1, hh.2⟩ { buf := src.buf, size := src.size } hsrc.good (by simp; omega) 0 (by simp; omega)
    (by omega) hthrow
  refine ⟨s', e, fun later hl => ?_⟩
  have hc2 : s'.buf.cell = cellsOf (S.sort (· ≤ ·)) := by
    rw [hcell]
    congr 1
    simp [heq]
  have hrc := hh.plain.rep.2
  obtain ⟨S', e', -⟩ := faultySet_run c throws limit later S s' (HoldsSet.mk _ _ (by simpa using hd)
    (Good.mk' hh.plain (by simp) hkind hlost hc2 (by rw [hcap]; exact hrc) (fun _ => hcap))) hl
  rw [e']
  rfl

/-- A copy assignment that returns has its effect: the array lists the set of the source. -/
theorem C94_copy_that_returns (c : Cfg) (throws : Nat → Bool) (limit : Option Nat) (ops : List (SetOp T)) (S : Finset T)
    (s s' : Faulty T) (h : SetSurvived c throws limit ops S s) (src : SortedArr T) (R : Finset T) (hsrc : HoldingSet c src R)
    (hret : FaultySet.copyAssign c throws src s = .ok () s') :
    s'.dim = R.card ∧ ∀ i, (hi : i < R.card) → FaultySet.get c i s' = .ok ((R.sort (· ≤ ·))[i]'(by simpa using hi)) s' := by
  have hh := h.holds
  have hR : (R.sort (· ≤ ·)).length = R.card := by simp
  have hsim := sim_copyAssign c throws { buf := src.buf, size := src.size } s hh.1
  rw [show Faulty.copyAssign c throws { buf := src.buf, size := src.size } s = .ok () s' from hret] at hsim
  simp only [Match] at hsim
  have hrep : Rep s.buf (S.sort (· ≤ ·)) := hh.2.rep
  have hsz : s.dim.toNat = (S.sort (· ≤ ·)).length := Good.size hh.2
  have hsr : src.size = (R.sort (· ≤ ·)).length := Good.size hsrc.good
  have hsrep : Rep src.buf (R.sort (· ≤ ·)) := Good.rep hsrc.good
  have hasg := hsim.2
  rw [Array1.copyAssign] at hasg
  simp only [arr, hsz, hsr] at hasg
  by_cases hroom : s.buf.room (R.sort (· ≤ ·)).length
  · rw [bufferManipulation.copyInto_rep c hrep hsrep default hroom, bind_ok] at hasg
    simp only [Except.ok.injEq, Array1.mk.injEq] at hasg
    obtain ⟨hb, hn⟩ := hasg
    have hd : s'.dim = R.card := by have := hsim.1; omega
    refine ⟨hd, fun i hi => setGet_live c s' R.card i _ hd hi ?_ ?_⟩
    · rw [← hb]; simp only; omega
    · rw [← hb]; simp only; exact cellsOf_lt (by omega)
  · exfalso
    unfold bufferManipulation.copyInto bufferManipulation.resize at hasg
    rw [bufferManipulation.check_ok c _ _ hrep.2, bind_ok, bufferManipulation.check_ok c _ _ hsrep.2, bind_ok,
      bind_ok, bufferManipulation.reserve_abort c hrep.2 _ hroom] at hasg
    simp at hasg

/-! ### Cases that meet the hypotheses -/

/-- The array and the source of the examples: `{1, 4}`, and the set that the insertions `ops` give. -/
def copiedInto (ops : List (SetOp Nat)) (k : Nat) : EStateM.Result Fault (Faulty Nat) Unit :=
  match (SortedArr.init Nat none).run setThrowing ops with
  | .ok (a, _) => FaultySet.copyAssign setThrowing (fun j => j == k) a
      (FaultySet.run setThrowing (fun j => j == k) (init Nat none) [.insert 1, .insert 4]).2
  | .error _ => .ok () (init Nat none)

/-- What the two first positions read as after the copy, if it threw. -/
def readAfter (r : EStateM.Result Fault (Faulty Nat) Unit) (i : Nat) : Option (Option Nat) :=
  match r with
  | .error .element s => match FaultySet.get setThrowing i s with
    | .ok x _ => some (some x)
    | .error _ _ => some none
  | _ => none

example : SetSurvived setThrowing (fun k => k == 3) none [.insert 1, .insert 4] {1, 4}
    (FaultySet.run setThrowing (fun k => k == 3) (init Nat none) [.insert 1, .insert 4]).2 := by
  refine ⟨rfl, ?_, by decide +kernel⟩
  have e : (FaultySet.run setThrowing (fun k => k == 3) (init Nat none) [.insert 1, .insert 4]).1 =
    [.returned (.bool true), .returned (.bool true)] := by decide +kernel
  rw [e]
  simp [Spec.FaultSets.OnlyHarmless, setThrowing]

example : ∃ a, HoldingSet setThrowing a ({5, 6} : Finset Nat) := by
  obtain ⟨a', e, -⟩ := set_run_good setThrowing none [.insert 5, .insert (6 : Nat)] _ ∅ {5, 6} [.bool true, .bool true]
    (set_init_good none) (by decide +kernel)
  exact ⟨a', _, _, by decide +kernel, e⟩

/-- The second of two assignments throws: the array lists `5, 4`, which is not sorted. -/
example : readAfter (copiedInto [.insert 5, .insert 6] 3) 0 = some (some 5) ∧
    readAfter (copiedInto [.insert 5, .insert 6] 3) 1 = some (some 4) := by decide +kernel

/-- The first of two assignments throws: the array is what it was. -/
example : readAfter (copiedInto [.insert 5, .insert 6] 2) 0 = some (some 1) ∧
    readAfter (copiedInto [.insert 5, .insert 6] 2) 1 = some (some 4) := by decide +kernel

/-- A copy of three values whose default constructor throws, and one whose second assignment throws. -/
example : readAfter (copiedInto [.insert 5, .insert 6, .insert 7] 2) 0 = some (some 1) ∧
    readAfter (copiedInto [.insert 5, .insert 6, .insert 7] 4) 0 = some (some 5) ∧
    readAfter (copiedInto [.insert 5, .insert 6, .insert 7] 4) 1 = some (some 4) := by decide +kernel

/-- The only assignment throws: the second position is destroyed, and the array still has two. -/
example : readAfter (copiedInto [.insert 5] 2) 0 = some (some 1) ∧ readAfter (copiedInto [.insert 5] 2) 1 = some none := by
  decide +kernel

end LvArray.Props

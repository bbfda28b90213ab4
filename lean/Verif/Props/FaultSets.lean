import Verif.FaultSetsLemmas
/-!
# C94: a call on a sorted array that fails leaves the set as it was
-/

namespace LvArray.Props

open LvArray LvArray.Faulty LvArray.FaultySet

variable {T : Type} [LinearOrder T] [Inhabited T]

/-- One call. -/
theorem faultySet_call (c : Cfg) (throws : Nat → Bool) {limit : Option Nat} {S : Finset T} {s : Faulty T}
    (h : HoldsSet limit S s) (op : SetOp T)
    (hv : (c.boundsCheck = true ∧ c.debug = true) ∨ (Spec.setStep limit S op).isSome = true) :
    match FaultySet.call c throws op s with
    | .ok o s' => ∃ S', Spec.setStep limit S op = some (S', o) ∧ HoldsSet limit S' s'
    | .error .element s' => (Spec.setStep limit S op).isSome = true ∧
        (Spec.FaultSets.harmlessThrow S op → HoldsSet limit S s')
    | .error .handler s' => Spec.setStep limit S op = none ∧ HoldsSet limit S s'
    | .error (.ub _) _ => False := by
  rcases hs : Spec.setStep limit S op with _ | ⟨S', o⟩
  · have hc : c.boundsCheck = true ∧ c.debug = true := by
      rcases hv with hv | hv
      · exact hv
      · rw [hs] at hv; cases hv
    rw [call_refused c throws hc.1 hc.2 h op hs]
    exact ⟨rfl, h⟩
  · rcases call_allowed c throws h op hs with ⟨s', e, h'⟩ | ⟨s', e, -⟩
    · rw [e]
      exact ⟨S', rfl, h'⟩
    · rw [e]
      refine ⟨rfl, fun hh => ?_⟩
      cases op with
      | insert v =>
        simp only [Spec.setStep, Option.ite_none_right_eq_some] at hs
        have hf := hs.1
        rw [Finset.card_insert_of_notMem (fun hm => absurd (hh v hm) (lt_irrefl v))] at hf
        refine insert_harmless c throws h v hh hf ?_
        rcases hi : FaultySet.insertOne c throws S.card v s with ⟨y, s2⟩ | ⟨er, s2⟩
        · exfalso
          have : FaultySet.insert c throws v s = .ok y { s2 with dim := ((S.card + (if y then 1 else 0) : Nat) : Int) } := by
            unfold FaultySet.insert
            rw [Faulty.bind_eq_ok h.size, Faulty.bind_eq_ok hi]
            rfl
          have e2 : FaultySet.call c throws (.insert v) s = _ := Faulty.bind_eq_ok this
          rw [e2] at e
          cases e
        · have : FaultySet.insert c throws v s = .error er s2 := by
            unfold FaultySet.insert
            rw [Faulty.bind_eq_ok h.size, bind_eq_error hi]
          have e2 : FaultySet.call c throws (.insert v) s = .error er s2 := bind_eq_error this
          rw [e2] at e
          cases e
          rfl
      | insertMany vs =>
        simp only [Spec.setStep, Option.ite_none_right_eq_some] at hs
        obtain ⟨hvs, hf⟩ := hs.1
        have hf1 := hf
        have hn := hh
        obtain ⟨v, hd, -⟩ := hn
        rw [SortedArr.card_union_eq S vs, hd, Finset.card_singleton] at hf1
        refine insertRange_harmless c throws h vs hvs hh hf1 ?_
        rcases hi : FaultySet.insertRange c throws S.card vs s with ⟨y, s2⟩ | ⟨er, s2⟩
        · exfalso
          have : FaultySet.insertMany c throws vs s = .ok y { s2 with dim := ((S.card + y : Nat) : Int) } := by
            unfold FaultySet.insertMany
            rw [Faulty.bind_eq_ok h.size, Faulty.bind_eq_ok hi]
            rfl
          have e2 : FaultySet.call c throws (.insertMany vs) s = _ := Faulty.bind_eq_ok this
          rw [e2] at e
          cases e
        · have : FaultySet.insertMany c throws vs s = .error er s2 := by
            unfold FaultySet.insertMany
            rw [Faulty.bind_eq_ok h.size, bind_eq_error hi]
          have e2 : FaultySet.call c throws (.insertMany vs) s = .error er s2 := bind_eq_error this
          rw [e2] at e
          cases e
          rfl
      | _ => exact hh.elim

theorem faultySet_run (c : Cfg) (throws : Nat → Bool) (limit : Option Nat) :
    ∀ (ops : List (SetOp T)) (S : Finset T) (s : Faulty T), HoldsSet limit S s →
    Spec.FaultSets.OnlyHarmless (c.boundsCheck = true ∧ c.debug = true) limit S ops (FaultySet.run c throws s ops).1 →
    ∃ S', Spec.FaultSets.follow limit S ops (FaultySet.run c throws s ops).1 = some S' ∧
      HoldsSet limit S' (FaultySet.run c throws s ops).2
  | [], S, s, h, _ => ⟨S, rfl, h⟩
  | op :: ops, S, s, h, hh => by
    have hv : (c.boundsCheck = true ∧ c.debug = true) ∨ (Spec.setStep limit S op).isSome = true := by
      unfold FaultySet.run at hh
      rcases hc : FaultySet.call c throws op s with ⟨_, s'⟩ | ⟨_ | _ | u, s'⟩ <;> simp only [hc] at hh <;> exact hh.1
    have key := faultySet_call c throws h op hv
    unfold FaultySet.run at hh ⊢
    rcases hc : FaultySet.call c throws op s with ⟨o, s'⟩ | ⟨_ | _ | u, s'⟩ <;>
      simp only [hc, Spec.FaultSets.OnlyHarmless, Spec.FaultSets.follow, Spec.FaultSets.after] at hh key ⊢
    · obtain ⟨S', e, hg⟩ := key
      have ha : ((Spec.setStep limit S op).bind fun r => if r.2 = o then some r.1 else none) = some S' := by
        rw [e]; simp
      obtain ⟨S'', e1, h1⟩ := faultySet_run c throws limit ops S' s' hg (hh.2.2 S' ha)
      exact ⟨S'', by rw [ha]; exact e1, h1⟩
    · obtain ⟨e, hg⟩ := key
      rw [if_pos e] at hh ⊢
      exact faultySet_run c throws limit ops S s' (hg (hh.2.1 trivial)) (hh.2.2 S rfl)
    · obtain ⟨e, hg⟩ := key
      rw [if_neg (by simp [e])] at hh ⊢
      exact faultySet_run c throws limit ops S s' hg (hh.2.2 S rfl)

omit [Inhabited T] in
theorem holdsSet_init (limit : Option Nat) : HoldsSet limit (∅ : Finset T) (init T limit) := by
  refine ⟨Int.le_refl 0, ?_⟩
  have : (∅ : Finset T).sort (· ≤ ·) = [] := by simp
  unfold SGood
  rw [this]
  cases limit <;> exact Good.init T _

theorem faultySet_reach (c : Cfg) (throws : Nat → Bool) (limit : Option Nat) (ops : List (SetOp T))
    (outs : List (FaultySet.Outcome T)) (s : Faulty T) (hr : FaultySet.run c throws (init T limit) ops = (outs, s))
    (hh : Spec.FaultSets.OnlyHarmless (c.boundsCheck = true ∧ c.debug = true) limit ∅ ops outs) :
    ∃ S, Spec.FaultSets.follow limit ∅ ops outs = some S ∧ HoldsSet limit S s := by
  have key := faultySet_run c throws limit ops ∅ _ (holdsSet_init limit) (by rw [hr]; exact hh)
  rw [hr] at key
  exact key

/-- **C94 (harmless failures).** Take any history of calls on a sorted array over a heap buffer or a stack buffer, any choice of
the element constructors that throw, and an error handler that throws; whoever calls catches the exception and goes on.  If
every call that ends because an element throws was the insertion of one value above all others, alone or in a range of values
that are present, then a failing call has no
effect: every call that returned returned what it returns on the mathematical set, the array holds exactly the set that the
calls that returned give, in increasing order, no element is lost, and the destructor destroys each of them.  The calls that
are refused, of whatever kind, are exactly those that violate their precondition, and no behaviour is undefined.
Missing for the full property: an element that throws in any other insertion does have an effect, see the theorems below. -/
theorem C94_failed_calls_have_no_effect_partial (c : Cfg) (throws : Nat → Bool) (limit : Option Nat) (ops : List (SetOp T))
    (outs : List (FaultySet.Outcome T)) (s : Faulty T) (hr : FaultySet.run c throws (init T limit) ops = (outs, s))
    (hh : Spec.FaultSets.OnlyHarmless (c.boundsCheck = true ∧ c.debug = true) limit ∅ ops outs) :
    ∃ S, Spec.FaultSets.follow limit ∅ ops outs = some S ∧ s.dim = S.card ∧
      (∀ (i : Nat) (hi : i < S.card), FaultySet.get c i s = .ok ((S.sort (· ≤ ·))[i]'(by simpa using hi)) s) ∧
      s.buf.lostLive = 0 ∧
      (limit = none → ∃ s', FaultySet.dtor c s = .ok () s' ∧ s'.buf.cap = 0 ∧ s'.buf.lostLive = 0) := by
  obtain ⟨S, e, h⟩ := faultySet_reach c throws limit ops outs s hr hh
  have g := h.plain
  refine ⟨S, e, h.dim, ?_, g.lost, ?_⟩
  · intro i hi
    unfold FaultySet.get
    rw [quiet_eq h, SortedArr.get_good c g i hi, bind_ok]
    simp only
    rw [← h.dim]
  · intro hl
    have hf := bufferManipulation.free_rep c g.rep (g.heap hl)
    simp only [Finset.length_sort] at hf
    unfold FaultySet.dtor Faulty.dtor
    rw [Faulty.bind_eq_ok h.size, onBuf_eq hf]
    exact ⟨_, rfl, rfl, g.lost⟩

/-- A history as in `C94_failed_calls_have_no_effect_partial`: it ended in state `s` with the set `S`. -/
structure SetSurvived (c : Cfg) (throws : Nat → Bool) (limit : Option Nat) (ops : List (SetOp T)) (S : Finset T) (s : Faulty T) :
    Prop where
  ends : (FaultySet.run c throws (init T limit) ops).2 = s
  harmless : Spec.FaultSets.OnlyHarmless (c.boundsCheck = true ∧ c.debug = true) limit ∅ ops
    (FaultySet.run c throws (init T limit) ops).1
  elements : Spec.FaultSets.follow limit ∅ ops (FaultySet.run c throws (init T limit) ops).1 = some S

theorem SetSurvived.holds {c : Cfg} {throws : Nat → Bool} {limit : Option Nat} {ops : List (SetOp T)} {S : Finset T} {s : Faulty T}
    (h : SetSurvived c throws limit ops S s) : HoldsSet limit S s := by
  obtain ⟨S', e, hg⟩ := faultySet_reach c throws limit ops _ s (Prod.ext rfl h.ends) h.harmless
  have := h.elements
  rw [e] at this
  cases this
  exact hg

omit [Inhabited T] in
theorem setGet_raw (c : Cfg) (s : Faulty T) (n k : Nat) (hd : s.dim = n) (hk : k < n) (hcap : n ≤ s.buf.cap)
    (hr : s.buf.cell k = .raw) : ∃ u, FaultySet.get c k s = .error (.ub u) s := by
  refine ⟨.rawRead, ?_⟩
  have hsz : size s = .ok n s := by
    rw [size_eq (by omega)]
    simp only [hd, Int.toNat_natCast]
  refine (Faulty.bind_eq_ok hsz).trans ?_
  have hget : SortedArr.get c ({ buf := s.buf, size := n } : SortedArr T) (k : Int) = .error (.ub .rawRead) := by
    unfold SortedArr.get
    have h1 : (decide ((k : Int) < 0) || decide ((n : Int) ≤ k)) = false := by
      simp; omega
    simp only
    rw [h1, Bool.and_false, errorIf_false, bind_ok, if_neg (by omega)]
    unfold Buf.read
    rw [if_pos (by simp only [Int.toNat_natCast]; omega)]
    simp only [Int.toNat_natCast, hr]
  simp only [hget]
  rfl

omit [Inhabited T] in
theorem below_card {S : Finset T} {v : T} {f1 f2 : List T} (hx : S.sort (· ≤ ·) = f1 ++ f2) (k1 : ∀ x ∈ f1, x < v)
    (k2 : ∀ x ∈ f2, v ≤ x) : (S.filter (· < v)).card = f1.length := by
  have hfil : (S.sort (· ≤ ·)).filter (fun x => decide (x < v)) = f1 := by
    rw [hx, List.filter_append, List.filter_eq_self.mpr (fun x hm => by simpa using k1 x hm),
      List.filter_eq_nil_iff.mpr (fun x hm => by simpa using k2 x hm), List.append_nil]
  have : S.filter (· < v) = ((S.sort (· ≤ ·)).filter (fun x => decide (x < v))).toFinset := by
    ext x; simp
  rw [this, List.toFinset_card_of_nodup ((Finset.sort_nodup _ _).filter _), hfil]

omit [Inhabited T] in
theorem above_ne_nil {S : Finset T} {v : T} {f1 f2 : List T} (hx : S.sort (· ≤ ·) = f1 ++ f2) (k1 : ∀ x ∈ f1, x < v)
    (habove : ∃ x ∈ S, v < x) : f1.length < S.card := by
  have hl : f1.length + f2.length = S.card := by rw [← List.length_append, ← hx]; simp
  have h2 : f2 ≠ [] := by
    rintro rfl
    obtain ⟨x, hxS, hvx⟩ := habove
    have : x ∈ f1 := by
      have hm : x ∈ S.sort (· ≤ ·) := by simpa using hxS
      rw [hx] at hm
      simpa using hm
    exact absurd (lt_trans hvx (k1 x this)) (lt_irrefl v)
  have := List.length_pos_iff.mpr h2
  omega

/-- **C94, disagreement.** If the copy constructor of the value throws in an insertion in front of another value, the values
above have been moved out of the way and not moved back: the size is what it was, reading the array at the position of the
insertion is undefined, and so is destroying the array. -/
theorem C94_throw_in_insert_breaks_set (c : Cfg) (ht : c.trivial = false) (throws : Nat → Bool) (limit : Option Nat)
    (ops : List (SetOp T)) (S : Finset T) (s : Faulty T) (h : SetSurvived c throws limit ops S s) (v : T) (hv : v ∉ S)
    (habove : ∃ x ∈ S, v < x) (hf : Spec.fits limit (S.card + 1)) (hthrow : throws s.count = true) :
    ∃ s', FaultySet.call c throws (.insert v) s = .error .element s' ∧ s'.dim = S.card ∧
      (∃ u, FaultySet.get c ((S.filter (· < v)).card : Nat) s' = .error (.ub u) s') ∧
      (∃ u, FaultySet.dtor c s' = .error (.ub u) s') := by
  have hh := h.holds
  obtain ⟨f1, f2, b, b', hx, k1, k2, g, hcap, hsh, hbc, hraw, hiff⟩ := insert_threw c throws hh v hv hf
  have hi := (hiff _).mpr ⟨ht, hthrow, rfl⟩
  have hcall : FaultySet.call c throws (.insert v) s = .error .element { s with buf := b', count := s.count + 1 } := by
    refine bind_eq_error ?_
    unfold FaultySet.insert
    rw [Faulty.bind_eq_ok hh.size, bind_eq_error hi]
  have hlt := above_ne_nil hx k1 habove
  have h2 : f2 ≠ [] := by
    rintro rfl
    rw [List.append_nil] at hx
    have : f1.length = S.card := by rw [← hx]; simp
    omega
  have hd := hh.dim
  refine ⟨_, hcall, hd, ?_, dtor_raw c ht f1.length (by simp only; omega) (by simp only; omega) (hraw h2)⟩
  rw [below_card hx k1 k2]
  exact setGet_raw c _ S.card _ hd hlt (by simp only; omega) (hraw h2)

/-- **C94, disagreement.** The same for every range: if the copy of a new value in front of a value of the set throws (the new
values of the range are copied from the last to the first), the position of that value holds no object. -/
theorem C94_throw_in_range_insert_breaks_set (c : Cfg) (ht : c.trivial = false) (throws : Nat → Bool) (limit : Option Nat)
    (ops : List (SetOp T)) (S : Finset T) (s : Faulty T) (h : SetSurvived c throws limit ops S s) (vs : List T)
    (hvs : Spec.sortedUnique vs) (hf : Spec.fits limit (S ∪ vs.toFinset).card) (v : T) (hm : v ∈ vs) (hv : v ∉ S)
    (hq : ∀ j, j < ((vs.toFinset \ S).filter (v < ·)).card → throws (s.count + j) = false)
    (hthrow : throws (s.count + ((vs.toFinset \ S).filter (v < ·)).card) = true) (habove : ∃ x ∈ S, v < x) :
    ∃ s', FaultySet.call c throws (.insertMany vs) s = .error .element s' ∧ s'.dim = S.card ∧
      (∃ u, FaultySet.get c ((S.filter (· < v)).card : Nat) s' = .error (.ub u) s') ∧
      (∃ u, FaultySet.dtor c s' = .error (.ub u) s') := by
  have hlt : (S.filter (· < v)).card < S.card := by
    refine Finset.card_lt_card ⟨Finset.filter_subset _ _, fun hs => ?_⟩
    obtain ⟨x, hx, hvx⟩ := habove
    exact absurd (lt_trans hvx (Finset.mem_filter.mp (hs hx)).2) (lt_irrefl v)
  rw [SortedArr.card_union_eq] at hf
  obtain ⟨t, e, hd, -, hcap, -, -, hraw, -⟩ := insertMany_threw c ht throws h.holds vs hvs (by omega) v hm hv _ _ rfl rfl hf hq hthrow
  exact ⟨t, bind_eq_error e, hd, setGet_raw c t S.card _ hd hlt (by omega) hraw, dtor_raw c ht _ (by omega) (by omega) hraw⟩

omit [Inhabited T] in
theorem setGet_live (c : Cfg) (s : Faulty T) (n k : Nat) (x : T) (hd : s.dim = n) (hk : k < n) (hcap : n ≤ s.buf.cap)
    (hr : s.buf.cell k = .live x) : FaultySet.get c k s = .ok x s := by
  have hsz : size s = .ok n s := by
    rw [size_eq (by omega)]
    simp only [hd, Int.toNat_natCast]
  refine (Faulty.bind_eq_ok hsz).trans ?_
  have hget : SortedArr.get c ({ buf := s.buf, size := n } : SortedArr T) (k : Int) = .ok x := by
    unfold SortedArr.get
    have h1 : (decide ((k : Int) < 0) || decide ((n : Int) ≤ k)) = false := by
      simp; omega
    simp only
    rw [h1, Bool.and_false, errorIf_false, bind_ok, if_neg (by omega)]
    unfold Buf.read
    rw [if_pos (by simp only [Int.toNat_natCast]; omega)]
    simp only [Int.toNat_natCast, hr]
  simp only [hget, bind_ok]
  rw [← hd]

/-- **C94.** If the copy of a new value of a range above all values of the set throws, the set reads as before.  If no other
value was copied before it, the array can be used further like any other.  **Disagreement**: the values copied before it are
never destroyed, as the destructor of an array on the heap shows. -/
theorem C94_throw_in_range_insert_above (c : Cfg) (ht : c.trivial = false) (throws : Nat → Bool) (limit : Option Nat)
    (ops : List (SetOp T)) (S : Finset T) (s : Faulty T) (h : SetSurvived c throws limit ops S s) (hS : S.Nonempty) (vs : List T)
    (hvs : Spec.sortedUnique vs) (hf : Spec.fits limit (S ∪ vs.toFinset).card) (v : T) (hm : v ∈ vs) (hv : ∀ x ∈ S, x < v)
    (hq : ∀ j, j < (vs.toFinset.filter (v < ·)).card → throws (s.count + j) = false)
    (hthrow : throws (s.count + (vs.toFinset.filter (v < ·)).card) = true) :
    ∃ s', FaultySet.call c throws (.insertMany vs) s = .error .element s' ∧ s'.dim = S.card ∧
      (∀ (i : Nat) (hi : i < (S.sort (· ≤ ·)).length), FaultySet.get c i s' = .ok (S.sort (· ≤ ·))[i] s') ∧
      ((∀ w ∈ vs, w ≤ v) → ∀ later,
        Spec.FaultSets.OnlyHarmless (c.boundsCheck = true ∧ c.debug = true) limit S later (FaultySet.run c throws s' later).1 →
        (Spec.FaultSets.follow limit S later (FaultySet.run c throws s' later).1).isSome = true) ∧
      (limit = none → ∃ s'', FaultySet.dtor c s' = .ok () s'' ∧ s''.buf.lostLive = (vs.toFinset.filter (v < ·)).card) := by
  have hvS : v ∉ S := fun hm => absurd (hv v hm) (lt_irrefl v)
  have hsd : (vs.toFinset \ S).filter (v < ·) = vs.toFinset.filter (v < ·) := by
    ext x
    simp only [Finset.mem_filter, Finset.mem_sdiff]
    exact ⟨fun h => ⟨h.1.1, h.2⟩, fun h => ⟨⟨h.1, fun hx => absurd (lt_trans h.2 (hv x hx)) (lt_irrefl v)⟩, h.2⟩⟩
  have hh := h.holds
  rw [SortedArr.card_union_eq] at hf
  obtain ⟨t, e, hd, hmk, hcap, hkind, hlost, -, hall⟩ := insertMany_threw c ht throws hh vs hvs
    (Finset.card_ne_zero.mpr hS) v hm hvS _ _ rfl (by rw [hsd]) hf hq hthrow
  obtain ⟨hzero, hcell⟩ := hall hv
  generalize hkk : (vs.toFinset \ S).card = k at *
  generalize hmm : (vs.toFinset.filter (v < ·)).card = m at *
  have hlen : (S.sort (· ≤ ·)).length = S.card := by simp
  refine ⟨t, bind_eq_error e, hd, ?_, ?_, ?_⟩
  · intro i hi
    exact setGet_live c t S.card i _ hd (by omega) (by omega) (by rw [(hcell i).1 (by omega), cellsOf_lt hi])
  · intro hmax later hl
    have hm0 : m = 0 := by
      rw [← hmm, Finset.card_eq_zero, Finset.filter_eq_empty_iff]
      intro w hw hlt
      exact absurd (lt_of_lt_of_le hlt (hmax w (by simpa using hw))) (lt_irrefl v)
    obtain ⟨S', e', -⟩ := faultySet_run c throws limit later S t (hzero hm0) hl
    rw [e']
    rfl
  · rintro rfl
    have hl0 : s.buf.lostLive = 0 := hh.plain.lost
    have hmal : t.buf.kind = .malloc := by rw [hkind]; exact hh.plain.heap rfl
    have hfree : ∃ b, bufferManipulation.free c t.buf S.card = .ok b ∧ b.lostLive = m := by
      unfold bufferManipulation.free
      rw [bufferManipulation.check_ok c _ _ (by omega), bind_ok, if_neg (by simp [ht]),
        arrayManipulation.destroy_eq c _ 0 S.card (.inr (by
          intro j _ hj
          refine ⟨by omega, ?_⟩
          rw [(hcell j).1 (by omega), cellsOf_lt (by omega)]
          rfl)), bind_ok]
      refine ⟨_, rfl, ?_⟩
      simp only [Buf.release, hmal]
      rw [hlost, hl0, countL_between c ht _ (S.card + k - m) m]
      · omega
      · intro j
        simp only
        constructor
        · intro ⟨h1, h2⟩
          rw [if_neg (by omega)]
          exact (hcell j).2.1 (by omega) (by omega)
        · intro hj
          split
          · rfl
          · by_cases h1 : j < S.card + k - m
            · rw [(hcell j).1 h1]
              exact cellsOf_ge (by omega)
            · exact (hcell j).2.2 (by omega)
    obtain ⟨b, hb, hl⟩ := hfree
    refine ⟨{ t with buf := b }, ?_, hl⟩
    have hsz : size t = .ok S.card t := by rw [size_eq (by omega), hd]; rfl
    refine (Faulty.bind_eq_ok hsz).trans ?_
    exact onBuf_eq (f := fun b => bufferManipulation.free c b S.card) hb

/-- A history that ended without undefined behaviour, and one more call. -/
theorem setRun_one_more (c : Cfg) (throws : Nat → Bool) (limit : Option Nat) (op : SetOp T) :
    ∀ (ops : List (SetOp T)) (S S' : Finset T) (s : Faulty T),
      Spec.FaultSets.follow limit S ops (FaultySet.run c throws s ops).1 = some S' →
      FaultySet.run c throws s (ops ++ [op]) =
        ((FaultySet.run c throws s ops).1 ++ (FaultySet.run c throws (FaultySet.run c throws s ops).2 [op]).1,
        (FaultySet.run c throws (FaultySet.run c throws s ops).2 [op]).2)
  | [], _, _, _, _ => by simp [FaultySet.run]
  | o :: ops, S, S', s, h => by
    rw [List.cons_append, FaultySet.run, FaultySet.run]
    rw [FaultySet.run] at h
    cases hcall : FaultySet.call c throws o s with
    | ok a s' =>
      rw [hcall] at h
      simp only [Spec.FaultSets.follow, Option.bind_eq_some_iff] at h
      obtain ⟨S1, -, h⟩ := h
      simp only [setRun_one_more c throws limit op ops S1 S' s' h, List.cons_append]
    | error e s' =>
      rw [hcall] at h
      cases e with
      | element =>
        simp only [Spec.FaultSets.follow, Option.bind_eq_some_iff] at h
        obtain ⟨S1, -, h⟩ := h
        simp only [setRun_one_more c throws limit op ops S1 S' s' h, List.cons_append]
      | handler =>
        simp only [Spec.FaultSets.follow, Option.bind_eq_some_iff] at h
        obtain ⟨S1, -, h⟩ := h
        simp only [setRun_one_more c throws limit op ops S1 S' s' h, List.cons_append]
      | ub u => simp [Spec.FaultSets.follow, Spec.FaultSets.after] at h

/-- **C94, disagreement.** Catching the exception does not help: the history with that insertion as its last call ends with the
broken array. -/
theorem C94_set_stays_broken (c : Cfg) (ht : c.trivial = false) (throws : Nat → Bool) (limit : Option Nat)
    (ops : List (SetOp T)) (S : Finset T) (s : Faulty T) (h : SetSurvived c throws limit ops S s) (v : T) (hv : v ∉ S)
    (habove : ∃ x ∈ S, v < x) (hf : Spec.fits limit (S.card + 1)) (hthrow : throws s.count = true) :
    (FaultySet.run c throws (init T limit) (ops ++ [.insert v])).1 = (FaultySet.run c throws (init T limit) ops).1 ++ [.threw] ∧
    (∃ u, FaultySet.get c ((S.filter (· < v)).card : Nat) (FaultySet.run c throws (init T limit) (ops ++ [.insert v])).2 =
      .error (.ub u) (FaultySet.run c throws (init T limit) (ops ++ [.insert v])).2) ∧
    (∃ u, FaultySet.dtor c (FaultySet.run c throws (init T limit) (ops ++ [.insert v])).2 =
      .error (.ub u) (FaultySet.run c throws (init T limit) (ops ++ [.insert v])).2) := by
  obtain ⟨s', e, -, h1, h2⟩ := C94_throw_in_insert_breaks_set c ht throws limit ops S s h v hv habove hf hthrow
  have hr := setRun_one_more c throws limit (.insert v) ops ∅ S _ h.elements
  rw [h.ends] at hr
  simp only [FaultySet.run, e] at hr
  rw [hr]
  exact ⟨rfl, h1, h2⟩

/-- **C94, disagreement.** If one of several values inserted into an empty set throws, the set stays empty, but the values
constructed before it are never destroyed: the destructor of an array on the heap releases their storage with them in it. -/
theorem C94_throw_in_range_insert_leaks (c : Cfg) (ht : c.trivial = false) (throws : Nat → Bool) (ops : List (SetOp T))
    (s : Faulty T) (h : SetSurvived c throws none ops ∅ s) (vs : List T) (hv : Spec.sortedUnique vs) (k : Nat) (hk : k < vs.length)
    (hq : ∀ j, j < k → throws (s.count + j) = false) (hthrow : throws (s.count + k) = true) :
    ∃ s', FaultySet.call c throws (.insertMany vs) s = .error .element s' ∧ s'.dim = 0 ∧
      ∃ s'', FaultySet.dtor c s' = .ok () s'' ∧ s''.buf.lostLive = k := by
  have hh := h.holds
  obtain ⟨s', e, hd, hc, hcap, hkind, hlost⟩ := fill_throw c ht hh vs hv k hk hq hthrow (by simp [Spec.fits])
  refine ⟨s', bind_eq_error e, hd, ?_⟩
  have hl0 : s.buf.lostLive = 0 := hh.plain.lost
  have hm : s'.buf.kind = .malloc := by rw [hkind]; exact hh.plain.heap rfl
  have hfree : ∃ b, bufferManipulation.free c s'.buf 0 = .ok b ∧ b.lostLive = k := by
    unfold bufferManipulation.free
    rw [bufferManipulation.check_ok c _ _ (by omega), bind_ok, if_neg (by simp [ht]),
      arrayManipulation.destroy_eq c _ 0 0 (.inr (by intro j _ hj; omega)), bind_ok]
    refine ⟨_, rfl, ?_⟩
    simp only [Buf.release, hm]
    rw [hlost, hl0, countL_between c ht _ 0 k]
    · omega
    · intro j
      simp only [hc, cellsOf]
      constructor
      · intro ⟨h1, h2⟩
        rw [if_neg (by omega), List.getElem?_eq_getElem (by simp; omega)]
        exact ⟨_, rfl⟩
      · intro hj
        split
        · rfl
        · rw [List.getElem?_eq_none (by simp; omega)]
  obtain ⟨b, hb, hl⟩ := hfree
  refine ⟨{ s' with buf := b }, ?_, hl⟩
  have hsz : size s' = .ok 0 s' := by rw [size_eq (by omega), hd]; rfl
  refine (Faulty.bind_eq_ok hsz).trans ?_
  exact onBuf_eq (f := fun b => bufferManipulation.free c b 0) hb

/-- **C94, disagreement.** The full statement, that every call that ends in an exception leaves the set as it was, is false of
the code, in builds with all checks as well. -/
theorem C94_full_statement_fails : ¬ ∀ (c : Cfg) (throws : Nat → Bool) (limit : Option Nat) (ops : List (SetOp Nat)),
    c.boundsCheck = true → c.debug = true →
    (Spec.FaultSets.follow limit ∅ ops (FaultySet.run c throws (init Nat limit) ops).1).isSome = true := by
  intro h
  have := h ⟨false, true, true⟩ (fun k => k == 2) none [.insert 1, .insert 4, .insert 2, .contains 4] rfl rfl
  exact absurd this (by decide +kernel)

/-- Only element types that are not trivial throw, and only where `throws` says so: without exceptions from elements, no call
ends with one. -/
theorem C94_no_spurious_throw (c : Cfg) (throws : Nat → Bool) (limit : Option Nat) (ops : List (SetOp T))
    (hq : c.trivial = true ∨ ∀ k, throws k = false) :
    FaultySet.Outcome.threw ∉ (FaultySet.run c throws (init T limit) ops).1 := by
  suffices H : ∀ (ops : List (SetOp T)) (s : Faulty T), FaultySet.Outcome.threw ∉ (FaultySet.run c throws s ops).1 from H ops _
  intro ops
  induction ops with
  | nil => intro s; simp [FaultySet.run]
  | cons op ops ih =>
    intro s
    have hn := noThrow_call c throws hq op s
    unfold FaultySet.run
    rcases hc : FaultySet.call c throws op s with ⟨_, s'⟩ | ⟨_ | _ | u, s'⟩
    · simpa using ih s'
    · exact absurd hc (hn s')
    · simpa using ih s'
    · simp

/-! ## The hypotheses can be met -/

/-- All checks, elements that may throw. -/
def setThrowing : Cfg := ⟨false, true, true⟩

/-- A history with a constructor that throws (the third) and calls that are refused, after each of which the array is used
further. -/
def failingSetCalls : List (SetOp Nat) :=
  [.insert 5, .insert 2, .insert 7, .get 9, .insertMany [3, 1], .insert 7, .insertMany [1, 2, 6], .remove 5, .insert 2]

example : (FaultySet.run setThrowing (fun k => k == 2) (init Nat none) failingSetCalls).1 =
    [.returned (.bool true), .returned (.bool true), .threw, .refused, .refused, .returned (.bool true), .returned (.num 2),
      .returned (.bool true), .returned (.bool false)] := by decide +kernel

example : Spec.FaultSets.follow none ∅ failingSetCalls
    (FaultySet.run setThrowing (fun k => k == 2) (init Nat none) failingSetCalls).1 = some {1, 2, 6, 7} := by decide +kernel

example : Spec.FaultSets.OnlyHarmless (setThrowing.boundsCheck = true ∧ setThrowing.debug = true) none ∅ failingSetCalls
    (FaultySet.run setThrowing (fun k => k == 2) (init Nat none) failingSetCalls).1 := by
  have e : (FaultySet.run setThrowing (fun k => k == 2) (init Nat none) failingSetCalls).1 =
    [.returned (.bool true), .returned (.bool true), .threw, .refused, .refused, .returned (.bool true), .returned (.num 2),
      .returned (.bool true), .returned (.bool false)] := by decide +kernel
  rw [e]
  simp [failingSetCalls, Spec.FaultSets.OnlyHarmless, Spec.FaultSets.after, Spec.setStep, Spec.fits,
    Spec.FaultSets.harmlessThrow, setThrowing]

/-- A range with one new value, above all others, that throws. -/
example : Spec.FaultSets.OnlyHarmless (setThrowing.boundsCheck = true ∧ setThrowing.debug = true) none ∅
    [.insert 3, .insertMany [3, 5], .insertMany [3, 5]]
    (FaultySet.run setThrowing (fun k => k == 1) (init Nat none) [.insert 3, .insertMany [3, 5], .insertMany [3, 5]]).1 ∧
    (FaultySet.run setThrowing (fun k => k == 1) (init Nat none) [.insert 3, .insertMany [3, 5], .insertMany [3, 5]]).1 =
      [.returned (.bool true), .threw, .returned (.num 1)] := by
  have e : (FaultySet.run setThrowing (fun k => k == 1) (init Nat none) [.insert 3, .insertMany [3, 5], .insertMany [3, 5]]).1 =
      [.returned (.bool true), .threw, .returned (.num 1)] := by decide +kernel
  rw [e]
  refine ⟨⟨by simp [setThrowing], nofun, fun S' hS' => ?_⟩, rfl⟩
  have : S' = {3} := by
    have h2 : Spec.FaultSets.after none ∅ (.insert 3) (.returned (.bool true)) = some ({3} : Finset Nat) := by decide +kernel
    rw [h2] at hS'
    cases hS'
    rfl
  subst this
  refine ⟨by simp [setThrowing], fun _ => ⟨5, by decide +kernel, by decide⟩, fun S' _ => ?_⟩
  exact ⟨by simp [setThrowing], nofun, fun _ _ => trivial⟩

/-- A stack array of capacity three that holds two values, and an insertion between them that throws. -/
example : SetSurvived setThrowing (fun k => k == 2) (some 3) [.insert 1, .insert 4] {1, 4}
    (FaultySet.run setThrowing (fun k => k == 2) (init Nat (some 3)) [.insert 1, .insert 4]).2 ∧
    (FaultySet.run setThrowing (fun k => k == 2) (init Nat (some 3)) [.insert 1, .insert 4]).2.count = 2 ∧
    (FaultySet.run setThrowing (fun k => k == 2) (init Nat (some 3)) [.insert 1, .insert 4, .insert 2]).1 =
      [.returned (.bool true), .returned (.bool true), .threw] ∧
    (FaultySet.run setThrowing (fun k => k == 2) (init Nat (some 3)) [.insert 1, .insert 4, .insertMany [1, 2]]).1 =
      [.returned (.bool true), .returned (.bool true), .threw] := by
  refine ⟨⟨rfl, ?_, by decide +kernel⟩, by decide +kernel, by decide +kernel, by decide +kernel⟩
  have e : (FaultySet.run setThrowing (fun k => k == 2) (init Nat (some 3)) [.insert 1, .insert 4]).1 =
    [.returned (.bool true), .returned (.bool true)] := by decide +kernel
  rw [e]
  simp [Spec.FaultSets.OnlyHarmless, setThrowing]

example : SetSurvived setThrowing (fun k => k == 2) none [.insert 1, .remove 1] (∅ : Finset Nat)
    (FaultySet.run setThrowing (fun k => k == 2) (init Nat none) [.insert 1, .remove 1]).2 ∧
    (FaultySet.run setThrowing (fun k => k == 2) (init Nat none) [.insert 1, .remove 1, .insertMany [4, 6, 8]]).1 =
      [.returned (.bool true), .returned (.bool true), .threw] := by
  refine ⟨⟨rfl, ?_, by decide +kernel⟩, by decide +kernel⟩
  have e : (FaultySet.run setThrowing (fun k => k == 2) (init Nat none) [.insert 1, .remove 1]).1 =
    [.returned (.bool true), .returned (.bool true)] := by decide +kernel
  rw [e]
  simp [Spec.FaultSets.OnlyHarmless, setThrowing]

/-- Ranges whose second copy throws: of a value between two values of the set, and of one above them. -/
example : SetSurvived setThrowing (fun k => k == 3) none [.insert 1, .insert 4] {1, 4}
    (FaultySet.run setThrowing (fun k => k == 3) (init Nat none) [.insert 1, .insert 4]).2 ∧
    (FaultySet.run setThrowing (fun k => k == 3) (init Nat none) [.insert 1, .insert 4]).2.count = 2 ∧
    ((([2, 3] : List Nat).toFinset \ {1, 4}).filter (2 < ·)).card = 1 ∧
    (([6, 7] : List Nat).toFinset.filter (6 < ·)).card = 1 ∧
    (FaultySet.run setThrowing (fun k => k == 3) (init Nat none) [.insert 1, .insert 4, .insertMany [2, 3], .contains 4]).1 =
      [.returned (.bool true), .returned (.bool true), .threw, .undefined .rawRead] ∧
    (FaultySet.run setThrowing (fun k => k == 3) (init Nat none) [.insert 1, .insert 4, .insertMany [6, 7], .contains 4]).1 =
      [.returned (.bool true), .returned (.bool true), .threw, .returned (.bool true)] := by
  refine ⟨⟨rfl, ?_, by decide +kernel⟩, by decide +kernel, by decide, by decide, by decide +kernel, by decide +kernel⟩
  have e : (FaultySet.run setThrowing (fun k => k == 3) (init Nat none) [.insert 1, .insert 4]).1 =
    [.returned (.bool true), .returned (.bool true)] := by decide +kernel
  rw [e]
  simp [Spec.FaultSets.OnlyHarmless, setThrowing]

end LvArray.Props

import Verif.FaultsLemmas
import Verif.Props.Vector
/-!
# C67: a call that fails leaves the array as it was
-/

namespace LvArray.Props

open LvArray LvArray.Faulty

variable {T : Type} [Inhabited T]

/-- One call whose failure is harmless. -/
theorem faulty_call (c : Cfg) (throws : Nat → Bool) {limit : Option Nat} {xs : List T} {s : Faulty T}
    (h : Holds limit xs s) (op : VecOp T) (hne : c.debug = true → ∀ pos, op ≠ .insert pos [])
    (hv : (c.boundsCheck = true ∧ c.debug = true) ∨ (Spec.vecStep limit xs op).isSome = true) :
    match call c throws op s with
    | .ok _ s' => ∃ ys, Spec.vecStep limit xs op = some ys ∧ Holds limit ys s'
    | .error .element s' => (Spec.vecStep limit xs op).isSome = true ∧
        (Spec.Faults.harmlessThrow xs op → Holds limit xs s')
    | .error .handler s' => Spec.vecStep limit xs op = none ∧ (Spec.Faults.harmlessRefusal op → Holds limit xs s')
    | .error (.ub _) _ => False := by
  have hsim := sim_call c throws op s h.1
  have hleaves := leaves_call c throws xs op s h
  have hdo : match Spec.vecStep limit xs op with
      | some ys => ∃ a, s.arr.step c op = .ok a ∧ Good limit a ys
      | none => s.arr.step c op = .error .abort := by
    rcases hs : Spec.vecStep limit xs op with _ | ys
    · rcases hv with ⟨hb, hd⟩ | hv
      · exact step_abort c hb hd h.2 op hs
      · rw [hs] at hv; cases hv
    · refine step_ok c h.2 op hs ?_
      cases op with
      | insert pos vs =>
        cases vs with
        | nil => exact fun hn => hne hn.1 pos rfl
        | cons v vs => exact fun hn => hn
      | _ => exact fun hn => hn
  rcases hc : call c throws op s with ⟨_, s'⟩ | ⟨_ | _ | u, s'⟩ <;> simp only [hc, Match] at hsim hleaves ⊢
  · rcases hs : Spec.vecStep limit xs op with _ | ys <;> simp only [hs] at hdo
    · rw [hsim.2] at hdo; cases hdo
    · obtain ⟨a, ha, hg⟩ := hdo
      rw [hsim.2] at ha
      cases ha
      exact ⟨ys, rfl, hsim.1, hg⟩
  · rcases hs : Spec.vecStep limit xs op with _ | ys <;> simp only [hs] at hdo
    · exact absurd hdo hsim
    · exact ⟨rfl, fun ht => hleaves (fun _ => ht) nofun⟩
  · rcases hs : Spec.vecStep limit xs op with _ | ys <;> simp only [hs] at hdo
    · exact ⟨rfl, fun ht => hleaves nofun fun _ => ht⟩
    · obtain ⟨a, ha, hg⟩ := hdo
      rw [hsim] at ha; cases ha
  · rcases hs : Spec.vecStep limit xs op with _ | ys <;> simp only [hs] at hdo
    · rw [hsim] at hdo; cases hdo
    · obtain ⟨a, ha, hg⟩ := hdo
      rw [hsim] at ha; cases ha

theorem faulty_run (c : Cfg) (throws : Nat → Bool) (limit : Option Nat) : ∀ (ops : List (VecOp T)) (xs : List T) (s : Faulty T),
    Holds limit xs s → (c.debug = true → noEmptyInsert ops) →
    Spec.Faults.OnlyHarmless (c.boundsCheck = true ∧ c.debug = true) limit xs ops (run c throws s ops).1 →
    ∃ ys, Spec.Faults.follow limit xs ops (run c throws s ops).1 = some ys ∧ Holds limit ys (run c throws s ops).2
  | [], xs, s, h, _, _ => ⟨xs, rfl, h⟩
  | op :: ops, xs, s, h, hne, hh => by
    have hne' : c.debug = true → noEmptyInsert ops := fun hd pos hm => hne hd pos (by simp [hm])
    have hv : (c.boundsCheck = true ∧ c.debug = true) ∨ (Spec.vecStep limit xs op).isSome = true := by
      unfold run at hh
      rcases hc : call c throws op s with ⟨_, s'⟩ | ⟨_ | _ | u, s'⟩ <;> simp only [hc] at hh <;> exact hh.1
    have key := faulty_call c throws h op (fun hd pos he => hne hd pos (by simp [he])) hv
    unfold run at hh ⊢
    rcases hc : call c throws op s with ⟨_, s'⟩ | ⟨_ | _ | u, s'⟩ <;>
      simp only [hc, Spec.Faults.OnlyHarmless, Spec.Faults.follow, Spec.Faults.after] at hh key ⊢
    · obtain ⟨ys, e, hg⟩ := key
      obtain ⟨zs, e1, h1⟩ := faulty_run c throws limit ops ys s' hg hne' (hh.2.2.2 ys e)
      exact ⟨zs, by rw [e]; exact e1, h1⟩
    · obtain ⟨e, hg⟩ := key
      rw [if_pos e] at hh ⊢
      exact faulty_run c throws limit ops xs s' (hg (hh.2.1 trivial)) hne' (hh.2.2.2 xs rfl)
    · obtain ⟨e, hg⟩ := key
      rw [if_neg (by simp [e])] at hh ⊢
      exact faulty_run c throws limit ops xs s' (hg (hh.2.2.1 trivial)) hne' (hh.2.2.2 xs rfl)

theorem faulty_reach (c : Cfg) (throws : Nat → Bool) (limit : Option Nat) (ops : List (VecOp T))
    (outs : List Outcome) (s : Faulty T) (hr : run c throws (init T limit) ops = (outs, s))
    (hne : c.debug = true → noEmptyInsert ops)
    (hh : Spec.Faults.OnlyHarmless (c.boundsCheck = true ∧ c.debug = true) limit [] ops outs) :
    ∃ xs, Spec.Faults.follow limit [] ops outs = some xs ∧ Holds limit xs s := by
  have h0 : Holds limit [] (init T limit) := ⟨Int.le_refl 0, by cases limit <;> exact Good.init T _⟩
  have key := faulty_run c throws limit ops [] _ h0 hne (by rw [hr]; exact hh)
  rw [hr] at key
  exact key

/-- **C67 (harmless failures).** Take any history of calls on a heap array or a stack array, any choice of the element
constructors and assignments that throw, and an error handler that throws; whoever calls catches the exception and goes on.
If every failing call is of a kind that constructs at most one element at the end, or is refused before anything is changed,
then a failing call has no effect: the array has the size and the elements that the calls that returned give it, no element
is lost, and the destructor destroys each of them.  The calls that are refused are exactly those that violate their
precondition, and no behaviour is undefined.
Missing for the full property: the failures named in `harmlessThrow` and `harmlessRefusal` do have effects, see the theorems
below. -/
theorem C67_failed_calls_have_no_effect_partial (c : Cfg) (throws : Nat → Bool) (limit : Option Nat) (ops : List (VecOp T))
    (outs : List Outcome) (s : Faulty T) (hr : run c throws (init T limit) ops = (outs, s))
    (hne : c.debug = true → noEmptyInsert ops)
    (hh : Spec.Faults.OnlyHarmless (c.boundsCheck = true ∧ c.debug = true) limit [] ops outs) :
    ∃ xs, Spec.Faults.follow limit [] ops outs = some xs ∧ s.dim = xs.length ∧
      (∀ (i : Nat) (hi : i < xs.length), Faulty.get c i s = .ok xs[i] s) ∧ s.buf.lostLive = 0 ∧
      (limit = none → ∃ s', dtor c s = .ok () s' ∧ s'.buf.cap = 0 ∧ s'.buf.lostLive = 0) := by
  obtain ⟨xs, e, hn, hg⟩ := faulty_reach c throws limit ops outs s hr hne hh
  have hdim := hg.size
  simp only [arr] at hdim
  have hd : ¬ s.dim < 0 := by omega
  refine ⟨xs, e, by omega, ?_, hg.lost, ?_⟩
  · intro i hi
    have hget := get_ok c hg i hi
    simp only [arr] at hget
    show EStateM.bind size _ s = _
    simp only [EStateM.bind, size, if_neg hd]
    show eval _ s = _
    simp only [eval, hget]
  · intro hl
    have hf := bufferManipulation.free_rep c hg.rep (hg.heap hl)
    simp only [arr] at hf
    show ∃ s', EStateM.bind size _ s = _ ∧ _
    simp only [EStateM.bind, size, if_neg hd, hdim, onBuf, hf]
    exact ⟨_, rfl, rfl, hg.lost⟩

/-- A history as in `C67_failed_calls_have_no_effect_partial`, of calls on a heap array (`limit = none`) or a stack array: it
ended in state `s` with the elements `xs`. -/
structure Survived (c : Cfg) (throws : Nat → Bool) (limit : Option Nat) (ops : List (VecOp T)) (xs : List T) (s : Faulty T) : Prop where
  noEmpty : c.debug = true → noEmptyInsert ops
  ends : (run c throws (init T limit) ops).2 = s
  harmless : Spec.Faults.OnlyHarmless (c.boundsCheck = true ∧ c.debug = true) limit [] ops (run c throws (init T limit) ops).1
  elements : Spec.Faults.follow limit [] ops (run c throws (init T limit) ops).1 = some xs

theorem Survived.holds {c : Cfg} {throws : Nat → Bool} {limit : Option Nat} {ops : List (VecOp T)} {xs : List T} {s : Faulty T}
    (h : Survived c throws limit ops xs s) : Holds limit xs s := by
  obtain ⟨ys, e, hg⟩ := faulty_reach c throws limit ops _ s (Prod.ext rfl h.ends) h.noEmpty h.harmless
  have := h.elements
  rw [e] at this
  cases this
  exact hg

/-- **C67, disagreement.** If the constructor of an element inserted in front of another one throws, the elements have been
moved out of the way and not moved back: the size is what it was, reading the array at the position of the insertion is
undefined, and so is destroying the array. -/
theorem C67_throw_in_emplace_breaks_array (c : Cfg) (ht : c.trivial = false) (throws : Nat → Bool) (limit : Option Nat)
    (ops : List (VecOp T)) (xs : List T) (s : Faulty T) (h : Survived c throws limit ops xs s) (pos : Nat) (hp : pos < xs.length)
    (v : T) (hf : Spec.fits limit (xs.length + 1)) (hthrow : throws s.count = true) :
    ∃ s', call c throws (.emplace pos v) s = .error .element s' ∧ s'.dim = xs.length ∧
      (∃ u, Faulty.get c pos s' = .error (.ub u) s') ∧ (∃ u, dtor c s' = .error (.ub u) s') := by
  obtain ⟨s', e, hd, hr, hc⟩ := emplace_throw c ht h.holds hthrow pos hp hf v
  exact ⟨s', e, hd, get_raw c pos (by omega) (.inl hr), dtor_raw c ht pos (by omega) (by omega) hr⟩

/-- A history that ended without undefined behaviour, and one more call. -/
theorem run_one_more (c : Cfg) (throws : Nat → Bool) (limit : Option Nat) (op : VecOp T) :
    ∀ (ops : List (VecOp T)) (xs ys : List T) (s : Faulty T),
      Spec.Faults.follow limit xs ops (run c throws s ops).1 = some ys →
      run c throws s (ops ++ [op]) = ((run c throws s ops).1 ++ (run c throws (run c throws s ops).2 [op]).1,
        (run c throws (run c throws s ops).2 [op]).2)
  | [], _, _, _, _ => by simp [run]
  | o :: ops, xs, ys, s, h => by
    rw [List.cons_append, run, run]
    rw [run] at h
    cases hcall : call c throws o s with
    | ok a s' =>
      rw [hcall] at h
      simp only [Spec.Faults.follow, Option.bind_eq_bind, Option.bind_eq_some_iff] at h
      obtain ⟨zs, -, h⟩ := h
      simp only [run_one_more c throws limit op ops zs ys s' h, List.cons_append]
    | error e s' =>
      rw [hcall] at h
      cases e with
      | element =>
        simp only [Spec.Faults.follow, Option.bind_eq_bind, Option.bind_eq_some_iff] at h
        obtain ⟨zs, -, h⟩ := h
        simp only [run_one_more c throws limit op ops zs ys s' h, List.cons_append]
      | handler =>
        simp only [Spec.Faults.follow, Option.bind_eq_bind, Option.bind_eq_some_iff] at h
        obtain ⟨zs, -, h⟩ := h
        simp only [run_one_more c throws limit op ops zs ys s' h, List.cons_append]
      | ub u => simp [Spec.Faults.follow, Spec.Faults.after] at h

/-- **C67, disagreement.** Catching the exception does not help: the history with that `emplace` as its last call ends with the
broken array. -/
theorem C67_array_stays_broken (c : Cfg) (ht : c.trivial = false) (throws : Nat → Bool) (limit : Option Nat)
    (ops : List (VecOp T)) (xs : List T) (s : Faulty T) (h : Survived c throws limit ops xs s) (pos : Nat) (hp : pos < xs.length)
    (v : T) (hf : Spec.fits limit (xs.length + 1)) (hthrow : throws s.count = true) :
    (run c throws (init T limit) (ops ++ [.emplace pos v])).1 = (run c throws (init T limit) ops).1 ++ [.threw] ∧
    (∃ u, Faulty.get c pos (run c throws (init T limit) (ops ++ [.emplace pos v])).2 =
      .error (.ub u) (run c throws (init T limit) (ops ++ [.emplace pos v])).2) ∧
    (∃ u, dtor c (run c throws (init T limit) (ops ++ [.emplace pos v])).2 =
      .error (.ub u) (run c throws (init T limit) (ops ++ [.emplace pos v])).2) := by
  obtain ⟨s', e, -, h1, h2⟩ := C67_throw_in_emplace_breaks_array c ht throws limit ops xs s h pos hp v hf hthrow
  have hr := run_one_more c throws limit (.emplace pos v) ops [] xs _ h.elements
  rw [h.ends] at hr
  simp only [run, e] at hr
  rw [hr]
  exact ⟨rfl, h1, h2⟩

/-- **C67, disagreement.** If the constructor of one of the new elements of a growing `resize` throws, the array claims the
new size although the elements from that one on do not exist: reading one is undefined, and so is destroying the array. -/
theorem C67_throw_in_resize_breaks_array (c : Cfg) (ht : c.trivial = false) (throws : Nat → Bool) (limit : Option Nat)
    (ops : List (VecOp T)) (xs : List T) (s : Faulty T) (h : Survived c throws limit ops xs s) (n k : Nat) (hk : xs.length + k < n)
    (v : T) (hf : Spec.fits limit n) (hq : ∀ j, j < k → throws (s.count + j) = false) (hthrow : throws (s.count + k) = true) :
    ∃ s', call c throws (.resizeDefault n v) s = .error .element s' ∧ s'.dim = n ∧
      (∃ u, Faulty.get c (xs.length + k : Nat) s' = .error (.ub u) s') ∧ (∃ u, dtor c s' = .error (.ub u) s') := by
  obtain ⟨s', e, hd, hr, hc⟩ := resizeDefault_throw c ht h.holds n k hk hq hthrow hf v
  exact ⟨s', e, hd, get_raw c (xs.length + k) (by omega) (.inl hr), dtor_raw c ht (xs.length + k) (by omega) (by omega) hr⟩

/-- **C67, disagreement.** A `resize` of a stack array beyond its capacity calls the error handler after the size was set: if
the handler throws, the array claims elements beyond its storage, and even with bounds checking enabled reading the first of
them is undefined. -/
theorem C67_refused_resize_breaks_stack_array (c : Cfg) (throws : Nat → Bool) (l : Nat) (ops : List (VecOp T)) (xs : List T)
    (s : Faulty T) (h : Survived c throws (some l) ops xs s) (n : Nat) (hl : l < n) (v : T) :
    ∃ s', call c throws (.resizeDefault n v) s = .error .handler s' ∧ s'.dim = n ∧
      (∃ u, Faulty.get c l s' = .error (.ub u) s') := by
  obtain ⟨s', e, hd, hc⟩ := resizeDefault_refused c throws h.holds n hl v
  exact ⟨s', e, hd, get_raw c l (by omega) (.inr (by omega))⟩

/-- **C67, disagreement.** The same for a call that the error handler refused: a stack array that claims too many elements
keeps claiming them. -/
theorem C67_stack_array_stays_broken (c : Cfg) (throws : Nat → Bool) (l : Nat) (ops : List (VecOp T)) (xs : List T)
    (s : Faulty T) (h : Survived c throws (some l) ops xs s) (n : Nat) (hl : l < n) (v : T) :
    (run c throws (init T (some l)) (ops ++ [.resizeDefault n v])).1 = (run c throws (init T (some l)) ops).1 ++ [.refused] ∧
    (run c throws (init T (some l)) (ops ++ [.resizeDefault n v])).2.dim = n := by
  obtain ⟨s', e, hd, -⟩ := C67_refused_resize_breaks_stack_array c throws l ops xs s h n hl v
  have hr := run_one_more c throws (some l) (.resizeDefault n v) ops [] xs _ h.elements
  rw [h.ends] at hr
  simp only [run, e] at hr
  rw [hr]
  exact ⟨rfl, hd⟩

/-- **C67, disagreement.** `resize` called with an argument whose type is not the index type sets the size before it refuses a
negative one: if the error handler throws, the size of the array is negative. -/
theorem C67_refused_negative_resize_changes_size (c : Cfg) (throws : Nat → Bool) (limit : Option Nat) (ops : List (VecOp T))
    (xs : List T) (s : Faulty T) (h : Survived c throws limit ops xs s) (n : Int) (hn : n < 0) (v : T) :
    resizeDims c throws n v s = .error .handler { s with dim := n } ∧
      call c throws (.resizeDefault n v) s = .error .handler s := by
  have hsz := size_eq h.holds.1
  constructor
  · unfold resizeDims
    rw [Faulty.bind_eq_ok hsz, Faulty.bind_eq_ok (show setDim n s = .ok () { s with dim := n } from rfl)]
    exact bind_eq_error (by simp [eval, errorIf, hn])
  · exact bind_eq_error (p := eval (errorIf (decide (n < 0)))) (by simp [eval, errorIf, hn])

/-- **C67, disagreement.** If one of several elements inserted at the end throws, size and elements are unchanged, but the
elements constructed before it are never destroyed: the destructor of a heap array releases their storage with them in it. -/
theorem C67_throw_in_insert_leaks (c : Cfg) (ht : c.trivial = false) (throws : Nat → Bool) (ops : List (VecOp T)) (xs : List T)
    (s : Faulty T) (h : Survived c throws none ops xs s) (vs : List T) (k : Nat) (hk : k < vs.length)
    (hq : ∀ j, j < k → throws (s.count + j) = false) (hthrow : throws (s.count + k) = true) :
    ∃ s', call c throws (.insert xs.length vs) s = .error .element s' ∧ s'.dim = xs.length ∧
      (∀ (i : Nat) (hi : i < xs.length), Faulty.get c i s' = .ok xs[i] s') ∧
      ∃ s'', dtor c s' = .ok () s'' ∧ s''.buf.lostLive = k := by
  obtain ⟨s', e, hd, hc, hcap, hkind, hlost⟩ := insert_throw c ht h.holds vs k hk hq hthrow (by simp [Spec.fits])
  have hsz := size_eq (s := s') (by omega)
  refine ⟨s', e, hd, ?_, ?_⟩
  · intro i hi
    have hck : ({ buf := s'.buf, size := s'.dim.toNat } : Array1 T).checkIndex c i = .ok i := by
      unfold Array1.checkIndex
      rw [if_neg (by simp only; omega)]; rfl
    have hrd : s'.buf.read i = .ok xs[i] := by
      unfold Buf.read
      rw [if_pos (by omega), hc, cellsOf_lt (show i < (xs ++ vs.take k).length by simp; omega)]
      simp [List.getElem_append_left hi]
    refine (Faulty.bind_eq_ok hsz).trans ?_
    show eval _ s' = _
    simp only [eval, Array1.get, hck, bind_ok, hrd]
  · have hl0 : s.buf.lostLive = 0 := h.holds.2.lost
    have hm : s'.buf.kind = .malloc := by rw [hkind]; exact h.holds.2.heap rfl
    have hdn : s'.dim.toNat = xs.length := by omega
    have hfree : ∃ b, bufferManipulation.free c s'.buf xs.length = .ok b ∧ b.lostLive = k := by
      unfold bufferManipulation.free
      rw [bufferManipulation.check_ok c _ _ (by omega), bind_ok, if_neg (by simp [ht]),
        arrayManipulation.destroy_eq c _ 0 xs.length (.inr (by
          intro j _ hj
          refine ⟨by omega, ?_⟩
          rw [hc, cellsOf_lt (show j < (xs ++ vs.take k).length by simp; omega)]; rfl)), bind_ok]
      refine ⟨_, rfl, ?_⟩
      simp only [Buf.release, hm]
      rw [hlost, hl0, countL_between c ht _ xs.length k]
      · omega
      · intro j
        simp only [hc, cellsOf]
        constructor
        · intro ⟨h1, h2⟩
          rw [if_neg (by omega), List.getElem?_eq_getElem (by simp; omega)]
          exact ⟨_, rfl⟩
        · intro hj
          split
          · rfl
          · rw [List.getElem?_eq_none (by simp; omega)]
    obtain ⟨b, hb, hl⟩ := hfree
    refine ⟨{ s' with buf := b }, ?_, hl⟩
    refine (Faulty.bind_eq_ok hsz).trans ?_
    rw [hdn]
    exact onBuf_eq hb

/-- `a` is a heap array that a valid history has given the elements `ys`. -/
def Holding (c : Cfg) (a : Array1 T) (ys : List T) : Prop :=
  ∃ ops, (c.debug = true → noEmptyInsert ops) ∧ Spec.vecRun none [] ops = some ys ∧ (Array1.init T none).run c ops = .ok a

theorem Holding.good {c : Cfg} {a : Array1 T} {ys : List T} (h : Holding c a ys) : Good none a ys := by
  obtain ⟨ops, hne, hv, hr⟩ := h
  obtain ⟨a', e, g⟩ := run_good c none ops _ [] ys (Good.init T none) hne hv
  rw [hr] at e
  cases e
  exact g

/-- **C67, disagreement.** If the assignment operator of the first element throws in a copy assignment from a shorter array,
the elements beyond the length of the source are destroyed and the size is what it was: reading one of them is undefined, and
so is destroying the array.  (A copy assignment that returns has its effect, `C67_copy_assignment_that_returns`.) -/
theorem C67_throw_in_copy_breaks_array (c : Cfg) (ht : c.trivial = false) (throws : Nat → Bool) (limit : Option Nat)
    (ops : List (VecOp T)) (xs : List T) (s : Faulty T) (h : Survived c throws limit ops xs s) (rhs : Array1 T) (ys : List T)
    (hrhs : Holding c rhs ys) (h0 : ys ≠ []) (hlt : ys.length < xs.length) (hthrow : throws s.count = true) :
    ∃ s', copyAssign c throws rhs s = .error .element s' ∧ s'.dim = xs.length ∧
      (∃ u, Faulty.get c ys.length s' = .error (.ub u) s') ∧ (∃ u, dtor c s' = .error (.ub u) s') := by
  have hrhs := hrhs.good
  have hs := hrhs.size
  have hl := List.length_pos_iff.mpr h0
  obtain ⟨s', e, hd, hr, hc⟩ := copyAssign_throw c ht h.holds rhs (by rw [hs]; exact hrhs.rep.2) (by omega) (by omega) hthrow
  rw [hs] at hr
  exact ⟨s', e, hd, get_raw c ys.length (by omega) (.inl hr), dtor_raw c ht ys.length (by omega) (by omega) hr⟩

/-- A copy assignment that returns has its effect: size and elements are those of the source. -/
theorem C67_copy_assignment_that_returns (c : Cfg) (throws : Nat → Bool) (limit : Option Nat) (ops : List (VecOp T))
    (xs : List T) (s s' : Faulty T) (h : Survived c throws limit ops xs s) (rhs : Array1 T) (ys : List T)
    (hrhs : Holding c rhs ys) (hret : copyAssign c throws rhs s = .ok () s') :
    s'.dim = ys.length ∧ ∀ (i : Nat) (hi : i < ys.length), Faulty.get c i s' = .ok ys[i] s' := by
  have hg := h.holds
  have hrhs := hrhs.good
  have hsim := sim_copyAssign c throws rhs s hg.1
  simp only [hret, Match] at hsim
  have hrep := hg.2.rep
  simp only [arr] at hrep
  have hasg := hsim.2
  rw [Array1.copyAssign, hg.2.size, hrhs.size] at hasg
  simp only [arr] at hasg
  by_cases hroom : s.buf.room ys.length
  · rw [bufferManipulation.copyInto_rep c hrep hrhs.rep default hroom, bind_ok] at hasg
    simp only [Except.ok.injEq, Array1.mk.injEq] at hasg
    obtain ⟨hb, hn⟩ := hasg
    have hd : s'.dim = ys.length := by have := hsim.1; omega
    refine ⟨hd, fun i hi => ?_⟩
    have hrd : s'.buf.read i = .ok ys[i] := bufferManipulation.read_rep (xs := ys) (by
      rw [← hb]
      exact ⟨rfl, by simp only; omega⟩) i hi
    have hck : ({ buf := s'.buf, size := s'.dim.toNat } : Array1 T).checkIndex c i = .ok i := by
      unfold Array1.checkIndex
      rw [if_neg (by simp only; omega)]; rfl
    refine (Faulty.bind_eq_ok (size_eq hsim.1)).trans ?_
    show eval _ s' = _
    simp only [eval, Array1.get, hck, bind_ok, hrd]
  · exfalso
    unfold bufferManipulation.copyInto bufferManipulation.resize at hasg
    rw [bufferManipulation.check_ok c _ _ hrep.2, bind_ok, bufferManipulation.check_ok c _ _ hrhs.rep.2, bind_ok,
      bind_ok, bufferManipulation.reserve_abort c hrep.2 _ hroom] at hasg
    simp at hasg

/-- **C67, disagreement.** The full statement, that every call that ends in an exception leaves the array as it was, is false
of the code, in builds with all checks as well. -/
theorem C67_full_statement_fails : ¬ ∀ (c : Cfg) (throws : Nat → Bool) (limit : Option Nat) (ops : List (VecOp Nat)),
    c.boundsCheck = true → c.debug = true → noEmptyInsert ops →
    (Spec.Faults.follow limit [] ops (run c throws (init Nat limit) ops).1).isSome = true := by
  intro h
  have := h ⟨false, true, true⟩ (fun k => k == 2) none [.emplaceBack 1, .emplaceBack 2, .emplace 0 3, .erase 0] rfl rfl
    (by intro pos hm; simp at hm)
  exact absurd this (by decide +kernel)

/-- Only element types that are not trivial throw, and only where `throws` says so: without exceptions from elements, no call
ends with one. -/
theorem C67_no_spurious_throw (c : Cfg) (throws : Nat → Bool) (limit : Option Nat) (ops : List (VecOp T))
    (hq : c.trivial = true ∨ ∀ k, throws k = false) : Outcome.threw ∉ (run c throws (init T limit) ops).1 := by
  suffices H : ∀ (ops : List (VecOp T)) (s : Faulty T), Outcome.threw ∉ (run c throws s ops).1 from H ops _
  intro ops
  induction ops with
  | nil => intro s; simp [run]
  | cons op ops ih =>
    intro s
    have hn := quiet_call c throws hq op s
    unfold run
    rcases hc : call c throws op s with ⟨_, s'⟩ | ⟨_ | _ | u, s'⟩
    · simpa using ih s'
    · exact absurd hc (hn s')
    · simpa using ih s'
    · simp

/-! ## The hypotheses can be met -/

/-- All checks, elements that may throw. -/
def throwing : Cfg := ⟨false, true, true⟩

/-- The third element constructor throws. -/
def thirdThrows : Nat → Bool := fun k => k == 2

/-- A history with a constructor that throws and three calls that are refused, after each of which the array is used
further. -/
def failingCalls : List (VecOp Nat) :=
  [.emplaceBack 1, .emplaceBack 2, .emplaceBack 3, .erase 7, .emplace 2 4, .resize (-1), .set 9 0, .insert 1 [5, 6]]

example : (run throwing thirdThrows (init Nat none) failingCalls).1 =
    [.returned, .returned, .threw, .refused, .returned, .refused, .refused, .returned] := by decide +kernel

example : Spec.Faults.follow none [] failingCalls (run throwing thirdThrows (init Nat none) failingCalls).1 =
    some [1, 5, 6, 2, 4] := by decide +kernel

example : Spec.Faults.OnlyHarmless (throwing.boundsCheck = true ∧ throwing.debug = true) none [] failingCalls
    (run throwing thirdThrows (init Nat none) failingCalls).1 := by
  have e : (run throwing thirdThrows (init Nat none) failingCalls).1 =
    [.returned, .returned, .threw, .refused, .returned, .refused, .refused, .returned] := by decide +kernel
  rw [e]
  simp [failingCalls, Spec.Faults.OnlyHarmless, Spec.Faults.after, Spec.vecStep, Spec.fits, Spec.Faults.harmlessThrow,
    Spec.Faults.harmlessRefusal, throwing]

example : Survived throwing thirdThrows (some 3) [.emplaceBack 1, .emplaceBack 2] [1, 2]
    (run throwing thirdThrows (init Nat (some 3)) [.emplaceBack 1, .emplaceBack 2]).2 ∧
    thirdThrows (run throwing thirdThrows (init Nat (some 3)) [.emplaceBack 1, .emplaceBack 2]).2.count = true ∧
    (run throwing thirdThrows (init Nat (some 3)) [.emplaceBack 1, .emplaceBack 2, .emplace 1 7]).1 =
      [.returned, .returned, .threw] := by
  refine ⟨⟨fun _ pos hm => by simp at hm, rfl, ?_, by decide +kernel⟩, by decide +kernel, by decide +kernel⟩
  have e : (run throwing thirdThrows (init Nat (some 3)) [.emplaceBack 1, .emplaceBack 2]).1 = [.returned, .returned] := by
    decide +kernel
  rw [e]
  simp [Spec.Faults.OnlyHarmless, throwing]

example : Holding throwing (T := Nat) (Array1.mk { (Buf.empty : Buf Nat) with cap := 2, cell := upd (fun _ => .raw) 0 (.live 4) } 1) [4] :=
  ⟨[.emplaceBack 4], fun _ pos hm => by simp at hm, by decide +kernel, rfl⟩

end LvArray.Props

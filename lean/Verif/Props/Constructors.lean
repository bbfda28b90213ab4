import Verif.Constructors
import Verif.Props.Faults
import Verif.Props.FaultSetCopies
/-!
# C96: constructors that throw
-/

namespace LvArray.Props

open LvArray Faulty Spec Constructors

section Lists

variable {T : Type} [Inhabited T]

omit [Inhabited T] in
theorem fresh_holds : Holds none ([] : List T) (init T none) := ⟨Int.le_refl 0, Good.init T _⟩

omit [Inhabited T] in
theorem resizeDims_eq (c : Cfg) (throws : Nat → Bool) (n : Nat) (v : T) :
    resizeDims c throws n v (init T none) = resizeDefault c throws n v (init T none) := by
  unfold resizeDims resizeDefault
  have he : ∀ t : Faulty T, eval (errorIf (decide ((n : Int) < 0))) t = .ok () t := by
    intro t
    rw [show decide ((n : Int) < 0) = false by simp, errorIf_false]
    rfl
  have hz : size (init T none) = .ok 0 (init T none) := rfl
  have hd : setDim (n : Int) (init T none) = .ok () { (init T none) with dim := n } := rfl
  rw [Faulty.bind_eq_ok (he _), Faulty.bind_eq_ok hz, Faulty.bind_eq_ok hz, Faulty.bind_eq_ok hd, Faulty.bind_eq_ok hd,
    Faulty.bind_eq_ok (he _)]

/-- The values of a fresh buffer, without an exception. -/
theorem fresh_resize (c : Cfg) (throws : Nat → Bool) (n : Nat) (hq : ∀ j, j < n → throws j = false) (s : Faulty T)
    (hs : s.buf = (init T none).buf) (hc : s.count = 0) :
    ∃ b : Buf T, resizeBuffer c throws 0 n default s = .ok () ⟨b, s.dim, n⟩ ∧
      Rep b (List.replicate n default) ∧ b.kind = .malloc ∧ b.lostLive = 0 := by
  have h := fresh_holds (T := T)
  have hrep : Rep s.buf ([] : List T) := by rw [hs]; exact h.2.rep
  have hr : s.buf.room n := by rw [hs]; exact (h.2.room _).2 (by simp [Spec.fits])
  unfold resizeBuffer
  rw [Faulty.bind_eq_ok (checking_eq (bufferManipulation.check_ok c _ _ hrep.2)),
    Faulty.bind_eq_ok (onBuf_eq (f := (bufferManipulation.reserve c · 0 n)) (bufferManipulation.reserve_rep c hrep _ hr)),
    Faulty.bind_eq_ok (onBuf_eq (f := (arrayManipulation.destroy c · n (0 - n)))
      (arrayManipulation.destroy_eq c _ n (0 - n) (.inr (by intro j _ _; omega)))),
    loop_quiet c throws (fun i b => b.construct c i default) _ _ _ _ (by
        intro j hj
        rw [← hq j (by omega)]
        simp [hc])
      (arrayManipulation.constructRange_eq c _ 0 (n - 0) (fun _ => default) (.inr (by simp only; omega)) (by
        intro j hj _
        simp only [hrep.1]
        rw [if_neg (by omega)]
        exact cellsOf_ge (by simp)))]
  refine ⟨_, by simp only [hc, Nat.sub_zero, Nat.zero_add]; rfl, ⟨?_, ?_⟩, by simp only [hs]; exact h.2.heap rfl,
    by simp only [hs]; exact h.2.lost⟩
  · funext j
    simp only [hrep.1]
    by_cases hj : j < n
    · rw [if_pos (by omega), cellsOf_lt (by simpa using hj)]
      simp
    · rw [if_neg (by omega), if_neg (by omega), cellsOf_ge (by simp), cellsOf_ge (by simp; omega)]
  · simp only [List.length_replicate]; omega

omit [Inhabited T] in
theorem get_rep (c : Cfg) {s : Faulty T} {ys : List T} (hd : s.dim = ys.length) (hr : Rep s.buf ys) (i : Nat) (hi : i < ys.length) :
    Faulty.get c i s = .ok ys[i] s := by
  have hck : ({ buf := s.buf, size := s.dim.toNat } : Array1 T).checkIndex c i = .ok i := by
    unfold Array1.checkIndex
    rw [if_neg (by simp only; omega)]
    rfl
  have hrd := bufferManipulation.read_rep hr i hi
  show EStateM.bind size _ s = _
  simp only [EStateM.bind, size, if_neg (show ¬ s.dim < 0 by omega)]
  show EStateM.bind EStateM.get _ s = _
  simp only [EStateM.bind, EStateM.get, eval, Array1.get, hck, bind_ok, hrd]

/-- A copy into a fresh array in which nothing throws. -/
theorem fresh_copy (c : Cfg) (throws : Nat → Bool) (rhs : Array1 T) (ys : List T) (hrhs : Good none rhs ys)
    (hq : ∀ j, j < 2 * ys.length → throws j = false) :
    ∃ s, Faulty.copyAssign c throws rhs (init T none) = .ok () s ∧ s.dim = ys.length ∧ Rep s.buf ys := by
  have hs : rhs.size = ys.length := hrhs.size
  have hsrc := hrhs.rep
  have hrep : Rep (init T none).buf ([] : List T) := fresh_holds.2.rep
  obtain ⟨b, hres, hb, -, -⟩ := fresh_resize (T := T) c throws ys.length (fun j hj => hq j (by omega)) (init T none)
    rfl rfl
  have hbl : (List.replicate ys.length (default : T)).length = ys.length := by simp
  have hfor := copyLoop_rep c hb hsrc hbl ys.length (Nat.le_refl _)
  have hz : size (init T none) = .ok 0 (init T none) := rfl
  unfold Faulty.copyAssign
  rw [Faulty.bind_eq_ok hz,
    Faulty.bind_eq_ok (checking_eq (bufferManipulation.check_ok c _ _ hrep.2)), hs,
    Faulty.bind_eq_ok (checking_eq (f := fun _ => bufferManipulation.check c rhs.buf ys.length)
      (bufferManipulation.check_ok c _ _ hsrc.2)), Faulty.bind_eq_ok hres,
    Faulty.bind_eq_ok (loop_quiet c throws (fun i b => rhs.buf.read i >>= fun x => b.write c i x) _ _ _ _
      (fun j hj => hq _ (by simp only; omega)) hfor)]
  refine ⟨_, rfl, rfl, ?_, ?_⟩
  · simp
  · have := hb.2
    rw [hbl] at this
    exact this

/-! ## Constructors that return -/

/-- **C96.** If no value throws, `Array( n )` has `n` values, each the default one. -/
theorem C96_sized_array (c : Cfg) (throws : Nat → Bool) (n : Nat) (hq : ∀ j, j < n → throws j = false) :
    ∃ s : Faulty T, sized c throws n = .made s ∧ s.dim = n ∧ ∀ i, i < n → Faulty.get c i s = .ok default s := by
  obtain ⟨b, e, hb, -, -⟩ := fresh_resize (T := T) c throws n hq { (init T none) with dim := n } rfl rfl
  have hall : resizeDims c throws n default (init T none) = .ok () ⟨b, n, n⟩ := by
    rw [resizeDims_eq]
    have hz : size (init T none) = .ok 0 (init T none) := rfl
    have hd : setDim (n : Int) (init T none) = .ok () { (init T none) with dim := n } := rfl
    unfold resizeDefault
    rw [Faulty.bind_eq_ok (x := ()) (s1 := init T none)
        (by rw [show decide ((n : Int) < 0) = false by simp, errorIf_false]; rfl),
      Faulty.bind_eq_ok hz, Faulty.bind_eq_ok hd]
    exact e
  refine ⟨⟨b, n, n⟩, by rw [sized, hall]; rfl, rfl, fun i hi => ?_⟩
  rw [get_rep c (ys := List.replicate n default) (by simp) hb i (by simpa using hi)]
  simp

/-- **C96.** If no value throws, a copy of an array has the elements of the array. -/
theorem C96_copied_array (c : Cfg) (throws : Nat → Bool) (source : Array1 T) (ys : List T) (hs : Holding c source ys)
    (hq : ∀ j, j < 2 * ys.length → throws j = false) :
    ∃ s, copied c throws source = .made s ∧ s.dim = ys.length ∧
      ∀ i, (hi : i < ys.length) → Faulty.get c i s = .ok ys[i] s := by
  obtain ⟨s, e, hd, hr⟩ := fresh_copy c throws source ys hs.good hq
  exact ⟨s, by rw [copied, e]; rfl, hd, fun i hi => get_rep c hd hr i hi⟩

/-! ## Constructors that throw -/

/-- **C96, disagreement.** If the default constructor of any of the `n` values of `Array( n )` throws, the behaviour is undefined:
the size is set before the values are constructed, and the destructor, which runs because the constructor delegates, destroys
values that do not exist. -/
theorem C96_throw_in_sized_array (c : Cfg) (ht : c.trivial = false) (throws : Nat → Bool) (n k : Nat) (hk : k < n)
    (hq : ∀ j, j < k → throws j = false) (hthrow : throws k = true) :
    (sized c throws n : Built (Faulty T)) = .undefined := by
  obtain ⟨s', e, hd, hr, hc⟩ := resizeDefault_throw c ht (throws := throws) (fresh_holds (T := T)) n k
    (by simpa using hk) (by simpa [init] using hq) (by simpa [init] using hthrow) (by simp [Spec.fits]) default
  obtain ⟨u, hu⟩ := dtor_raw c ht (s := s') k (by omega) (by omega) (by simpa using hr)
  rw [sized, resizeDims_eq, e]
  simp only [delegating, hu]

/-- **C96, disagreement.** If the `k`-th of the calls by which the copy constructor of `Array` constructs and then assigns the
values throws, the memory is released, but the values that have been constructed are never destroyed: the size is set last, and
the destructor destroys no value. -/
theorem C96_throw_in_copied_array (c : Cfg) (ht : c.trivial = false) (throws : Nat → Bool) (source : Array1 T) (ys : List T)
    (hs : Holding c source ys) (k : Nat) (hk : k < 2 * ys.length) (hq : ∀ j, j < k → throws j = false) (hthrow : throws k = true) :
    copied c throws source = .threw (min k ys.length) 0 := by
  obtain ⟨s', zs, e, hd, hcap, hkind, hlost, hcell, hlen, -⟩ := copyAssign_threw_growing c ht (throws := throws)
    (fresh_holds (T := T)) source hs.good (by simp only [List.length_nil]; omega) (by simp [Spec.fits]) k
    (by simp only [List.length_nil]; omega) (by simpa [init] using hq) (by simpa [init] using hthrow)
  simp only [List.length_nil, Nat.sub_zero, Nat.zero_add] at hlen hd
  have hmal : s'.buf.kind = .malloc := by rw [hkind]; exact fresh_holds.2.heap rfl
  have hl0 : s'.buf.lostLive = 0 := by rw [hlost]; exact fresh_holds.2.lost
  obtain ⟨t, et, hlt, hcap0⟩ := dtor_leaks c ht s' zs 0 (min k ys.length) hd hcell (by omega) (by omega) hmal
  rw [copied, e]
  simp only [delegating]
  rw [show Faulty.dtor c s' = .ok () t from et]
  simp only [hlt, hl0, hcap0, Nat.zero_add]

end Lists

section Sets

variable {T : Type} [LinearOrder T] [Inhabited T]

/-- **C96.** If no value throws, a copy of a sorted array lists the set of the array. -/
theorem C96_copied_set (c : Cfg) (throws : Nat → Bool) (src : SortedArr T) (R : Finset T) (hs : HoldingSet c src R)
    (hq : ∀ j, j < 2 * R.card → throws j = false) :
    ∃ s, copiedSet c throws src = .made s ∧ s.dim = R.card ∧
      ∀ i, (hi : i < R.card) → FaultySet.get c i s = .ok ((R.sort (· ≤ ·))[i]'(by simpa using hi)) s := by
  have hR : (R.sort (· ≤ ·)).length = R.card := by simp
  obtain ⟨s, e, hd, hr⟩ := fresh_copy c throws { buf := src.buf, size := src.size } (R.sort (· ≤ ·)) hs.good
    (by rw [hR]; exact hq)
  rw [hR] at hd
  have hcap := hr.2
  refine ⟨s, by rw [copiedSet, FaultySet.copyAssign, e]; rfl, hd, fun i hi => setGet_live c s R.card i _ hd hi (by omega) ?_⟩
  rw [hr.1]
  exact cellsOf_lt (by omega)

/-- **C96, disagreement.** If the `k`-th of the calls by which the copy constructor of `SortedArray` constructs and then assigns
the values throws, neither the values that have been constructed are destroyed nor is the memory released: the constructor does not
delegate, so that the destructor does not run. -/
theorem C96_throw_in_copied_set (c : Cfg) (ht : c.trivial = false) (throws : Nat → Bool) (src : SortedArr T) (R : Finset T)
    (hs : HoldingSet c src R) (k : Nat) (hk : k < 2 * R.card) (hq : ∀ j, j < k → throws j = false) (hthrow : throws k = true) :
    ∃ memory, R.card ≤ memory ∧ copiedSet c throws src = .threw (min k R.card) memory := by
  have hR : (R.sort (· ≤ ·)).length = R.card := by simp
  obtain ⟨s', zs, e, hd, hcap, hkind, hlost, hcell, hlen, -⟩ := copyAssign_threw_growing c ht (throws := throws)
    (fresh_holds (T := T)) { buf := src.buf, size := src.size } (ys := R.sort (· ≤ ·)) hs.good
    (by simp only [List.length_nil]; omega) (by simp [Spec.fits]) k
    (by simp only [List.length_nil]; omega) (by simpa [init] using hq) (by simpa [init] using hthrow)
  simp only [List.length_nil, Nat.sub_zero, Nat.zero_add] at hlen
  have hl0 : s'.buf.lostLive = 0 := by rw [hlost]; exact fresh_holds.2.lost
  refine ⟨s'.buf.cap, by omega, ?_⟩
  rw [copiedSet, FaultySet.copyAssign, e]
  simp only [nonDelegating, hl0, Nat.zero_add]
  congr 1
  rw [countL_between c ht _ 0 (min k R.card)]
  · omega
  · intro j
    rw [hcell]
    exact ⟨fun h => ⟨_, cellsOf_lt (by omega)⟩, fun h => cellsOf_ge (by omega)⟩

end Sets

/-! ## The property -/

/-- **C96, partial.** The constructors of `Array` leave nothing behind if they do not throw or if the very first value of a copy
throws.  Missing: all other exceptions, of which the theorems above say what they leave behind. -/
theorem C96_constructors_clean_partial {T : Type} [Inhabited T] (c : Cfg) (ht : c.trivial = false) (throws : Nat → Bool)
    (source : Array1 T) (ys : List T) (hs : Holding c source ys) :
    ((∀ j, j < ys.length → throws j = false) ↔ (sized c throws ys.length : Built (Faulty T)).clean) ∧
    (((∀ j, j < 2 * ys.length → throws j = false) ∨ throws 0 = true) ↔ (copied c throws source).clean) := by
  have first : ∀ n, ¬ (∀ j, j < n → throws j = false) → ∃ k, k < n ∧ throws k = true ∧ ∀ j, j < k → throws j = false := by
    intro n
    induction n with
    | zero => intro h; exact absurd (by omega) h
    | succ n ih =>
      intro h
      by_cases hn : ∀ j, j < n → throws j = false
      · refine ⟨n, by omega, ?_, hn⟩
        by_contra hc
        refine h fun j hj => ?_
        by_cases hjn : j = n
        · subst hjn; simpa using hc
        · exact hn j (by omega)
      · obtain ⟨k, h1, h2⟩ := ih hn
        exact ⟨k, by omega, h2⟩
  constructor
  · by_cases h : ∀ j, j < ys.length → throws j = false
    · obtain ⟨s, e, -⟩ := C96_sized_array (T := T) c throws ys.length h
      rw [e]
      exact ⟨fun _ => trivial, fun _ => h⟩
    · obtain ⟨k, hk, h1, h2⟩ := first _ h
      rw [C96_throw_in_sized_array c ht throws _ k hk h2 h1]
      exact ⟨fun h' => absurd h' h, False.elim⟩
  · by_cases h : ∀ j, j < 2 * ys.length → throws j = false
    · obtain ⟨s, e, -⟩ := C96_copied_array c throws source ys hs h
      rw [e]
      exact ⟨fun _ => trivial, fun _ => .inl h⟩
    · obtain ⟨k, hk, h1, h2⟩ := first _ h
      rw [C96_throw_in_copied_array c ht throws source ys hs k hk h2 h1]
      constructor
      · rintro (h' | h')
        · exact absurd h' h
        · have : k = 0 := by
            by_contra hne
            rw [h2 0 (by omega)] at h'
            cases h'
          subst this
          exact ⟨by simp, rfl⟩
      · rintro ⟨hv, -⟩
        have : k = 0 := by omega
        subst this
        exact .inr h1

/-! ### Cases that meet the hypotheses -/

/-- A heap array that holds `5, 6`. -/
def pairArray : Option (Array1 Nat) :=
  match (Array1.init Nat none).run setThrowing [.emplaceBack 5, .emplaceBack 6] with
  | .ok a => some a
  | .error _ => none

/-- What a constructor that throws leaves behind. -/
def leftBehind (b : Built (Faulty Nat)) : Option (Nat × Nat) :=
  match b with
  | .threw values memory => some (values, memory)
  | _ => none

example : pairArray.isSome = true ∧ ∀ a, pairArray = some a → Holding setThrowing a [5, 6] := by
  refine ⟨by decide +kernel, fun a ha => ⟨[.emplaceBack 5, .emplaceBack 6], fun _ => by simp [noEmptyInsert], by decide +kernel, ?_⟩⟩
  unfold pairArray at ha
  split at ha
  · cases ha
    assumption
  · cases ha

/-- Values `0` to `3` of the index of the call that throws: constructions, then assignments. -/
example : [0, 1, 2, 3].map (fun k => pairArray.bind fun a => leftBehind (copied setThrowing (fun j => j == k) a)) =
    [some (0, 0), some (1, 0), some (2, 0), some (2, 0)] := by decide +kernel

example : (match (SortedArr.init Nat none).run setThrowing [.insert 5, .insert 6] with
    | .ok (a, _) => [0, 1, 2, 3].map (fun k => leftBehind (copiedSet setThrowing (fun j => j == k) a))
    | .error _ => []) = [some (0, 2), some (1, 2), some (2, 2), some (2, 2)] := by decide +kernel

example : (match (sized setThrowing (fun j => j == 2) 2 : Built (Faulty Nat)) with
    | .made s => s.dim
    | _ => 0) = 2 ∧
  (match (sized setThrowing (fun j => j == 1) 2 : Built (Faulty Nat)) with
    | .undefined => true
    | _ => false) = true := by decide +kernel

end LvArray.Props

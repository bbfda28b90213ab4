import Verif.AoSLemmas
import Verif.Props.ArrayOfArrays
import Verif.Props.SortedSet
import Verif.Props.Sorting

/-!
# C27, C28: `ArrayOfSets`
-/

namespace LvArray.Props

open LvArray Layout Spec sortedArrayManipulation

set_option linter.unusedSectionVars false

variable {T : Type} [LinearOrder T] [Inhabited T]

/-- What the accessors of an `ArrayOfSets` report: the number of sets, the size of each, the values in iteration order, and
the answer of `contains` for every value. -/
def ShowsSets (c : Cfg) (a : AoA T) (sets : List (Finset T)) : Prop :=
  a.shape.numArrays = sets.length ∧
  ∀ i (hi : i < sets.length), a.shape.sizeOfArray c i = .ok sets[i].card ∧
    (∀ j (hj : j < sets[i].card), a.get c i j = .ok ((sets[i].sort (· ≤ ·))[j]'(by simpa using hj))) ∧
    ∀ v, AoS.contains c a i v = .ok (decide (v ∈ sets[i]))

/-- `ArrayOfSets a( n, d )`, then the legal history `ops`, leads to `a`; `sets` is what the specification says. -/
def ReachSets (c : Cfg) (a : AoA T) (sets : List (Finset T)) : Prop :=
  ∃ n d ops outs a0, AoA.mk' c n d = .ok a0 ∧ AoS.run c a0 ops = .ok (a, outs) ∧
    aosRun (List.replicate n ∅) ops = some (sets, outs)

theorem showsSets_of_good {c : Cfg} {a : AoA T} {sets : List (Finset T)} (h : SetsGood a sets) : ShowsSets c a sets := by
  have hn : a.shape.numArrays = sets.length := by
    obtain ⟨L, hg, hL⟩ := h
    rw [hg.shape.num]
    simpa using congrArg List.length hL
  refine ⟨hn, fun i hi => ?_⟩
  obtain ⟨A, cap, B, rfl, hg, -⟩ := h.at (List.getElem?_eq_getElem hi)
  refine ⟨by rw [hg.shape.sizeOfAt rfl]; simp, fun j hj => hg.get j (by simpa using hj), fun v => AoS.contains_ok hg v⟩

theorem run_sets (c : Cfg) {a : AoA T} {sets : List (Finset T)} (h : SetsGood a sets) (ops : List (AoSOp T))
    (sets' : List (Finset T)) (outs : List (AoSOut T)) (hs : aosRun sets ops = some (sets', outs)) :
    (∃ a', AoS.run c a ops = .ok (a', outs) ∧ SetsGood a' sets') ∨
    (c.trivial = false ∧ AoS.run c a ops = .error (.ub .rawRead)) := by
  induction ops generalizing a sets sets' outs with
  | nil =>
    simp only [aosRun, Option.some.injEq, Prod.mk.injEq] at hs
    obtain ⟨rfl, rfl⟩ := hs
    exact .inl ⟨a, rfl, h⟩
  | cons op ops ih =>
    simp only [aosRun, Option.bind_eq_some_iff, Option.map_eq_some_iff, Prod.mk.injEq] at hs
    obtain ⟨⟨s1, o1⟩, h1, ⟨s2, o2⟩, h2, rfl, rfl⟩ := hs
    unfold AoS.run
    rcases AoS.step_ok (c := c) h op s1 o1 h1 with ⟨a1, e1, g1⟩ | ⟨ht, e1⟩
    · rw [e1, bind_ok]
      rcases ih g1 s2 o2 h2 with ⟨a2, e2, g2⟩ | ⟨ht, e2⟩
      · rw [e2, bind_ok]
        exact .inl ⟨a2, rfl, g2⟩
      · rw [e2, bind_err]
        exact .inr ⟨ht, rfl⟩
    · rw [e1, bind_err]
      exact .inr ⟨ht, rfl⟩

theorem mk_sets (c : Cfg) (n d : Nat) :
    ∃ a, (AoA.mk' c n d : R (AoA T)) = .ok a ∧ SetsGood a (List.replicate n ∅) := by
  obtain ⟨a, h1, h2⟩ := mk_good (T := T) c n d
  exact ⟨a, h1, _, h2, by simp⟩

theorem reachSets_good {c : Cfg} {a : AoA T} {sets : List (Finset T)} (h : ReachSets c a sets) : SetsGood a sets := by
  obtain ⟨n, d, ops, outs, a0, h1, h2, h3⟩ := h
  obtain ⟨a1, h4, h5⟩ := mk_sets (T := T) c n d
  rw [h1] at h4
  cases h4
  rcases run_sets c h5 ops sets outs h3 with ⟨a', h6, h7⟩ | ⟨_, h6⟩
  · rw [h2] at h6; cases h6; exact h7
  · rw [h2] at h6; cases h6

/-! ### C27 -/

/-- **C27.** An `ArrayOfSets` of trivially copyable values behaves like a vector of sets: for every history of legal calls
from construction on, no call fails, every call returns what the specification returns (whether the value was new, how many
values were added or removed, membership, the j-th smallest value), and afterwards the accessors show exactly the sets of the
specification. -/
theorem C27_vector_of_sets (c : Cfg) (ht : c.trivial = true) (n d : Nat) (ops : List (AoSOp T))
    (sets : List (Finset T)) (outs : List (AoSOut T)) (hs : aosRun (List.replicate n ∅) ops = some (sets, outs)) :
    ∃ a0 a, AoA.mk' c n d = .ok a0 ∧ AoS.run c a0 ops = .ok (a, outs) ∧ ShowsSets c a sets := by
  obtain ⟨a0, h1, h2⟩ := mk_sets (T := T) c n d
  rcases run_sets c h2 ops sets outs hs with ⟨a, h3, h4⟩ | ⟨h3, _⟩
  · exact ⟨a0, a, h1, h3, showsSets_of_good h4⟩
  · rw [ht] at h3; cases h3

/-- **C27 (any element type, partial).** For elements that are not trivially copyable the only other outcome is the relocation
of memory without objects when the allocation grows (see `C24_growth_moves_gaps`).  Missing: that outcome excluded, which is
false of the code. -/
theorem C27_any_type_partial (c : Cfg) (n d : Nat) (ops : List (AoSOp T))
    (sets : List (Finset T)) (outs : List (AoSOut T)) (hs : aosRun (List.replicate n ∅) ops = some (sets, outs)) :
    ∃ a0, AoA.mk' c n d = .ok a0 ∧
      ((∃ a, AoS.run c a0 ops = .ok (a, outs) ∧ ShowsSets c a sets) ∨
       (c.trivial = false ∧ AoS.run c a0 ops = .error (.ub .rawRead))) := by
  obtain ⟨a0, h1, h2⟩ := mk_sets (T := T) c n d
  refine ⟨a0, h1, ?_⟩
  rcases run_sets c h2 ops sets outs hs with ⟨a, h3, h4⟩ | h3
  · exact .inl ⟨a, h3, showsSets_of_good h4⟩
  · exact .inr h3

-- a history that grows sets in the middle, removes, erases and inserts sets
example : aosRun (List.replicate 2 (∅ : Finset Nat))
    [.insert 0 5, .insertMany 0 [1, 3, 5], .insert 1 7, .insert 1 7, .removeMany 0 [3, 4], .insertSet 1 2, .insert 1 9,
      .contains 2 7, .eraseSet 1] = some ([{1, 5}, {7}],
    [.bool true, .num 2, .bool true, .bool false, .num 1, .unit, .bool true, .bool true, .unit]) := by decide +kernel

/-- The range handed to a bulk operation is strictly increasing. -/
def rangeOk : AoSOp T → Prop
  | .insertMany _ vs => sortedUnique vs
  | .removeMany _ vs => sortedUnique vs
  | _ => True

/-- **C27 (illegal calls).** A call the specification does not allow (a set or a position that does not exist) aborts in builds
with bounds checks; a range that is not strictly increasing is reported as well if assertions are on. -/
theorem C27_illegal_reported (c : Cfg) (hb : c.boundsCheck = true) {a : AoA T} {sets : List (Finset T)}
    (h : ReachSets c a sets) (op : AoSOp T) (hd : rangeOk op ∨ c.debug = true) (hs : aosStep sets op = none) :
    AoS.step c a op = .error .abort := by
  replace h := reachSets_good h
  have hlen : ∃ L : Layout T, AGood a L ∧ L.length = sets.length := by
    obtain ⟨L, hg, hL⟩ := h
    exact ⟨L, hg, by simpa using congrArg List.length hL⟩
  have outside : ∀ {i}, sets[i]? = none → a.shape.checkBounds c i = .error .abort := by
    intro i hi
    obtain ⟨L, hg, hl⟩ := hlen
    exact ShGood.checkBounds_abort hg.shape hb (by simp only [List.getElem?_eq_none_iff] at hi; simpa [hl] using hi)
  have unsorted : ∀ {vs : List T}, ¬ sortedUnique vs → isSortedUnique less vs = false := by
    intro vs hv
    cases h : isSortedUnique less vs with
    | false => rfl
    | true =>
      refine absurd ?_ hv
      have := (C20_isSortedUnique less strictWeakOrder_less vs).1 h
      refine List.pairwise_iff_getElem.2 fun i j hi hj hij => ?_
      simpa [less] using this i j hij hj
  cases op with
  | insert i v =>
    simp only [aosStep, onSet, Option.map_eq_none_iff] at hs
    simp only [AoS.step, AoS.insertIntoSet]
    rw [outside hs]; rfl
  | insertMany i vs =>
    simp only [AoS.step, AoS.insertRangeIntoSet]
    cases hi : sets[i]? with
    | none => rw [outside hi]; rfl
    | some S =>
      have hv : ¬ sortedUnique vs := by
        intro hv
        simp [aosStep, if_pos hv, onSet, hi] at hs
      have hdb : c.debug = true := hd.resolve_left hv
      obtain ⟨A, cap, B, rfl, hg, -⟩ := h.at hi
      rw [hg.checkBounds (by simp), bind_ok, hg.shape.sizeOfAt rfl, bind_ok, hg.ptr, bind_ok]
      unfold insertRange
      rw [assertUnique_ok c id (sort_increasing S) (fun i hi => AoS.readRow hg i hi), bind_ok, unsorted hv, hdb]
      rfl
  | remove i v =>
    simp only [aosStep, onSet, Option.map_eq_none_iff] at hs
    simp only [AoS.step, AoS.removeFromSet]
    rw [outside hs]; rfl
  | removeMany i vs =>
    simp only [AoS.step, AoS.removeRangeFromSet]
    cases hi : sets[i]? with
    | none => rw [outside hi]; rfl
    | some S =>
      have hv : ¬ sortedUnique vs := by
        intro hv
        simp [aosStep, if_pos hv, onSet, hi] at hs
      have hdb : c.debug = true := hd.resolve_left hv
      obtain ⟨A, cap, B, rfl, hg, -⟩ := h.at hi
      rw [hg.checkBounds (by simp), bind_ok, hg.shape.sizeOfAt rfl, bind_ok, hg.ptr, bind_ok]
      unfold removeRange
      rw [assertUnique_ok c id (sort_increasing S) (fun i hi => AoS.readRow hg i hi), bind_ok, unsorted hv, hdb]
      rfl
  | contains i v =>
    simp only [aosStep, onSet, Option.map_eq_none_iff] at hs
    simp only [AoS.step, AoS.contains]
    rw [outside hs]; rfl
  | get i j =>
    simp only [AoS.step, AoA.get]
    have : a.shape.checkBounds2 c i j = .error .abort := by
      obtain ⟨L, hg, hL⟩ := id h
      refine ShGood.checkBounds2_abort hg.shape hb ?_
      intro n hn
      cases hi : sets[i]? with
      | none =>
        obtain ⟨hlt, _⟩ := List.getElem?_eq_some_iff.1 hn
        have := congrArg List.length hL
        simp at hlt hi this
        omega
      | some S =>
        simp [aosStep, hi] at hs
        have h2 := congrArg (·[i]?) hL
        rw [List.getElem?_map, List.getElem?_map, hi] at h2
        rw [szs, List.getElem?_map] at hn
        cases hLi : L[i]? with
        | none => rw [hLi] at hn; cases hn
        | some r =>
          rw [hLi] at h2 hn
          simp only [Option.map_some, Option.some.injEq] at h2 hn
          rw [h2] at hn
          simp at hn
          omega
    rw [this]; rfl
  | clearSet i =>
    simp only [aosStep, onSet, Option.map_eq_none_iff] at hs
    simp only [AoS.step, AoS.clearSet]
    rw [outside hs]; rfl
  | setCapacityOfSet i n =>
    simp only [aosStep, onSet, Option.map_eq_none_iff] at hs
    simp only [AoS.step, AoA.setCapacityOfArray]
    rw [outside hs]; rfl
  | reserveCapacityOfSet i n =>
    simp only [aosStep, onSet, Option.map_eq_none_iff] at hs
    simp only [AoS.step, AoS.reserveCapacityOfSet]
    rw [outside hs]; rfl
  | appendSet n => cases hs
  | insertSet i n =>
    simp only [aosStep] at hs
    split at hs
    · cases hs
    · obtain ⟨L, hg, hl⟩ := hlen
      simp only [AoS.step, AoS.insertSet, Shape.insertRow]
      rw [ShGood.checkInsertBounds_abort hg.shape hb (by simp; omega)]
      rfl
  | eraseSet i =>
    simp only [aosStep] at hs
    split at hs
    · cases hs
    · simp only [AoS.step, AoS.eraseSet, AoA.eraseArray]
      rw [outside (by simp; omega)]
      rfl
  | resize n d => cases hs
  | resizeFromCapacities cs => cases hs
  | reserve n => cases hs
  | reserveValues n => cases hs
  | compress => cases hs

example : aosStep [({1, 5} : Finset Nat)] (.insertMany 0 [3, 2]) = none ∧ aosStep [({1, 5} : Finset Nat)] (.eraseSet 1) = none ∧
    aosStep [({1, 5} : Finset Nat)] (.insert 1 2) = none := by decide +kernel

/-- **C27 (views).** Inserting through a view: if the capacity of the set suffices the value is added and nothing else
changes, for every element type and in every build; otherwise, and if the value is not there yet, builds with bounds checks
report the missing capacity. -/
theorem C27_view_insert (c : Cfg) {a : AoA T} {sets : List (Finset T)} (h : ReachSets c a sets) (i : Nat)
    (hi : i < sets.length) (v : T) (cap : Nat) (hcap : a.shape.capacityOfArray c i = .ok cap) :
    ((insert v sets[i]).card ≤ cap → ∃ a', AoS.insertIntoSet c (AoS.checking c i) a i v = .ok (a', decide (v ∉ sets[i])) ∧
      ShowsSets c a' (sets.set i (insert v sets[i]))) ∧
    (cap < (insert v sets[i]).card → c.boundsCheck = true → AoS.insertIntoSet c (AoS.checking c i) a i v = .error .abort) := by
  replace h := reachSets_good h
  obtain ⟨A, cap', B, hA, hg, hset⟩ := h.at (List.getElem?_eq_getElem hi)
  have hc : cap' = cap := by
    subst hA
    rw [hg.shape.capacityOfAt rfl] at hcap
    simpa using hcap
  subst hc
  have hinc : ∀ n, (AoS.target (AoS.checking c i) i).incrementSize a n = (a.shape.capacityCheck c i n >>= fun _ => .ok a) := fun n => rfl
  have hfit := hg.lay.fits (sets[i].sort (· ≤ ·), cap') (by simp)
  simp only [Finset.length_sort] at hfit
  generalize sets[i] = S at *
  subst hA
  refine ⟨fun hfits => ?_, fun hover hb => ?_⟩
  · obtain ⟨a', cap1, h1, h2⟩ := AoS.insert_ok (c := c) (inc := AoS.checking c _) hg v (fun n hn => ⟨a, cap', by
      rw [hinc, hg.capCheck (by simp; omega)]; rfl, hg, by omega⟩)
    exact ⟨a', h1, showsSets_of_good (hset _ _ _ h2)⟩
  · have hv : v ∉ S := fun hv => by rw [Finset.insert_eq_of_mem hv] at hover; omega
    rw [Finset.card_insert_of_notMem hv] at hover
    refine AoS.insert_err hg v hv .abort ?_
    rw [hinc]
    rw [ShGood.capacityCheck_abort hg.shape hb (by simp) (by simpa [szs, caps] using hover)]
    rfl

/-! ### C28 -/

/-- What `std::sort` guarantees on every range: a sorted permutation, no element lost. -/
def SortRoutine (sort : Buf T → R (Buf T)) : Prop :=
  ∀ b xs, Holds b xs → ∃ b' ys, sort b = .ok b' ∧ Holds b' ys ∧ ys.Perm xs ∧ SortedUnder less ys ∧ b'.lostLive = b.lostLive

/-- The description is true of an inner array. -/
def truthful : AoS.Description → List T → Prop
  | .sortedUnique, xs => xs.Pairwise (· < ·)
  | .unsortedNoDuplicates, xs => xs.Nodup
  | .sortedWithDuplicates, xs => xs.Pairwise (· ≤ ·)
  | .unsortedWithDuplicates, _ => True

theorem win_putSub {a : Buf T} {p cap : Nat} {xs ys : List T} {s : Buf T} (w : Win IsRaw a a p cap xs 0 [])
    (hcap : s.cap = xs.length) (hl : s.lostLive = a.lostLive) (hle : ys.length ≤ xs.length)
    (hlive : ∀ i (h : i < ys.length), s.cell i = .live ys[i]) (hraw : ∀ k, k < s.cap → (s.cell k).isRaw = false) :
    Win NotRaw a (AoS.putSub a p s) p cap ys (xs.length - ys.length) [] := by
  have hf := w.fits
  simp only [List.length_nil] at hf
  refine ⟨rfl, rfl, hl, w.inside, by simp; omega, ?_, ?_, by simp, ?_, ?_⟩
  · intro i hi
    simp only [AoS.putSub]
    rw [if_pos (by omega), show p + i - p = i by omega]
    exact hlive i hi
  · intro k h1 h2
    simp only [AoS.putSub, NotRaw]
    rw [if_pos (by omega)]
    exact hraw _ (by omega)
  · intro k h1 h2
    simp only [List.length_nil] at h1
    simp only [AoS.putSub]
    rw [if_neg (by omega)]
    exact w.free k (by simp; omega) h2
  · intro k hk
    simp only [AoS.putSub]
    rw [if_neg (by omega)]

/-- One set of `assimilate`. -/
theorem assimilateRow_ok (c : Cfg) {a : AoA T} {A B : Layout T} {xs ys : List T} {cap : Nat}
    (h : AGood a (A ++ (xs, cap) :: B)) (f : Buf T → R (Nat × Buf T)) (s : Buf T)
    (hf : f (AoS.sub a.values (total A) xs.length) = .ok (ys.length, s))
    (hcap : s.cap = xs.length) (hl : s.lostLive = a.values.lostLive) (hle : ys.length ≤ xs.length)
    (hlive : ∀ i (h : i < ys.length), s.cell i = .live ys[i]) (hraw : ∀ k, k < s.cap → (s.cell k).isRaw = false) :
    ∃ a', AoS.assimilateRow c f A.length a = .ok a' ∧ AGood a' (A ++ (ys, cap) :: B) := by
  have w := win_putSub (h.lay.toWin IsRaw) hcap hl hle hlive hraw
  obtain ⟨b1, e1, w1⟩ := w.destroyTail c xs.length (by omega) IsRaw
  rw [show total A + xs.length - (xs.length - ys.length) = total A + ys.length by omega] at e1
  obtain ⟨s', e2, hg⟩ := h.afterRow (c := c) w1
  unfold AoS.assimilateRow
  rw [h.ptr, bind_ok, h.shape.sizeOfAt rfl, bind_ok]
  simp only
  rw [hf, bind_ok]
  simp only [arrayManipulation.resize]
  rw [e1, bind_ok, show ys.length - xs.length = 0 by omega]
  have e3 : arrayManipulation.constructRange c b1 (total A + xs.length) 0 (fun _ => (default : T)) = .ok b1 := rfl
  rw [e3, bind_ok, e2, bind_ok]
  exact ⟨_, rfl, hg⟩

theorem sub_holds {a : Buf T} {p cap : Nat} {xs : List T} (w : Win IsRaw a a p cap xs 0 []) :
    Holds (AoS.sub a p xs.length) xs :=
  ⟨rfl, fun i hi => by simp only [AoS.sub]; rw [if_pos hi, w.front i hi]⟩

/-- A loop of `assimilate`. -/
theorem assimilateLoop_ok (c : Cfg) (f : Buf T → R (Nat × Buf T)) {a : AoA T} {L : Layout T} (h : AGood a L)
    (hf : ∀ r ∈ L, ∀ b : Buf T, Holds b r.1 → ∃ (s : Buf T) (ys : List T), f b = .ok (ys.length, s) ∧ s.cap = r.1.length ∧
      s.lostLive = b.lostLive ∧ ys.length ≤ r.1.length ∧ (∀ i (h : i < ys.length), s.cell i = .live ys[i]) ∧
      (∀ k, k < s.cap → (s.cell k).isRaw = false) ∧ ys = r.1.toFinset.sort (· ≤ ·)) :
    ∃ a', forUp a.shape.numArrays 0 (fun i a => AoS.assimilateRow c f i a) a = .ok a' ∧
      SetsGood a' (L.map fun r => r.1.toFinset) := by
  have hnum : a.shape.numArrays = L.length := by rw [h.shape.num]
  obtain ⟨a', h1, h2⟩ := forUp_inv (f := fun i a => AoS.assimilateRow c f i a)
    (fun i a => AGood a ((L.take i).map (fun r => (r.1.toFinset.sort (· ≤ ·), r.2)) ++ L.drop i)) a.shape.numArrays 0 a
    (by simpa using h)
    (fun i s _ hi hs => by
      have hi' : i < L.length := by omega
      rw [List.drop_eq_getElem_cons hi'] at hs
      obtain ⟨sb, ys, e1, e2, e3, e4, e5, e6, e7⟩ := hf L[i] (List.getElem_mem hi') _ (sub_holds (hs.lay.toWin IsRaw))
      obtain ⟨a', h1, h2⟩ := assimilateRow_ok c (xs := L[i].1) (cap := L[i].2) hs f sb e1 e2 e3 e4 e5 e6
      rw [show ((L.take i).map (fun r => (r.1.toFinset.sort (· ≤ ·), r.2))).length = i by simp; omega] at h1
      refine ⟨a', h1, ?_⟩
      rw [List.take_succ_eq_append_getElem hi', List.map_append, List.append_assoc]
      rw [e7] at h2
      exact h2)
  refine ⟨a', h1, _, h2, ?_⟩
  rw [Nat.zero_add, hnum]
  simp [Function.comp_def]

theorem ys_of_equiv {xs ys : List T} (h1 : ys.Pairwise (fun a b => less a b = true)) (h2 : ∀ y, y ∈ ys → y ∈ xs)
    (h3 : ∀ x, x ∈ xs → ∃ y, y ∈ ys ∧ less x y = false ∧ less y x = false) : ys = xs.toFinset.sort (· ≤ ·) := by
  refine sort_of_increasing (h1.imp fun hab => less_iff.1 hab) (fun x => ?_)
  rw [List.mem_toFinset]
  refine ⟨h2 x, fun hx => ?_⟩
  obtain ⟨y, hy, q1, q2⟩ := h3 x hx
  simp only [less, decide_eq_false_iff_not, not_lt] at q1 q2
  rw [le_antisymm q2 q1]; exact hy

theorem length_toFinset_sort (xs : List T) : (xs.toFinset.sort (· ≤ ·)).length ≤ xs.length := by
  simp only [Finset.length_sort]
  exact List.toFinset_card_le xs

theorem assimilate_good (c : Cfg) (sort : Buf T → R (Buf T)) (hsort : SortRoutine sort) {dst src : AoA T} {Ld Ls : Layout T}
    (hd : AGood dst Ld) (hs : AGood src Ls) (desc : AoS.Description) (ht : ∀ r ∈ Ls, truthful desc r.1) :
    ∃ a src', AoS.assimilate c sort dst src desc = .ok (a, src') ∧ SetsGood a (Ls.map fun r => r.1.toFinset) ∧
      src' = (AoA.moveConstruct src).2 := by
  obtain ⟨b, hb, -⟩ := hd.weak.destroyAll (c := c)
  unfold AoS.assimilate AoA.free
  rw [hb, bind_ok, bind_ok]
  have hsw : ∀ xs : List T, xs.Pairwise (· ≤ ·) → SortedUnder less xs := fun xs h => by
    unfold SortedUnder
    exact h.imp fun hab => by simp [less, hab]
  cases desc with
  | sortedUnique =>
    refine ⟨_, _, rfl, ⟨Ls, hs, ?_⟩, rfl⟩
    rw [List.map_map]
    refine List.map_congr_left fun r hr => ?_
    exact sort_of_increasing (ht r hr) (by simp)
  | unsortedNoDuplicates =>
    obtain ⟨a', h1, h2⟩ := assimilateLoop_ok c (fun b => sort b >>= fun b' => .ok (b.cap, b')) hs (fun r hr b hb => by
      obtain ⟨b', ys, e1, e2, e3, e4, e5⟩ := hsort b r.1 hb
      refine ⟨b', ys, ?_, by rw [e2.1, e3.length_eq], e5, by rw [e3.length_eq], e2.2, ?_, ?_⟩
      · rw [e1, bind_ok, hb.1, e3.length_eq]
      · intro k hk
        rw [e2.2 k (by rw [← e2.1]; exact hk)]; rfl
      · have hnd : ys.Nodup := e3.nodup_iff.2 (ht r hr)
        refine sort_of_increasing ?_ (fun x => by rw [e3.mem_iff]; simp)
        unfold SortedUnder at e4
        have : ys.Pairwise (fun a b => less b a = false ∧ a ≠ b) := List.Pairwise.and e4 hnd
        exact this.imp fun {a b} hab => by
          simp only [less, decide_eq_false_iff_not, not_lt] at hab
          exact lt_of_le_of_ne hab.1 hab.2)
    exact ⟨a', _, by simp only [AoA.moveConstruct]; rw [h1, bind_ok], h2, rfl⟩
  | sortedWithDuplicates =>
    obtain ⟨a', h1, h2⟩ := assimilateLoop_ok c (removeDuplicates c less) hs (fun r hr b hb => by
      obtain ⟨b', ys, e1, e2, e3, e4, e5, e6, e7, e8⟩ := (C19_removeDuplicates c less strictWeakOrder_less b r.1 hb).1
        (hsw r.1 (ht r hr))
      have hys := ys_of_equiv e3 (fun y hy => e2.subset hy) e4
      exact ⟨b', ys, e1, by rw [e6, hb.1], e7, e2.length_le, e5, e8, hys⟩)
    exact ⟨a', _, by simp only [AoA.moveConstruct]; rw [h1, bind_ok], h2, rfl⟩
  | unsortedWithDuplicates =>
    obtain ⟨a', h1, h2⟩ := assimilateLoop_ok c (makeSortedUnique c less sort) hs (fun r hr b hb => by
      obtain ⟨b', ys, e1, e2, e3, e4, e5, e6, e7, e8⟩ := C19_makeSortedUnique c less strictWeakOrder_less sort b r.1
        (hsort b r.1 hb)
      have hys := ys_of_equiv e2 e3 e4
      refine ⟨b', ys, e1, e6, e7, ?_, e5, e8, hys⟩
      rw [hys]; exact length_toFinset_sort _)
    exact ⟨a', _, by simp only [AoA.moveConstruct]; rw [h1, bind_ok], h2, rfl⟩

/-- **C28.** Assimilating any array of arrays into any array of sets, with a description that is true of every inner array,
yields for each inner array the set of its values, in order; the source is left without arrays.  From then on the object
behaves like a vector of these sets (C27).  `sort` is any routine with the guarantee of `std::sort`; every element type and
build configuration. -/
theorem C28_assimilate (c : Cfg) (sort : Buf T → R (Buf T)) (hsort : SortRoutine sort) {dst src : AoA T}
    {sets : List (Finset T)} {L : List (List T × Nat)} (hd : ReachSets c dst sets) (hs : Reach c src L)
    (desc : AoS.Description) (ht : ∀ r ∈ L, truthful desc r.1) :
    ∃ a src', AoS.assimilate c sort dst src desc = .ok (a, src') ∧ ShowsSets c a (L.map fun r => r.1.toFinset) ∧
      src'.shape.numArrays = 0 ∧
      ∀ ops sets' outs, aosRun (L.map fun r => r.1.toFinset) ops = some (sets', outs) →
        (∃ a', AoS.run c a ops = .ok (a', outs) ∧ ShowsSets c a' sets') ∨
        (c.trivial = false ∧ AoS.run c a ops = .error (.ub .rawRead)) := by
  obtain ⟨Ld, hgd, -⟩ := reachSets_good hd
  obtain ⟨a, src', h1, h2, rfl⟩ := assimilate_good c sort hsort hgd (reach_good hs) desc ht
  refine ⟨a, _, h1, showsSets_of_good h2, rfl, fun ops sets' outs hops => ?_⟩
  rcases run_sets c h2 ops sets' outs hops with ⟨a', e1, e2⟩ | e
  · exact .inl ⟨a', e1, showsSets_of_good e2⟩
  · exact .inr e

/-- A routine that meets the requirement on `sort`. -/
def someSort (b : Buf T) : R (Buf T) := do
  let xs ← readAll b.read b.cap
  .ok { b with cell := fun k => match (xs.mergeSort (fun a b => decide (a ≤ b)))[k]? with
                                | some v => .live v
                                | none => .raw }

-- `SortRoutine` is satisfiable
example : SortRoutine (someSort (T := T)) := by
  intro b xs hb
  have e : someSort b = .ok { b with cell := fun k => match (xs.mergeSort (fun a b => decide (a ≤ b)))[k]? with
                                                      | some v => .live v
                                                      | none => .raw } := by
    unfold someSort; rw [readAll_holds hb, bind_ok]
  refine ⟨_, xs.mergeSort (fun a b => decide (a ≤ b)), e, ⟨?_, ?_⟩, ?_, ?_, rfl⟩
  · simp [hb.1]
  · intro i hi
    simp only
    rw [List.getElem?_eq_getElem hi]
  · exact List.mergeSort_perm _ _
  · have := List.pairwise_mergeSort (le := fun a b : T => decide (a ≤ b))
      (by intro a b c h1 h2; simp only [decide_eq_true_eq] at *; exact le_trans h1 h2)
      (by intro a b; simpa using le_total a b) xs
    exact this.imp fun hab => by simpa [less] using hab

-- both hypotheses on the objects are met by constructed ones
example (c : Cfg) : ∃ dst src : AoA Nat, ReachSets c dst [∅, ∅] ∧ Reach c src [([], 3)] := by
  obtain ⟨a, h1, -⟩ := mk_sets (T := Nat) c 2 0
  obtain ⟨b, h2, -⟩ := mk_good (T := Nat) c 1 3
  exact ⟨a, b, ⟨2, 0, [], [], a, h1, rfl, rfl⟩, ⟨1, 3, [], b, fun _ _ h => by simp at h, h2, rfl, rfl⟩⟩

-- an inner array with duplicates out of order, described truthfully
example : truthful (T := Nat) .unsortedWithDuplicates [4, 2, 4] ∧ truthful (T := Nat) .unsortedNoDuplicates [4, 2] ∧
    truthful (T := Nat) .sortedWithDuplicates [2, 4, 4] ∧ ¬ truthful (T := Nat) .sortedUnique [4, 2] := by
  refine ⟨trivial, ?_, ?_, ?_⟩ <;> simp [truthful]

/-- **C28 (wrong descriptions).** Nothing checks the description, not even with bounds checks: an inner array `4, 2` described as sorted is accepted, and the resulting object answers that it does not contain the 4 at its first position
(the consistency check at the end of `assimilate` is compiled only under a macro the project never defines). -/
theorem C28_wrong_description_accepted :
    (do let a ← AoA.mk' ⟨true, true, false⟩ 1 2
        let a ← a.appendToArray ⟨true, true, false⟩ 0 [4, 2]
        let d ← AoA.mk' ⟨true, true, false⟩ 0 0
        let r ← AoS.assimilate ⟨true, true, false⟩ (fun b => .ok b) d a .sortedUnique
        let v ← r.1.get ⟨true, true, false⟩ 0 0
        let b ← AoS.contains ⟨true, true, false⟩ r.1 0 4
        pure (v, b) : R (Nat × Bool)) = .ok (4, false) := by decide +kernel

end LvArray.Props

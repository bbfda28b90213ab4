import Verif.ParallelArrays
import Verif.Props.ArrayOfSets

/-!
# C58: distinct inner arrays can be modified in parallel
-/

namespace LvArray.Props

open LvArray Layout Spec Parallel

variable {T : Type}

/-- Thread `t` has made all its calls, and they have returned `outs`. -/
def Returned {V ω : Type} (ts : List (Parallel.Prog Nat T V (List ω))) (t : Nat) (outs : List ω) : Prop := ts[t]? = some (.ret outs)

/-- All threads have made all their calls. -/
def AllReturned {V ω : Type} (ts : List (Parallel.Prog Nat T V (List ω))) : Prop := ∀ t, t < ts.length → ∃ outs, Returned ts t outs

/-- What the accessors report about inner array `i`. -/
def ShowsRow (c : Cfg) (a : AoA T) (i : Nat) (xs : List T) : Prop :=
  a.shape.sizeOfArray c i = .ok xs.length ∧ ∀ j (hj : j < xs.length), a.get c i j = .ok xs[j]

theorem allReturned_iff {V ω : Type} {ts : List (Parallel.Prog Nat T V (List ω))} (h : AllReturned ts) :
    ∀ (t : Nat) (p : Parallel.Prog Nat T V (List ω)), ts[t]? = some p → ∃ q, p = .ret q := by
  intro t p hp
  obtain ⟨q, hq⟩ := h t (List.getElem?_eq_some_iff.1 hp).1
  unfold Returned at hq
  rw [hp] at hq
  exact ⟨q, Option.some.inj hq⟩

/-- What the two theorems below say about rows of any kind. -/
theorem parallel_rows {κ ρ : Type} {c : Cfg} {a : AoA T} {L : Layout T} (hg : AGood a L) {code : κ → Code T Unit (RowOut T)}
    {step : κ → ρ → Option (ρ × RowOut T)} {row : ρ → List T × Nat}
    (hstep : ∀ call s r r' o, GoodRow s (row r) → step call r = some (r', o) →
      ∃ s', (code call).run (strict ⟨c, c⟩) (fun _ => 0) s = .ok (o, s') ∧ GoodRow s' (row r'))
    {rows rows' : List ρ} (hr : rows.map row = L) (work : List (List (Nat × κ))) (hap : Apart work)
    (outs : List (List (RowOut T))) (hs : threadsRun step rows work = some (rows', outs)) :
    ∃ N, ∀ sched, ∃ s ts, interleave (Parallel.Prog.turn ⟨c, c⟩) a.shared (threads code work) sched = .ok (s, ts) ∧
      (∀ t, t < work.length → N ≤ sched.count t → ∃ q, Returned ts t q) ∧
      (∀ t q, Returned ts t q → outs[t]? = some q ∧
        ∀ calls, work[t]? = some calls → ∀ call ∈ calls, ∃ r, rows'[call.1]? = some r ∧ ShowsRow c s.array call.1 (row r).1) ∧
      (AllReturned ts → AGood s.array (rows'.map row) ∧ (rows'.map row).map (·.2) = L.map (·.2)) := by
  subst hr
  have hl : (Layout.caps (rows.map row)).length = rows.length := by simp
  have hrows : Rows (fun s r => GoodRow s (row r)) (slices a.shared (Layout.szs (rows.map row)) (Layout.caps (rows.map row))) rows := by
    intro i r hi
    exact shared_rows hg i (row r) (by rw [List.getElem?_map, hi]; rfl)
  obtain ⟨N, F, hF, h⟩ := parallel_loop (c := ⟨c, c⟩) hstep (shared_sim hg) hl.symm hrows hap hs
  obtain ⟨r1, r2, r3⟩ := threadsRun_rows hs
  have hF' : Rows GoodRow F (rows'.map row) := by
    intro i r hi
    rw [List.getElem?_map] at hi
    obtain ⟨r0, h0, rfl⟩ := Option.map_eq_some_iff.1 hi
    exact hF i r0 h0
  refine ⟨N, fun sched => ?_⟩
  obtain ⟨s, ts, M, h1, h2, h3, h4, h5, h6, h7⟩ := h sched
  refine ⟨s, ts, h1, ?_, ?_, ?_⟩
  · intro t ht hN
    have hp : ts[t]? = some (ts[t]'(by omega)) := List.getElem?_eq_getElem (by omega)
    obtain ⟨q, hq⟩ := h5 t _ hp hN
    exact ⟨q, hp.trans (congrArg some hq)⟩
  · intro t q hq
    obtain ⟨h8, h9⟩ := h6 t q hq
    refine ⟨h8, fun calls hc call hcall => ?_⟩
    have hd : rowsOf work t call.1 := ⟨calls, hc, call, hcall, rfl⟩
    have hi := r3 t call.1 hd
    have hi' : call.1 < rows'.length := by omega
    refine ⟨_, List.getElem?_eq_getElem hi', ?_⟩
    have := hF call.1 _ (List.getElem?_eq_getElem hi')
    rw [← h9 _ hd] at this
    exact row_shows h3 (by omega) this
  · intro hall
    have := h7 (allReturned_iff hall)
    subst this
    exact shared_join hg h3 hF' (by simp [r1]) h4

/-! ### `ArrayOfArraysView` -/

/-- **C58 (arrays).** Threads call `emplaceBack`, `appendToArray`, `emplace`, `insertIntoArray`, `eraseFromArray`, `sizeOfArray` and
`operator()` on views of one `ArrayOfArrays`; no inner array is used by two threads, and each call would be allowed if the threads
ran one after another.  Then for every number of threads and every schedule of their single accesses: no access fails; every
thread that gets enough turns returns, whatever the others do; what its calls have returned, and what its inner arrays hold, is
what they would if the threads ran one after another; once all have returned this is so for the whole object, the capacities are
unchanged and no element was overwritten or lost.  Every element type and build configuration. -/
theorem C58_arrays_in_parallel [Inhabited T] (c : Cfg) {a : AoA T} {L L' : List (List T × Nat)} (h : Reach c a L)
    (work : List (List (Nat × RowCall T))) (hap : Apart work) (outs : List (List (RowOut T)))
    (hs : threadsRun RowCall.step L work = some (L', outs)) :
    ∃ N, ∀ sched, ∃ s ts, interleave (Parallel.Prog.turn ⟨c, c⟩) a.shared (threads (rowCode c) work) sched = .ok (s, ts) ∧
      (∀ t, t < work.length → N ≤ sched.count t → ∃ q, Returned ts t q) ∧
      (∀ t q, Returned ts t q → outs[t]? = some q ∧
        ∀ calls, work[t]? = some calls → ∀ call ∈ calls, ∃ r, L'[call.1]? = some r ∧ ShowsRow c s.array call.1 r.1) ∧
      (AllReturned ts → Shows c s.array (L'.map (·.1)) ∧ Capacities c s.array (L.map (·.2)) ∧ s.values.lostLive = 0) := by
  obtain ⟨N, hN⟩ := parallel_rows (row := id) (reach_good h) rowCode_ok (by simp) work hap outs hs
  refine ⟨N, fun sched => ?_⟩
  obtain ⟨s, ts, h1, h2, h3, h4⟩ := hN sched
  refine ⟨s, ts, h1, h2, h3, fun hall => ?_⟩
  obtain ⟨h5, h6⟩ := h4 hall
  rw [List.map_id] at h5 h6
  refine ⟨shows_of_good h5, ?_, h5.lay.lost⟩
  rw [← h6]
  exact capacities_of_good h5

/-- **C58 (afterwards).** The object can then be used like any other: every later legal history of calls by one thread behaves like
on a vector of vectors with these contents. -/
theorem C58_arrays_usable_afterwards [Inhabited T] (c : Cfg) (ht : c.trivial = true) {a : AoA T} {L L' : List (List T × Nat)}
    (h : Reach c a L) (work : List (List (Nat × RowCall T))) (hap : Apart work) (outs : List (List (RowOut T)))
    (hs : threadsRun RowCall.step L work = some (L', outs)) (sched : List Nat) (s : RowStore T Unit)
    (ts : List (Parallel.Prog Nat T Unit (List (RowOut T))))
    (hr : interleave (Parallel.Prog.turn ⟨c, c⟩) a.shared (threads (rowCode c) work) sched = .ok (s, ts)) (hall : AllReturned ts)
    (ops : List (AoAOp T)) (hne : NoEmptyInsert c ops) (rows : List (List T)) (hv : vvRun (L'.map (·.1)) ops = some rows) :
    ∃ a', AoA.run c s.array ops = .ok a' ∧ Shows c a' rows := by
  obtain ⟨N, hN⟩ := parallel_rows (row := id) (reach_good h) rowCode_ok (by simp) work hap outs hs
  obtain ⟨s', ts', h1, -, -, h4⟩ := hN sched
  rw [hr] at h1
  cases h1
  have h5 := (h4 hall).1
  rw [List.map_id] at h5
  obtain ⟨L2, h6, rfl⟩ := vvcRun_of_vvRun hv
  obtain ⟨a', h7, h8⟩ := run_trivial c ht ops hne h5 h6
  exact ⟨a', h7, shows_of_good h8⟩

/-! ### `ArrayOfSetsView` -/

section sets

variable [LinearOrder T] [Inhabited T]

/-- **C58 (sets).** The same for `insertIntoSet` and `removeFromSet` with a value or a strictly increasing range, `contains`,
`sizeOfSet` and `operator()` on views of one `ArrayOfSets`.  `caps` are the capacities of the sets. -/
theorem C58_sets_in_parallel (c : Cfg) {a : AoA T} {sets : List (Finset T)} {caps : List Nat} {rows' : List (Finset T × Nat)}
    (h : ReachSets c a sets) (hl : caps.length = sets.length) (hc : Capacities c a caps)
    (work : List (List (Nat × SetCall T))) (hap : Apart work) (outs : List (List (RowOut T)))
    (hs : threadsRun SetCall.step (sets.zip caps) work = some (rows', outs)) :
    ∃ N, ∀ sched, ∃ s ts, interleave (Parallel.Prog.turn ⟨c, c⟩) a.shared (threads (setCode c) work) sched = .ok (s, ts) ∧
      (∀ t, t < work.length → N ≤ sched.count t → ∃ q, Returned ts t q) ∧
      (∀ t q, Returned ts t q → outs[t]? = some q ∧
        ∀ calls, work[t]? = some calls → ∀ call ∈ calls, ∃ r, rows'[call.1]? = some r ∧
          ShowsRow c s.array call.1 (r.1.sort (· ≤ ·))) ∧
      (AllReturned ts → ShowsSets c s.array (rows'.map (·.1)) ∧ Capacities c s.array caps ∧ s.values.lostLive = 0) := by
  obtain ⟨L, hg, hL⟩ := reachSets_good h
  have hlen : L.length = sets.length := by simpa using congrArg List.length hL
  have hcaps : L.map (·.2) = caps := by
    apply List.ext_getElem (by simp; omega)
    intro i h1 h2
    have e1 := hc i h2
    have e2 := capacities_of_good (c := c) hg i h1
    rw [e1] at e2
    exact (Except.ok.inj e2).symm
  have hrow : (sets.zip caps).map (fun r => (r.1.sort (· ≤ ·), r.2)) = L := by
    apply List.ext_getElem (by simp; omega)
    intro i h1 h2
    have e1 : (L.map (·.1))[i]? = (sets.map (·.sort (· ≤ ·)))[i]? := by rw [hL]
    have hi : i < sets.length := by omega
    simp [h2, hi] at e1
    simp only [List.getElem_map, List.getElem_zip, ← hcaps, ← e1]
  obtain ⟨N, hN⟩ := parallel_rows (row := fun r : Finset T × Nat => (r.1.sort (· ≤ ·), r.2)) hg setCode_ok hrow work hap outs hs
  refine ⟨N, fun sched => ?_⟩
  obtain ⟨s, ts, h1, h2, h3, h4⟩ := hN sched
  refine ⟨s, ts, h1, h2, h3, fun hall => ?_⟩
  obtain ⟨h5, h6⟩ := h4 hall
  refine ⟨showsSets_of_good ⟨_, h5, by simp⟩, ?_, h5.lay.lost⟩
  rw [← hcaps, ← h6]
  exact capacities_of_good h5

end sets

/-! ### Non-vacuity -/

/-- Three arrays with capacities 3, 2 and 4; the first has the values 5 and 6. -/
def parallelDemo (c : Cfg) : R (AoA Nat) :=
  AoA.mk' c 3 4 >>= fun a =>
    AoA.run c a [.setCapacityOfArray 0 3, .setCapacityOfArray 1 2, .appendToArray 0 [5, 6]]

example : vvcRun (List.replicate 3 ([], 4)) [.setCapacityOfArray 0 3, .setCapacityOfArray 1 2, .appendToArray 0 [5, 6]] =
    some [([5, 6], 3), (([] : List Nat), 2), ([], 4)] := by decide

/-- Two threads; the second uses two arrays. -/
def parallelWork : List (List (Nat × RowCall Nat)) :=
  [[(0, .emplace 1 9), (0, .eraseFromArray 0 1), (0, .get 1)], [(2, .appendToArray [1, 2]), (1, .emplaceBack 7), (2, .set 0 3)]]

example : Apart parallelWork := by
  intro t u ct cu ht hu hne
  match t, u, ht, hu with
  | 0, 0, _, _ => exact absurd rfl hne
  | 0, 1, ht, hu => cases ht; cases hu; decide
  | 1, 0, ht, hu => cases ht; cases hu; decide
  | 1, 1, _, _ => exact absurd rfl hne
  | 0, _ + 2, _, hu => simp [parallelWork] at hu
  | 1, _ + 2, _, hu => simp [parallelWork] at hu
  | _ + 2, _, ht, _ => simp [parallelWork] at ht

example : threadsRun RowCall.step [([5, 6], 3), (([] : List Nat), 2), ([], 4)] parallelWork =
    some ([([9, 6], 3), ([7], 2), ([3, 2], 4)], [[.unit, .unit, .val 6], [.unit, .unit, .unit]]) := by decide

/-- What a schedule leaves in the arrays, and whether the threads have returned. -/
def parallelDemoRun (c : Cfg) (work : List (List (Nat × RowCall Nat))) (sched : List Nat) :
    R (List (R (List Nat)) × List (Option (List (RowOut Nat)))) :=
  parallelDemo c >>= fun a => interleave (Parallel.Prog.turn ⟨c, c⟩) a.shared (threads (rowCode c) work) sched >>= fun r =>
    .ok ((List.range 3).map (fun i => do
        let n ← r.1.array.shape.sizeOfArray c i
        (List.range n).mapM fun j => r.1.array.get c i j),
      r.2.map fun | .ret q => some q | _ => none)

/-- The threads take turns access by access. -/
example : parallelDemoRun { trivial := false, boundsCheck := true, debug := true } parallelWork
    ((List.replicate 40 [1, 0]).flatten) =
    .ok ([.ok [9, 6], .ok [7], .ok [3, 2]], [some [.unit, .unit, .val 6], some [.unit, .unit, .unit]]) := by decide +kernel

/-- In the middle: thread 1 has moved on, thread 0 has shifted the 6 but not put the 9 in its place. -/
example : (parallelDemoRun { trivial := false, boundsCheck := true, debug := true } parallelWork
    (List.replicate 12 0 ++ List.replicate 13 1)).map (·.2) = .ok [none, none] := by decide +kernel

/-- **C58 (the hypothesis is needed).** If two threads append to the same inner array with `emplaceBack`, a schedule exists in which
both return and one of the two values is lost, although they would both fit. -/
theorem C58_same_array_loses_update :
    parallelDemoRun { trivial := true, boundsCheck := true, debug := true } [[(1, .emplaceBack 7)], [(1, .emplaceBack 8)]]
      ((List.replicate 20 [0, 1]).flatten) = .ok ([.ok [5, 6], .ok [8], .ok []], [some [.unit], some [.unit]]) ∧
    threadsRun RowCall.step [([5, 6], 3), (([] : List Nat), 2), ([], 4)] [[(1, .emplaceBack 7)], [(1, .emplaceBack 8)]] =
      some ([([5, 6], 3), ([7, 8], 2), ([], 4)], [[.unit], [.unit]]) := by
  decide +kernel

/-- Sets with capacities 3 and 2. -/
example : ∃ a : AoA Nat, ReachSets { trivial := false, boundsCheck := true, debug := true } a [{4}, ∅] ∧
    Capacities { trivial := false, boundsCheck := true, debug := true } a [3, 3] := by
  obtain ⟨a, h1, h2⟩ := mk_sets (T := Nat) { trivial := false, boundsCheck := true, debug := true } 2 3
  rcases run_sets _ h2 [.insert 0 4] [{4}, ∅] [.bool true] (by decide) with ⟨a', h3, h4⟩ | ⟨-, h3⟩
  · refine ⟨a', ⟨2, 3, _, _, a, h1, h3, by decide⟩, ?_⟩
    have : ((AoA.mk' { trivial := false, boundsCheck := true, debug := true } 2 3 >>= fun (a : AoA Nat) =>
        AoS.run { trivial := false, boundsCheck := true, debug := true } a [.insert 0 4]) >>= fun r => do
        .ok (← r.1.shape.capacityOfArray { trivial := false, boundsCheck := true, debug := true } 0,
          ← r.1.shape.capacityOfArray { trivial := false, boundsCheck := true, debug := true } 1)) = .ok (3, 3) := by
      decide +kernel
    rw [h1, bind_ok, h3, bind_ok] at this
    obtain ⟨x, e1, this⟩ := bind_eq_ok.1 this
    obtain ⟨y, e2, this⟩ := bind_eq_ok.1 this
    cases this
    intro i hi
    match i, hi with
    | 0, _ => exact e1
    | 1, _ => exact e2
  · have : ((AoA.mk' { trivial := false, boundsCheck := true, debug := true } 2 3 >>= fun (a : AoA Nat) =>
        AoS.run { trivial := false, boundsCheck := true, debug := true } a [.insert 0 4]).map fun _ => ()) = .ok () := by
      decide +kernel
    rw [h1, bind_ok, h3] at this
    cases this

example : threadsRun SetCall.step [({4}, 3), (∅, 3)]
    [[(0, .insertMany [2, 4, 7]), (0, .remove 4)], [(1, .insert 9), (1, .contains 9), (1, .removeMany [8, 9])]] =
    some ([({2, 7}, 3), (∅, 3)], [[.num 2, .bool true], [.bool true, .bool true, .num 1]]) := by decide +kernel

end LvArray.Props

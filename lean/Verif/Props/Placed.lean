import Verif.PlacedContainers

/-!
# C59: containers with several buffers follow their views between memory spaces
-/

namespace LvArray.Props

open LvArray Spec
open LvArray.Chai (Space)
open LvArray.Placed (Op)
open LvArray.Parallel (rowCode setCode matCode)

variable {T V : Type}

/-- No kernel of the history uses an inner array in two threads. -/
def KernelsApart {κ η : Type} (ops : List (Op κ η)) : Prop := ∀ v s work sched, Op.kernel v s work sched ∈ ops → Apart work

/-- In builds with assertions nothing empty is inserted by the container (`NoEmptyInsert`). -/
def OwnNoEmptyInsert {κ : Type} (c : Cfg) (ops : List (Op κ (AoAOp T))) : Prop :=
  c.debug = true → ∀ op again, Op.own op again ∈ ops → op.nonEmptyInsert

/-- **C59 (arrays).** An `ArrayOfArrays` and its views are moved between host and device, captured by kernels, converted to views with
constant parts; kernels on either side modify and read inner arrays in parallel, in every schedule, and the host calls any member
function of the container.  If the history keeps the rules (a view is used where the data was last moved to, changes are made only
where the part is touched and through views that allow it, and no view is used after the container may have been reallocated), then
nothing fails and everything returned is what a single vector of vectors, wherever it is, would return. -/
theorem C59_arrays [Inhabited T] (c : Cfg) (ht : c.trivial = true) {a : AoA T} {L : List (List T × Nat)} (h : Reach c a L)
    (ops : List (Op (RowCall T) (AoAOp T))) (hap : KernelsApart ops) (hne : OwnNoEmptyInsert c ops)
    (p : Spec.Placed (List T × Nat)) (outs : List (Placed.Out (RowOut T) Unit))
    (hs : placedRun RowCall.step RowCall.writes ownRows (placedStart L) ops = some (p, outs)) :
    ∃ st, Placed.run ⟨c, c⟩ (rowCode c) (Placed.ownArray c) (Placed.start a.shared false) ops = .ok (st, outs) := by
  obtain ⟨st, s, h1, -, -⟩ := Placed.run_ok (Placed.sound_arrays c ht) ops (Placed.RepS.start false a.shared L)
    (Placed.norm_array (s := a.shared) (reach_good h)) (fun op hop => by
      cases op with
      | kernel v s work sched => exact hap v s work sched hop
      | own op again => exact fun hd => hne hd op again hop
      | move => trivial
      | capture => trivial
      | convert => trivial) hs
  exact ⟨st, h1⟩

theorem opOk_views {κ : Type} {ops : List (Op κ Empty)} (hap : KernelsApart ops) : ∀ op ∈ ops, Placed.OpOk (fun _ => True) op := by
  intro op hop
  cases op with
  | kernel v s work sched => exact hap v s work sched hop
  | own op again => exact nomatch op
  | move => trivial
  | capture => trivial
  | convert => trivial

/-- **C59 (sets).** The same for an `ArrayOfSets` with sets of capacities `caps` whose views are used; the container itself is only
moved. -/
theorem C59_sets [LinearOrder T] [Inhabited T] (c : Cfg) {a : AoA T} {sets : List (Finset T)} {caps : List Nat}
    (h : ReachSets c a sets) (hl : caps.length = sets.length) (hc : Capacities c a caps) (ops : List (Op (SetCall T) Empty))
    (hap : KernelsApart ops) (p : Spec.Placed (Finset T × Nat)) (outs : List (Placed.Out (RowOut T) Unit))
    (hs : placedRun SetCall.step SetCall.writes ownNone (placedStart (sets.zip caps)) ops = some (p, outs)) :
    ∃ st, Placed.run ⟨c, c⟩ (setCode c) Placed.ownNothing (Placed.start a.shared false) ops = .ok (st, outs) := by
  obtain ⟨L, hg, hL⟩ := reachSets_good h
  have hlen : L.length = sets.length := by simpa using congrArg List.length hL
  have hrow : (sets.zip caps).map (fun r => (r.1.sort (· ≤ ·), r.2)) = L := by
    apply List.ext_getElem (by simp; omega)
    intro i h1 h2
    have e1 : (L.map (·.1))[i]? = (sets.map (·.sort (· ≤ ·)))[i]? := by rw [hL]
    have hi : i < sets.length := by omega
    simp [h2, hi] at e1
    have e2 := hc i (by omega)
    rw [capacities_of_good (c := c) hg i (by simpa using h2)] at e2
    have e2 := Except.ok.inj e2
    simp only [List.getElem_map] at e2
    simp only [List.getElem_map, List.getElem_zip, ← e1, ← e2]
  obtain ⟨st, s, h1, -, -⟩ := Placed.run_ok (Placed.sound_sets (T := T) c) ops (Placed.RepS.start false a.shared (sets.zip caps))
    (Placed.norm_array (s := a.shared) (by rw [show (placedStart (sets.zip caps)).rows = sets.zip caps from rfl, hrow]; exact hg))
    (opOk_views hap) hs
  exact ⟨st, h1⟩

/-- **C59 (matrices).** The same for the views of a `CRSMatrix` with rows of capacities `caps`: four buffers. -/
theorem C59_matrix [Add V] (c : Cfg) {colMax : Nat} {m : Crs V} {M : Spec.Matrix V} {caps : List Nat} (h : ReachMatrix c colMax m M)
    (hl : caps.length = M.rows.length) (hc : RowCapacities c m caps) (ops : List (Op (MatCall V) Empty)) (hap : KernelsApart ops)
    (p : Spec.Placed ((Nat → Option V) × Nat)) (outs : List (Placed.Out (RowOut (Nat ⊕ V)) Unit))
    (hs : placedRun (MatCall.step M.numCols) MatCall.writes ownNone (placedStart (M.rows.zip caps)) ops = some (p, outs)) :
    ∃ st, Placed.run ⟨c.ix, c⟩ (matCode c) Placed.ownNothing (Placed.start m.shared true) ops = .ok (st, outs) := by
  have hg := reachMatrix_good h
  have e1 : (M.rows.zip caps).map (·.1) = M.rows := List.map_fst_zip (by omega)
  have e2 : (M.rows.zip caps).map (·.2) = caps := List.map_snd_zip (by omega)
  have e3 : m.shared.matrix M.numCols = m := by
    have := hg.cols
    obtain ⟨n, shape, columns, entries⟩ := m
    simp only at this
    subst this
    rfl
  have hm : Placed.MatGood c M.numCols m.shared (M.rows.zip caps) := by
    unfold Placed.MatGood
    rw [e1, e2, e3]
    exact ⟨hg, hc⟩
  obtain ⟨st, s, h1, -, -⟩ := Placed.run_ok (Placed.sound_matrix c M.numCols) ops (Placed.RepS.start true m.shared (M.rows.zip caps))
    ((Placed.sound_matrix c M.numCols).norm _ _ hm) (opOk_views hap) hs
  exact ⟨st, h1⟩

/-! ### Non-vacuity -/

/-- What `toView` makes constant: /repo/src/ArrayOfArraysView.hpp 274-282. -/
def viewParts : Part → Bool := fun part => part = .offsets
/-- What `toViewConstSizes` makes constant: /repo/src/ArrayOfArraysView.hpp 287-295. -/
def constSizesParts : Part → Bool := fun part => part = .offsets || part = .sizes
/-- What `toViewConst` makes constant: /repo/src/ArrayOfArraysView.hpp 300-308. -/
def constParts : Part → Bool := fun _ => true
/-- No buffer gets a new allocation of the same size. -/
def notAgain : Part → Bool := fun _ => false

/-- A view is captured by a kernel on the device, where two threads change the arrays; the container is moved back, read and grown
on the host, and a read-only view is captured by a second kernel on the device. -/
def placedDemoOps : List (Op (RowCall Nat) (AoAOp Nat)) :=
  [.convert 0 viewParts, .capture 1 (some .device), .kernel 2 .device [[(0, .emplaceBack 9)], [(2, .emplaceBack 1), (2, .set 0 4)]] [1, 0, 0, 1],
   .move 0 (some .host) true, .kernel 0 .host [[(0, .get 2), (2, .get 0)]] [], .own (.emplaceBack 0 8) notAgain,
   .own (.appendArray [3, 2]) notAgain, .convert 0 constParts, .capture 3 (some .device),
   .kernel 4 .device [[(0, .get 3)], [(3, .get 1), (3, .size)]] [], .move 0 (some .host) false, .kernel 0 .host [[(0, .size)]] []]

theorem apart_two {κ : Type} {a b : List (Nat × κ)} (h : ∀ q ∈ a, ∀ r ∈ b, q.1 ≠ r.1) : Apart [a, b] := by
  intro t u ct cu ht hu hne
  match t, u, ht, hu with
  | 0, 0, _, _ => exact absurd rfl hne
  | 0, 1, ht, hu => cases ht; cases hu; exact h
  | 1, 0, ht, hu => cases ht; cases hu; exact fun q hq r hr e => h r hr q hq e.symm
  | 1, 1, _, _ => exact absurd rfl hne
  | 0, _ + 2, _, hu => simp at hu
  | 1, _ + 2, _, hu => simp at hu
  | _ + 2, _, ht, _ => simp at ht

theorem apart_one {κ : Type} {a : List (Nat × κ)} : Apart [a] := by
  intro t u ct cu ht hu hne
  match t, u, ht, hu with
  | 0, 0, _, _ => exact absurd rfl hne
  | 0, _ + 1, _, hu => simp at hu
  | _ + 1, _, ht, _ => simp at ht

example : KernelsApart placedDemoOps := by
  intro v s work sched h
  simp only [placedDemoOps, List.mem_cons, List.not_mem_nil, or_false, reduceCtorEq, false_or, Op.kernel.injEq] at h
  rcases h with ⟨-, -, rfl, -⟩ | ⟨-, -, rfl, -⟩ | ⟨-, -, rfl, -⟩ | ⟨-, -, rfl, -⟩
  · exact apart_two (by decide)
  · exact apart_one
  · exact apart_two (by decide)
  · exact apart_one

example (c : Cfg) : OwnNoEmptyInsert c placedDemoOps := by
  intro _ op again h
  simp only [placedDemoOps, List.mem_cons, List.not_mem_nil, or_false, reduceCtorEq, false_or, Op.own.injEq] at h
  rcases h with ⟨rfl, -⟩ | ⟨rfl, -⟩ <;> simp [AoAOp.nonEmptyInsert]

/-- What these operations return. -/
def placedDemoOuts : List (Placed.Out (RowOut Nat) Unit) :=
  [.nothing, .nothing, .kernel [[.unit], [.unit, .unit]], .nothing, .kernel [[.val 9, .val 4]], .own (), .own (), .nothing, .nothing,
   .kernel [[.val 8], [.val 2, .num 2]], .nothing, .kernel [[.num 4]]]

/-- The history keeps the rules. -/
example : (placedRun RowCall.step RowCall.writes ownRows (placedStart [([5, 6], 3), (([] : List Nat), 2), ([], 4)])
    placedDemoOps).map (fun r => (r.1.rows, r.2)) =
    some ([([5, 6, 9, 8], 8), ([], 2), ([4], 4), ([3, 2], 4)], placedDemoOuts) := by decide +kernel

/-- What a history on the arrays of `parallelDemo` returns. -/
def placedDemo (ops : List (Op (RowCall Nat) (AoAOp Nat))) : R (List (Placed.Out (RowOut Nat) Unit)) :=
  parallelDemo { trivial := true, boundsCheck := true, debug := true } >>= fun a =>
    (Placed.run ⟨{ trivial := true, boundsCheck := true, debug := true }, { trivial := true, boundsCheck := true, debug := true }⟩
      (rowCode { trivial := true, boundsCheck := true, debug := true })
      (Placed.ownArray { trivial := true, boundsCheck := true, debug := true }) (Placed.start a.shared false) ops).map (·.2)

set_option synthInstance.maxSize 512 in
example : placedDemo placedDemoOps = .ok placedDemoOuts := by decide +kernel

set_option synthInstance.maxSize 512 in
/-- **C59 (touching is needed).** A kernel changes a value on the device after the container was moved there without being touched:
back on the host the old value is read. -/
theorem C59_untouched_change_is_lost :
    placedDemo [.move 0 (some .device) false, .kernel 0 .device [[(0, .set 1 7), (0, .get 1)]] [], .move 0 (some .host) true,
        .kernel 0 .host [[(0, .get 1)]] []] =
      .ok [.nothing, .kernel [[.unit, .val 7]], .nothing, .kernel [[.val 6]]] ∧
    placedDemo [.move 0 (some .device) true, .move 0 (some .host) false, .kernel 0 .host [[(0, .set 1 7), (0, .get 1)]] [],
        .move 0 (some .device) true, .kernel 0 .device [[(0, .get 1)]] []] =
      .ok [.nothing, .nothing, .kernel [[.unit, .val 7]], .nothing, .kernel [[.val 6]]] := by
  decide +kernel

set_option synthInstance.maxSize 512 in
/-- **C59 (views become invalid).** After the container had to allocate a row again, a view made before refers to memory that was
released. -/
theorem C59_view_dangles_after_growth :
    placedDemo [.convert 0 viewParts, .kernel 1 .host [[(0, .get 1)]] [], .own (.emplaceBack 0 7) notAgain, .own (.emplaceBack 0 8) notAgain,
      .kernel 1 .host [[(0, .get 1)]] []] = .error (.ub .dangling) := by
  decide +kernel

/-! ### Sets and matrices -/

/-- A set is changed on the device and read on the host. -/
def placedSetOps : List (Op (SetCall Nat) Empty) :=
  [.convert 0 viewParts, .capture 1 (some .device), .kernel 2 .device [[(0, .insert 2)], [(1, .insertMany [1, 3])]] [0, 1],
   .convert 0 constParts, .capture 3 (some .host), .kernel 4 .host [[(0, .contains 2), (1, .contains 2), (1, .size)]] []]

example : (placedRun SetCall.step SetCall.writes ownNone (placedStart ([{4}, ∅].zip [3, 3])) placedSetOps).map (·.2) =
    some [.nothing, .nothing, .kernel [[.bool true], [.num 2]], .nothing, .nothing, .kernel [[.bool true, .bool false, .num 2]]] := by
  decide +kernel

/-- A matrix is changed on the device, its entries there again through a view with constant columns, and read on the host. -/
def placedMatOps : List (Op (MatCall Nat) Empty) :=
  [.convert 0 viewParts, .capture 1 (some .device), .kernel 2 .device [[(0, .insert 3 30)], [(2, .insert 1 10)]] [0, 1, 1],
   .convert 0 (fun part => part ≠ .entries), .capture 3 (some .device), .kernel 4 .device [[(0, .addToRow .linear [(3, 5)])], [(2, .fill 8)]] [1],
   .move 0 (some .host) false, .kernel 0 .host [[(0, .getEntry 1), (0, .getColumn 1), (2, .getEntry 1)]] []]

set_option synthInstance.maxSize 512 in
example : (placedRun (MatCall.step 8) MatCall.writes ownNone (placedStart (parMatrixRows.zip [4, 2, 3])) placedMatOps).map (·.2) =
    some [.nothing, .nothing, .kernel [[.bool true], [.bool true]], .nothing, .nothing, .kernel [[.unit], [.unit]], .nothing,
      .kernel [[.val (.inr 35), .val (.inl 3), .val (.inr 8)]]] := by
  decide +kernel

end LvArray.Props

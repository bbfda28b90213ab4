import Verif.AssemblyNodes
import Verif.Props.Mesh
import Verif.Props.ParallelMatrix

/-!
# C71: the pattern, generated through views

The two ways the code has to fill a pattern whose rows cannot grow: one thread over all elements, or one thread per node in parallel.
-/

namespace LvArray.Props

open LvArray Layout Spec Parallel Concurrent

/-- The pattern of a mesh: all pairs of dofs that share an element. -/
def meshPattern (mesh : Spec.Mesh) (ndim numNodes : Nat) : Pattern :=
  { numCols := ndim * numNodes
    rows := (List.range (ndim * numNodes)).map fun r => (Finset.range (ndim * numNodes)).filter fun k => Coupled mesh ndim r k }

/-- `resizeExact` gives every row the capacity it needs. -/
theorem resizeExact_ok (c : Cfg) {sort : Buf Nat → R (Buf Nat)} (hsort : SortRoutine sort) {colMax ndim numNodes maxNeighbors : Nat}
    (hN : ndim * numNodes ≤ colMax + 1) {mesh : Spec.Mesh} (hm : OnNodes mesh numNodes) {nodeToElem : List (List Nat)}
    (hlen : nodeToElem.length = numNodes) (hmap : Assembly.AroundFrom mesh 0 nodeToElem)
    (h1 : ∀ n, n < numNodes → Assembly.gathered mesh n ≤ maxNeighbors) :
    ∃ s, Assembly.resizeExact c sort colMax maxNeighbors ndim numNodes mesh nodeToElem = .ok s ∧ s.numCols = ndim * numNodes ∧
      AGood s.sets (((List.range (ndim * numNodes)).map fun r =>
        ((∅ : Finset Nat), (Assembly.fullRow mesh ndim (ndim * numNodes) r).card)).map storedRow) := by
  have h2 := Assembly.nnzPerRow_ok (ndim := ndim) c hsort hm h1 nodeToElem 0 hmap (by omega)
  rw [hlen, ← List.range_eq_range', Assembly.flatMap_rows ndim numNodes
    (fun r => (Assembly.fullRow mesh ndim (ndim * numNodes) r).card)] at h2
  obtain ⟨s0, h3, h4⟩ := SpGood.mk_ok c colMax 0 0 0 (by omega)
  obtain ⟨L, hg, -⟩ := h4.sets
  obtain ⟨a', h5, h6, -⟩ := hg.weak.resizeFromCapacities (c := c)
    ((List.range (ndim * numNodes)).map fun r => (Assembly.fullRow mesh ndim (ndim * numNodes) r).card)
  refine ⟨⟨ndim * numNodes, a'⟩, ?_, rfl, ?_⟩
  · rw [Assembly.resizeExact, h2, bind_ok, h3, bind_ok]
    unfold Sp.resizeFromRowCapacities
    rw [decide_eq_false (by omega), errorIf_false, bind_ok, h5, bind_ok]
  · simpa [storedRow, Function.comp_def] using h6

/-- **C71, the pattern by nodes.** `resizeExact`, then `generateNodeLoop` with a parallel policy: every node has a thread, which inserts
the dofs of its neighbours into the rows of its dofs through a view.  For every mesh, every node-to-element map that lists the elements
around each node in any order (C70), every sorting routine and every interleaving of the single accesses: nothing fails; if every
thread gets enough turns, all return, and then the pattern has exactly the pairs of dofs that share an element, and no row has unused
capacity.  `maxNeighbors` and `maxColumns` are the lengths of the two arrays on the stack, which have to be long enough. -/
theorem C71_pattern_by_nodes (c : Cfg) (ht : c.trivial = true) (sort : Buf Nat → R (Buf Nat)) (hsort : SortRoutine sort)
    (colMax ndim numNodes maxNeighbors maxColumns : Nat) (hN : ndim * numNodes ≤ colMax + 1) (mesh : Spec.Mesh)
    (hm : OnNodes mesh numNodes) (nodeToElem : List (List Nat)) (hlen : nodeToElem.length = numNodes)
    (hmap : ∀ n (hn : n < nodeToElem.length), nodeToElem[n].Perm (elementsOf mesh n))
    (hneighbors : ∀ n, n < numNodes → ((elementsOf mesh n).map fun e => (mesh.getD e []).length).sum ≤ maxNeighbors)
    (hcolumns : ∀ S ∈ (meshPattern mesh ndim numNodes).rows, S.card ≤ maxColumns) :
    ∃ s work turns, Assembly.resizeExact c sort colMax maxNeighbors ndim numNodes mesh nodeToElem = .ok s ∧
      Assembly.nodeWork c sort maxNeighbors maxColumns ndim mesh 0 nodeToElem = .ok work ∧ work.length = numNodes ∧
      ∀ sched, ∃ st ts, Assembly.generateWithView c s work sched = .ok (st, ts) ∧
        ((∀ n, n < numNodes → turns ≤ sched.count n) → AllReturned ts) ∧
        (AllReturned ts → ShowsPattern c { s with sets := st.array } (meshPattern mesh ndim numNodes) ∧
          Capacities c st.array ((meshPattern mesh ndim numNodes).rows.map (·.card))) := by
  have hmap' : Assembly.AroundFrom mesh 0 nodeToElem := fun i l hl => by
    obtain ⟨hi, rfl⟩ := List.getElem?_eq_some_iff.1 hl
    simpa using hmap i hi
  obtain ⟨s, h1, h2, h3⟩ := resizeExact_ok c hsort hN hm hlen hmap' hneighbors
  have h4 := Assembly.nodeWork_ok (ndim := ndim) (maxColumns := maxColumns) c hsort hm hneighbors
    (fun r hr => hcolumns _ (List.mem_map.2 ⟨r, List.mem_range.2 hr, rfl⟩)) nodeToElem 0 hmap' (by omega)
  rw [hlen, ← List.range_eq_range'] at h4
  obtain ⟨o, h5⟩ := Assembly.fill_rows (N := ndim * numNodes) (full := Assembly.fullRow mesh ndim (ndim * numNodes))
    (fun r k hk => by simp only [Assembly.fullRow, Finset.mem_filter, Finset.mem_range] at hk; exact hk.1) _ (Nat.le_refl _)
  rw [← Assembly.flatMap_rows ndim numNodes
    (fun r => (r, PatCall.insertMany ((Assembly.fullRow mesh ndim (ndim * numNodes) r).sort (· ≤ ·)))), List.flatMap_def] at h5
  obtain ⟨outs, h6⟩ := Assembly.threadsRun_of_flatten h5
  have hfull : ((List.range (ndim * numNodes)).map fun r => (if r < ndim * numNodes then Assembly.fullRow mesh ndim (ndim * numNodes) r
      else ∅, (Assembly.fullRow mesh ndim (ndim * numNodes) r).card)).map (·.1) = (meshPattern mesh ndim numNodes).rows := by
    rw [List.map_map]
    apply List.map_congr_left
    intro r hr
    simp only [Function.comp, if_pos (List.mem_range.1 hr)]
    rfl
  obtain ⟨N, h7⟩ := patterns_in_parallel c h2 h3 (fun r hr k hk => by
      obtain ⟨i, -, rfl⟩ := List.mem_map.1 hr
      simp at hk) _ (by
    intro t u ct cu hct hcu hne q hq r hr
    simp only [List.getElem?_map, Option.map_eq_some_iff] at hct hcu
    obtain ⟨t', ht', rfl⟩ := hct
    obtain ⟨u', hu', rfl⟩ := hcu
    obtain ⟨_, rfl⟩ := List.getElem?_eq_some_iff.1 ht'
    obtain ⟨_, rfl⟩ := List.getElem?_eq_some_iff.1 hu'
    obtain ⟨d1, hd1, rfl⟩ := List.mem_map.1 hq
    obtain ⟨d2, hd2, rfl⟩ := List.mem_map.1 hr
    rw [List.mem_range] at hd1 hd2
    simp only [List.getElem_range]
    intro e
    have e1 : (ndim * t + d1) / ndim = t := by rw [Nat.mul_add_div (by omega), Nat.div_eq_of_lt hd1, Nat.add_zero]
    have e2 : (ndim * u + d2) / ndim = u := by rw [Nat.mul_add_div (by omega), Nat.div_eq_of_lt hd2, Nat.add_zero]
    rw [e, e2] at e1
    exact hne e1.symm) outs h6
  refine ⟨s, _, N, h1, h4, by simp, fun sched => ?_⟩
  obtain ⟨st, ts, h8, h9, -, h10⟩ := h7 sched
  refine ⟨st, ts, h8, fun hturns t htl => ?_, fun hall => ?_⟩
  · have hts : ts.length = numNodes := by
      have := interleave_length h8
      simpa [threads] using this
    exact h9 t (by simpa using by omega) (hturns t (by omega))
  · obtain ⟨h11, h12, -⟩ := h10 hall
    rw [hfull] at h11
    refine ⟨showsPattern_of_good ht h11, ?_⟩
    have e : (meshPattern mesh ndim numNodes).rows.map (·.card) =
        ((List.range (ndim * numNodes)).map fun r =>
          ((∅ : Finset Nat), (Assembly.fullRow mesh ndim (ndim * numNodes) r).card)).map (·.2) := by
      simp [meshPattern, Assembly.fullRow]
    rw [e]
    exact h12

/-- **C71, the pattern by elements, through a view.** A pattern whose rows have room for their columns, but cannot grow, is filled by one
thread that goes over all elements and inserts the dofs of each into the rows of each of its dofs.  Nothing fails, the loop comes to
an end, and the pattern has exactly the pairs of dofs that share an element.  The capacities are as before, here `capacity` in every
row. -/
theorem C71_pattern_by_elements (c : Cfg) (ht : c.trivial = true) (colMax ndim numNodes capacity : Nat) (hN : ndim * numNodes ≤ colMax + 1)
    (mesh : Spec.Mesh) (hm : OnNodes mesh numNodes) (hnd : ∀ nodes ∈ mesh, nodes.Nodup)
    (hcap : ∀ S ∈ (meshPattern mesh ndim numNodes).rows, S.card ≤ capacity) :
    ∃ s turns, Sp.mk' c colMax (ndim * numNodes) (ndim * numNodes) capacity = .ok s ∧
      ∀ k, turns ≤ k → ∃ st ts,
        Assembly.generateWithView c s [Assembly.elemLoopCalls ndim mesh] (List.replicate k 0) = .ok (st, ts) ∧ AllReturned ts ∧
        ShowsPattern c { s with sets := st.array } (meshPattern mesh ndim numNodes) ∧
        Capacities c st.array (List.replicate (ndim * numNodes) capacity) := by
  obtain ⟨a, h1, h2⟩ := mk_good (T := Nat) c (ndim * numNodes) capacity
  obtain ⟨o, h3⟩ := Assembly.elem_rows (ndim := ndim) (cap := fun _ => capacity) hm hnd
    (fun r hr => hcap _ (List.mem_map.2 ⟨r, List.mem_range.2 hr, rfl⟩))
  obtain ⟨outs, h4⟩ := Assembly.threadsRun_of_flatten (work := [Assembly.elemLoopCalls ndim mesh]) (by simpa using h3)
  have h0 : Sp.mk' c colMax (ndim * numNodes) (ndim * numNodes) capacity = .ok ⟨ndim * numNodes, a⟩ := by
    unfold AoA.mk' at h1
    unfold Sp.mk' Sp.resize
    rw [decide_eq_false (by omega), errorIf_false, bind_ok]
    simp only
    rw [h1, bind_ok]
  obtain ⟨N, h5⟩ := patterns_in_parallel c (s := ⟨ndim * numNodes, a⟩) rfl (by
      simpa [storedRow, Function.comp_def, List.map_const'] using h2) (fun r hr k hk => by
      rw [(List.mem_replicate.1 hr).2] at hk
      simp at hk) _ (by
    intro t u ct cu hct hcu hne
    exfalso
    have h6 := (List.getElem?_eq_some_iff.1 hct).1
    have h7 := (List.getElem?_eq_some_iff.1 hcu).1
    simp at h6 h7
    omega) outs h4
  refine ⟨_, N, h0, fun k hk => ?_⟩
  obtain ⟨st, ts, h8, h9, -, h10⟩ := h5 (List.replicate k 0)
  have hall : AllReturned ts := by
    intro t htl
    have hts : ts.length = 1 := by
      have := interleave_length h8
      simpa [threads] using this
    obtain rfl : t = 0 := by omega
    exact h9 0 (by simp) (by simpa using hk)
  obtain ⟨h11, h12, -⟩ := h10 hall
  refine ⟨st, ts, h8, hall, showsPattern_of_good ht ?_, ?_⟩
  · simpa [meshPattern, Assembly.fullRow, Function.comp_def] using h11
  · simpa [Function.comp_def, List.map_const'] using h12

/-! ### The hypotheses are met -/

/-- Two triangles with a common edge: nodes 1 and 2 have two elements, given here in decreasing order. -/
example : ([[0], [1, 0], [1, 0], [1]] : List (List Nat)).length = 4 ∧
    (∀ n (hn : n < ([[0], [1, 0], [1, 0], [1]] : List (List Nat)).length),
      ([[0], [1, 0], [1, 0], [1]] : List (List Nat))[n].Perm (elementsOf [[0, 1, 2], [1, 3, 2]] n)) ∧
    (∀ n, n < 4 → ((elementsOf [[0, 1, 2], [1, 3, 2]] n).map fun e => (([[0, 1, 2], [1, 3, 2]] : Spec.Mesh).getD e []).length).sum ≤ 6) ∧
    (∀ S ∈ (meshPattern [[0, 1, 2], [1, 3, 2]] 2 4).rows, S.card ≤ 8) := by
  decide +kernel

end LvArray.Props

import Verif.AssemblyLemmas
import Verif.CrsMore

/-!
# C71: finite element assembly as the documentation describes it

`dofsOf`, `Coupled`, `contributionsTo` and `assembledEntry` are defined in `Spec/Assembly.lean`.
-/

namespace LvArray.Props

open LvArray Spec Concurrent

/-- The sparse matrix on the dofs of a mesh with entries `x`. -/
def onMesh {V : Type} (mesh : Spec.Mesh) (ndim numNodes : Nat) (x : Nat → Nat → V) : Spec.Matrix V :=
  { numCols := ndim * numNodes
    rows := (List.range (ndim * numNodes)).map fun r s => if Coupled mesh ndim r s then some (x r s) else none }

/-- Every thread has enough turns for its element: for each of its `n` dofs one call with `n` values, two turns per call and per
value. -/
def AssemblyRuns (mesh : Spec.Mesh) (ndim : Nat) (sched : List Nat) : Prop :=
  ∀ (e : Nat) nodes, mesh[e]? = some nodes → (ndim * nodes.length) * (2 + 2 * (ndim * nodes.length)) ≤ sched.count e

/-- **C71, the pattern.** Generating the pattern by elements gives exactly the pairs of dofs that share an element, whatever the
initial capacity of the rows. -/
theorem C71_pattern (c : Cfg) (ht : c.trivial = true) (colMax ndim numNodes capacity : Nat) (hN : ndim * numNodes ≤ colMax + 1)
    (mesh : Spec.Mesh) (hm : OnNodes mesh numNodes) (hnd : ∀ nodes ∈ mesh, nodes.Nodup) :
    ∃ s0 s, Sp.mk' c colMax (ndim * numNodes) (ndim * numNodes) capacity = .ok s0 ∧
      Assembly.generateElemLoop (Sp.insertNonZeros c) ndim s0 mesh = .ok s ∧
      ShowsPattern c s { numCols := ndim * numNodes, rows := (List.range (ndim * numNodes)).map fun r =>
        (Finset.range (ndim * numNodes)).filter fun k => Coupled mesh ndim r k } := by
  obtain ⟨s0, s, h1, h2, h3⟩ := Assembly.generated ht hN capacity hm hnd
  exact ⟨s0, s, h1, h2, showsPattern_of_good ht h3⟩

section

variable {V : Type} [Add V]

theorem kernel_legal {mesh : Spec.Mesh} {ndim numNodes : Nat} (hm : OnNodes mesh numNodes) (x : Nat → Nat → V)
    (K : Nat → Nat → Nat → V) : ∀ calls ∈ Assembly.kernelCalls ndim mesh K, ∀ q ∈ calls, CallOk (onMesh mesh ndim numNodes x) q := by
  intro calls hc q hq
  obtain ⟨e, he, rfl⟩ := List.mem_mapIdx.1 hc
  obtain ⟨i, hi, rfl⟩ := List.mem_mapIdx.1 hq
  simp only [Assembly.dofNumbers_eq] at hi ⊢
  have hmem : (Assembly.dofNumbers ndim mesh[e])[i]'(by rw [Assembly.dofNumbers_eq]; exact hi) ∈ dofsOf ndim mesh[e] := by
    simp only [Assembly.dofNumbers_eq]; exact List.getElem_mem hi
  simp only [Assembly.dofNumbers_eq] at hmem
  have hlt := Assembly.dofsOf_lt (hm _ (List.getElem_mem he)) hmem
  refine ⟨trivial, (fun s => if Coupled mesh ndim (dofsOf ndim mesh[e])[i] s then some (x (dofsOf ndim mesh[e])[i] s) else none), ?_, ?_⟩
  · simp only [onMesh, List.getElem?_map]
    rw [List.getElem?_range hlt]
    rfl
  · intro a ha
    obtain ⟨j, hj, rfl⟩ := List.mem_mapIdx.1 ha
    have hmem2 : (dofsOf ndim mesh[e])[j] ∈ dofsOf ndim mesh[e] := List.getElem_mem hj
    have hlt2 := Assembly.dofsOf_lt (hm _ (List.getElem_mem he)) hmem2
    have hcp : Coupled mesh ndim (dofsOf ndim mesh[e])[i] (dofsOf ndim mesh[e])[j] :=
      ⟨mesh[e], List.getElem_mem he, hmem, hmem2⟩
    simp only [columnsOf, List.mem_filter, List.mem_range, onMesh]
    exact ⟨hlt2, by simp [hcp]⟩

/-- One assembly. -/
theorem kernel_ok (c : Cfg) {mesh : Spec.Mesh} {ndim numNodes : Nat} (hm : OnNodes mesh numNodes) {m : Crs V} {x : Nat → Nat → V}
    (h : CrsGood m (onMesh mesh ndim numNodes x)) (K : Nat → Nat → Nat → V) (sched : List Nat) :
    ∃ m' ts, Assembly.addKernel c m ndim mesh K sched = .ok (m', ts) ∧
      (AssemblyRuns mesh ndim sched → AddFinished ts ∧ ∃ y, CrsGood m' (onMesh mesh ndim numNodes y) ∧
        ∀ r s, ∃ l : List V, l.Perm (contributionsTo mesh ndim K r s) ∧ y r s = l.foldl (· + ·) (x r s)) := by
  obtain ⟨done, m', ts, h1, h2⟩ := (CInv.init h (Assembly.kernelCalls ndim mesh K) (kernel_legal hm x K)).run (c := c) sched
  refine ⟨m', ts, h1, fun hs => ?_⟩
  have hfin : AddFinished ts := by
    intro t' ht
    obtain ⟨k, hk⟩ := List.mem_iff_getElem?.1 ht
    obtain ⟨t, h3, h4⟩ := interleave_progress addWork (addWork_turn c) sched _ _ _ _ h1 k t' hk
    simp only [adders, List.getElem?_map, Option.map_eq_some_iff] at h3
    obtain ⟨calls, h5, rfl⟩ := h3
    have h6 : (calls.map fun q => 2 + 2 * q.2.2.length).sum ≤ sched.count k := by
      simp only [Assembly.kernelCalls, List.getElem?_mapIdx, Option.map_eq_some_iff] at h5
      obtain ⟨nodes, h7, rfl⟩ := h5
      refine Nat.le_trans (Nat.le_of_eq ?_) (hs k nodes h7)
      have e : (Assembly.elementCalls (Assembly.dofNumbers ndim nodes) (K k)).map (fun q => 2 + 2 * q.2.2.length) =
          List.replicate (ndim * nodes.length) (2 + 2 * (ndim * nodes.length)) := by
        apply List.ext_getElem
        · simp [Assembly.elementCalls, Assembly.dofNumbers_eq, Assembly.dofsOf_length]
        · intro i hi1 hi2
          simp [Assembly.elementCalls, Assembly.dofNumbers_eq, Assembly.dofsOf_length]
      rw [e]
      simp
    rw [addWork_start] at h4
    obtain ⟨calls', pc'⟩ := t'
    cases calls' with
    | nil => rfl
    | cons q rest =>
      exfalso
      obtain ⟨how, row, args⟩ := q
      cases pc' with
      | start => simp only [addWork] at h4; omega
      | searching _ _ _ => simp only [addWork] at h4; omega
      | found _ _ _ => cases args <;> simp only [addWork] at h4 <;> omega
  refine ⟨hfin, fun r s => ((done.filter fun q => q.1 == r && q.2.1 == s).map (·.2.2)).foldl (· + ·) (x r s), ?_, fun r s => ?_⟩
  · have hg := h2.good
    rw [addDone_eq] at hg
    have : addContributions (onMesh mesh ndim numNodes x) done = onMesh mesh ndim numNodes fun r s =>
        ((done.filter fun q => q.1 == r && q.2.1 == s).map (·.2.2)).foldl (· + ·) (x r s) := by
      simp only [addContributions, onMesh, Spec.Matrix.mk.injEq, true_and]
      apply List.ext_getElem
      · simp
      · intro r h3 h4
        simp only [List.getElem_mapIdx, List.getElem_map, List.getElem_range]
        funext s
        split <;> simp
    rwa [this] at hg
  · refine ⟨_, ?_, rfl⟩
    have hp := h2.perm
    have e : ts.flatMap (fun t => contributions t.calls) = [] := by
      rw [List.flatMap_eq_nil_iff]
      intro t ht
      rw [hfin t ht]; rfl
    rw [e, List.append_nil] at hp
    have := ((hp.filter fun q => q.1 == r && q.2.1 == s).map (·.2.2))
    rwa [show contributions = contributed from rfl, Assembly.kernel_contributions] at this

theorem setValues_ok (c : Cfg) (ht : c.trivial = true) {mesh : Spec.Mesh} {ndim numNodes : Nat} {m : Crs V} {x : Nat → Nat → V}
    (h : CrsGood m (onMesh mesh ndim numNodes x)) (v : V) :
    ∃ m', m.setValues c v = .ok m' ∧ CrsGood m' (onMesh mesh ndim numNodes fun _ _ => v) := by
  have hs : crsStep 0 (onMesh mesh ndim numNodes x) (.setValues v) = some (onMesh mesh ndim numNodes fun _ _ => v, .unit) := by
    simp only [crsStep, onMesh, List.map_map, Option.some.injEq, Prod.mk.injEq, and_true, Spec.Matrix.mk.injEq, true_and]
    apply List.map_congr_left
    intro r _
    funext s
    simp only [Function.comp]
    split <;> rfl
  rcases h.step_ok (c := c) 0 (.setValues v) _ _ hs with ⟨m', h1, h2⟩ | ⟨h1, _⟩
  · simp only [Crs.step] at h1
    obtain ⟨m1, h3, h4⟩ := bind_eq_ok.1 h1
    simp only [Except.ok.injEq, Prod.mk.injEq] at h4
    obtain ⟨rfl, -⟩ := h4
    exact ⟨_, h3, h2⟩
  · rw [ht] at h1; cases h1

theorem timeSteps_ok (c : Cfg) (ht : c.trivial = true) (zero : V) {mesh : Spec.Mesh} {ndim numNodes : Nat} (hm : OnNodes mesh numNodes)
    (K : Nat → Nat → Nat → V) (sched : List Nat) (hsched : AssemblyRuns mesh ndim sched)
    (previous : List ((Nat → Nat → Nat → V) × List Nat)) (hprev : ∀ p ∈ previous, AssemblyRuns mesh ndim p.2) :
    ∀ {m : Crs V}, CrsGood m (onMesh mesh ndim numNodes fun _ _ => zero) →
      ∃ m', Assembly.timeSteps c zero ndim mesh m (previous ++ [(K, sched)]) = .ok m' ∧
        ∃ y, CrsGood m' (onMesh mesh ndim numNodes y) ∧
          ∀ r s, ∃ l : List V, l.Perm (contributionsTo mesh ndim K r s) ∧ y r s = l.foldl (· + ·) zero := by
  induction previous with
  | nil =>
    intro m h
    obtain ⟨m', ts, h1, h2⟩ := kernel_ok c hm h K sched
    refine ⟨m', ?_, (h2 hsched).2⟩
    simp [Assembly.timeSteps, h1]
  | cons p previous ih =>
    intro m h
    obtain ⟨K0, sched0⟩ := p
    obtain ⟨m1, ts, h1, h2⟩ := kernel_ok c hm h K0 sched0
    obtain ⟨-, y, h3, -⟩ := h2 (hprev (K0, sched0) (by simp))
    obtain ⟨m2, h4, h5⟩ := setValues_ok c ht h3 zero
    obtain ⟨m', h6, h7⟩ := ih (fun p hp => hprev p (by simp [hp])) h5
    refine ⟨m', ?_, h7⟩
    rw [List.cons_append, Assembly.timeSteps, h1, bind_ok]
    have e : (previous ++ [(K, sched)]).isEmpty = false := by simp
    simp only [e, Bool.false_eq_true, if_false, h4, bind_ok, h6]

/-- **C71, any arithmetic.** The program of the documentation: generate the pattern by elements, assimilate it, then in every time
step let one thread per element add its matrix with an atomic policy, and set the entries to zero before the next time step.  For
every mesh, every number of time steps, all element matrices and every interleaving in each of them: no step fails, and after each
time step (here: the last one) the matrix has an entry for exactly the pairs of dofs that share an element, and the entry is zero
plus everything the elements contribute to it in this time step, each contribution once, in some order.  Nothing is left from earlier
time steps.  (`T()` has to be the zero that `setValues` is called with.) -/
theorem C71_assembly_any_order [Inhabited V] (c : Cfg) (ht : c.trivial = true) (colMax ndim numNodes capacity : Nat)
    (hN : ndim * numNodes ≤ colMax + 1) (zero : V) (hz : default = zero) (mesh : Spec.Mesh) (hm : OnNodes mesh numNodes)
    (hnd : ∀ nodes ∈ mesh, nodes.Nodup) (previous : List ((Nat → Nat → Nat → V) × List Nat))
    (hprev : ∀ p ∈ previous, AssemblyRuns mesh ndim p.2) (K : Nat → Nat → Nat → V) (sched : List Nat)
    (hsched : AssemblyRuns mesh ndim sched) :
    ∃ m y, Assembly.simulate c colMax zero ndim numNodes capacity mesh (previous ++ [(K, sched)]) = .ok m ∧
      ShowsMatrix c m (onMesh mesh ndim numNodes y) ∧
      ∀ r s, ∃ l : List V, l.Perm (contributionsTo mesh ndim K r s) ∧ y r s = l.foldl (· + ·) zero := by
  obtain ⟨s0, s, h1, h2, h3⟩ := Assembly.generated (c := c.ix) rfl hN capacity hm hnd
  obtain ⟨m0, h4, h5⟩ := CrsGood.mk_ok (V := V) c colMax 0 0 0 (by omega)
  obtain ⟨L, hg, -⟩ := h5.rows
  obtain ⟨L', hg', hL'⟩ := h3.sets
  obtain ⟨m1, s', h6, h7, h8, h9⟩ := CGood.assimilate c hg.weak hg'
  have hgood := CrsGood.ofAssimilate h3 hL' h7 h8
  have e : (Assembly.patternOf mesh ndim (ndim * numNodes)).toMatrix (default : V) = onMesh mesh ndim numNodes fun _ _ => zero := by
    simp only [Spec.Pattern.toMatrix, Assembly.patternOf, onMesh, List.map_map, Spec.Matrix.mk.injEq, true_and]
    apply List.map_congr_left
    intro r _
    funext k
    simp only [Function.comp, Finset.mem_filter, Finset.mem_range, hz]
    by_cases hc : Coupled mesh ndim r k
    · rw [if_pos ⟨Assembly.coupled_lt hm hc, hc⟩, if_pos hc]
    · rw [if_neg (fun h => hc h.2), if_neg hc]
  rw [e] at hgood
  obtain ⟨m', h10, y, h11, h12⟩ := timeSteps_ok c ht zero hm K sched hsched previous hprev hgood
  refine ⟨m', y, ?_, showsMatrix_of_good h11, h12⟩
  simp only [Assembly.simulate, h1, bind_ok, h2, h4, h6, h10]

end

/-- **C71.** The same for entries that are added exactly: after each time step the matrix is the assembled matrix of this time
step. -/
theorem C71_assembly {V : Type} [AddCommMonoid V] [Inhabited V] (c : Cfg) (ht : c.trivial = true) (colMax ndim numNodes capacity : Nat)
    (hN : ndim * numNodes ≤ colMax + 1) (hz : (default : V) = 0) (mesh : Spec.Mesh) (hm : OnNodes mesh numNodes)
    (hnd : ∀ nodes ∈ mesh, nodes.Nodup) (previous : List ((Nat → Nat → Nat → V) × List Nat))
    (hprev : ∀ p ∈ previous, AssemblyRuns mesh ndim p.2) (K : Nat → Nat → Nat → V) (sched : List Nat)
    (hsched : AssemblyRuns mesh ndim sched) :
    ∃ m, Assembly.simulate c colMax 0 ndim numNodes capacity mesh (previous ++ [(K, sched)]) = .ok m ∧
      ShowsMatrix c m (onMesh mesh ndim numNodes (assembledEntry mesh ndim K)) := by
  obtain ⟨m, y, h1, h2, h3⟩ := C71_assembly_any_order c ht colMax ndim numNodes capacity hN 0 hz mesh hm hnd previous hprev K sched hsched
  refine ⟨m, h1, ?_⟩
  have : y = assembledEntry mesh ndim K := by
    funext r s
    obtain ⟨l, h4, h5⟩ := h3 r s
    rw [h5, ← Assembly.contributionsTo_sum, ← h4.sum_eq, List.sum_eq_foldl]
  rwa [this] at h2

/-! ### The hypotheses are met -/

/-- Two triangles with a common edge. -/
def square : Spec.Mesh := [[0, 1, 2], [1, 3, 2]]

example : OnNodes square 4 ∧ (∀ nodes ∈ square, nodes.Nodup) := by unfold OnNodes; decide

/-- Dofs of nodes 0 and 3 are not coupled, all others are. -/
example : ¬ Coupled square 2 0 6 ∧ ¬ Coupled square 2 7 1 ∧ Coupled square 2 2 5 ∧ Coupled square 2 0 0 := by decide

/-- Both elements contribute to the entry of dofs 2 and 5, of nodes 1 and 2. -/
example : contributionsTo square 2 (fun e i j => (e, i, j)) 2 5 = [(0, 2, 5), (1, 0, 5)] := by decide

/-- A schedule in which the threads take turns. -/
example : AssemblyRuns square 1 ((List.replicate 24 [1, 0]).flatten) := by
  intro e nodes h
  rcases e with _ | _ | e
  · cases h; decide
  · cases h; decide
  · cases h

end LvArray.Props

import Verif.MeshLemmas

/-!
# C70: the node to element map programs of the documentation

`elementsOf mesh n` of `Spec/Mesh.lean` lists the elements around node `n`.
-/

namespace LvArray.Props

open LvArray Layout Spec Concurrent

/-- `a` has one array per node with the elements around it, in any order. -/
def ElementsAround (c : Cfg) (a : AoA Nat) (mesh : Spec.Mesh) (numNodes : Nat) : Prop :=
  ∃ rows : List (List Nat), Shows c a rows ∧ rows.length = numNodes ∧
    ∀ n (hn : n < rows.length), rows[n].Perm (elementsOf mesh n)

/-- Every thread has a turn for each of the steps its element takes, `steps` per node. -/
def RunsToEnd (steps : Nat) (mesh : Spec.Mesh) (sched : List Nat) : Prop :=
  ∀ (e : Nat) nodes, mesh[e]? = some nodes → steps * nodes.length ≤ sched.count e

/-- A default constructed map that has been resized. -/
theorem reach_resized (c : Cfg) (ht : c.trivial = true) (n d : Nat) :
    ∃ a0 a : AoA Nat, AoA.mk' c 0 0 = .ok a0 ∧ a0.resize c n d = .ok a ∧ Reach c a (List.replicate n ([], d)) := by
  obtain ⟨a0, h1, h2⟩ := mk_good (T := Nat) c 0 0
  have hd : c.debug = true → ∀ op ∈ [AoAOp.resize (T := Nat) n d], op.nonEmptyInsert := by
    intro _ op ho; simp at ho; subst ho; trivial
  have hr : vvcRun (List.replicate 0 (([] : List Nat), 0)) [.resize n d] = some (List.replicate n ([], d)) := by
    simp [vvcRun, vvcStep]
  obtain ⟨a, h3, -⟩ := run_trivial c ht _ hd h2 hr
  refine ⟨a0, a, h1, ?_, 0, 0, [.resize n d], a0, hd, h1, h3, hr⟩
  simp only [AoA.run, AoA.step] at h3
  cases hh : a0.resize c n d with
  | error x => rw [hh] at h3; cases h3
  | ok y => rw [hh] at h3; exact h3

theorem vvcRun_snoc {T : Type} [Inhabited T] (ops : List (AoAOp T)) (op : AoAOp T) (L : List (List T × Nat)) :
    vvcRun L (ops ++ [op]) = vvcRun L ops >>= fun L => vvcStep L op := by
  induction ops generalizing L with
  | nil =>
    simp only [List.nil_append, vvcRun]
    cases h : vvcStep L op <;> simp [h]
  | cons o os ih =>
    simp only [List.cons_append, vvcRun]
    cases vvcStep L o with
    | none => rfl
    | some L1 => exact ih L1

/-- Any map, rebuilt from capacities. -/
theorem reach_fromCapacities {c : Cfg} {a : AoA Nat} {L : List (List Nat × Nat)} (h : Reach c a L) (cs : List Nat) :
    ∃ a', a.resizeFromCapacities c cs = .ok a' ∧ Reach c a' (cs.map fun n => ([], n)) := by
  obtain ⟨a', h1, -⟩ := C32_resizeFromCapacities c h cs
  obtain ⟨n, d, ops, a0, hd, h2, h3, h4⟩ := h
  refine ⟨a', h1, n, d, ops ++ [.resizeFromCapacities cs], a0, ?_, h2, ?_, ?_⟩
  · intro hdb op ho
    rcases List.mem_append.1 ho with ho | ho
    · exact hd hdb op ho
    · simp at ho; subst ho; trivial
  · rw [run_append, h3, bind_ok]
    exact h1
  · rw [vvcRun_snoc, h4]
    rfl

/-- Threads that have had enough turns are done. -/
theorem appenders_finished {T : Type} (c : Cfg) {a : AoA T} {prog : List (List (Nat × T))} {sched : List Nat} {s : Shared T}
    {ts : List (Appender T)} (h1 : interleave (appendTurn c) ⟨a, []⟩ (appenders prog) sched = .ok (s, ts))
    (hturns : ∀ (k : Nat) calls, prog[k]? = some calls → 4 * calls.length ≤ sched.count k) : Finished ts := by
  intro t' ht
  obtain ⟨k, hk⟩ := List.mem_iff_getElem?.1 ht
  obtain ⟨t, h3, h4⟩ := interleave_progress appendWork (appendWork_turn c) sched _ _ _ _ h1 k t' hk
  simp only [appenders, List.getElem?_map, Option.map_eq_some_iff] at h3
  obtain ⟨calls, h5, rfl⟩ := h3
  have h6 := hturns k calls h5
  have h7 : appendWork (⟨calls, .start⟩ : Appender T) = 4 * calls.length := by
    cases calls <;> simp [appendWork]; omega
  obtain ⟨calls', pc'⟩ := t'
  cases calls' with
  | nil => rfl
  | cons q rest => exfalso; cases pc' <;> simp only [appendWork] at h4 h7 <;> omega

/-- **C70, one after another.** The program that appends with `emplaceBack` builds the map: node `n` gets the elements around it in
increasing order, for every mesh on the nodes. -/
theorem C70_naive (c : Cfg) (ht : c.trivial = true) (mesh : Spec.Mesh) (numNodes : Nat) (hm : OnNodes mesh numNodes) :
    ∃ a0 a, AoA.mk' c 0 0 = .ok a0 ∧ Mesh.naive c a0 mesh numNodes = .ok a ∧
      Shows c a ((List.range numNodes).map (elementsOf mesh)) := by
  obtain ⟨a0, a1, h1, h2, h3⟩ := reach_resized c ht numNodes 0
  obtain ⟨a, L, h4, h5, h6⟩ := Mesh.naiveLoop_ok c ht mesh 0 (reach_good h3) (by simpa using hm)
  refine ⟨a0, a, h1, by rw [Mesh.naive, h2, bind_ok, h4], ?_⟩
  have := shows_of_good (c := c) h5
  rw [h6] at this
  convert this using 1
  apply List.ext_getElem <;> simp [Mesh.elementsOf_eq]

theorem elementsAround_of {c : Cfg} {a : AoA Nat} {mesh : Spec.Mesh} {L : List (List Nat × Nat)}
    (hL : ∀ r ∈ L, r.1 = []) (h : AppendedAll c a L (mesh.mapIdx Mesh.callsOf)) : ElementsAround c a mesh L.length := by
  obtain ⟨L', h1, -, h2, h3⟩ := h
  refine ⟨_, h1, by simpa using h2, ?_⟩
  intro n hn
  simp only [List.length_map, h2] at hn
  obtain ⟨new, h4, h5, -⟩ := h3 n L[n].1 L[n].2 (by simp [List.getElem?_eq_getElem hn])
  have h6 : L'[n]'(by omega) = (L[n].1 ++ new, L[n].2) := by
    rw [List.getElem?_eq_getElem (by omega)] at h4
    simpa using h4
  have h7 := hL L[n] (List.getElem_mem hn)
  rw [Mesh.valuesFor_elementsOf] at h5
  simpa [h6, h7] using h5

theorem turns_enough {mesh : Spec.Mesh} {sched : List Nat} (h : RunsToEnd 4 mesh sched) :
    ∀ (k : Nat) calls, (mesh.mapIdx Mesh.callsOf)[k]? = some calls → 4 * calls.length ≤ sched.count k := by
  intro k calls hk
  rw [List.getElem?_mapIdx, Option.map_eq_some_iff] at hk
  obtain ⟨nodes, h1, rfl⟩ := hk
  simpa [Mesh.callsOf] using h k nodes h1

/-- **C70, with space for the largest node.** If no node has more than `maxNodeElements` elements around it, the parallel program
builds the map under every schedule: no step fails, no slot is written twice, and when all threads are done every node has the
elements around it. -/
theorem C70_overAllocation (c : Cfg) (ht : c.trivial = true) (mesh : Spec.Mesh) (numNodes maxNodeElements : Nat) (hm : OnNodes mesh numNodes)
    (hmax : ∀ n, n < numNodes → (elementsOf mesh n).length ≤ maxNodeElements) (sched : List Nat) :
    ∃ a0 s ts, AoA.mk' c 0 0 = .ok a0 ∧ Mesh.overAllocation c a0 mesh numNodes maxNodeElements sched = .ok (s, ts) ∧
      s.writes.Nodup ∧ (Finished ts → ElementsAround c s.view mesh numNodes) ∧
      (RunsToEnd 4 mesh sched → Finished ts) := by
  obtain ⟨a0, a1, h1, h2, h3⟩ := reach_resized c ht numNodes maxNodeElements
  have hfit : Fits (List.replicate numNodes (([] : List Nat), maxNodeElements)) (mesh.mapIdx Mesh.callsOf) := by
    refine ⟨by simpa using Mesh.calls_onNodes hm, ?_⟩
    intro i xs cap hi
    obtain ⟨hil, e⟩ := List.getElem?_eq_some_iff.1 hi
    simp only [List.getElem_replicate, Prod.mk.injEq] at e
    obtain ⟨rfl, rfl⟩ := e
    rw [Mesh.valuesFor_elementsOf]
    simpa using hmax i (by simpa using hil)
  obtain ⟨s, ts, h4, h5, h6⟩ := C26_emplaceBackAtomic c h3 _ hfit sched
  refine ⟨a0, s, ts, h1, by rw [Mesh.overAllocation, h2, bind_ok, Mesh.fill, h4], h5, fun hf => ?_, fun hs => ?_⟩
  · simpa using elementsAround_of (by simp) (h6 hf)
  · exact appenders_finished c h4 (turns_enough hs)

/-- **C70, too little space.** If a node has more than `maxNodeElements` elements around it, a build with bounds checks reports it:
no schedule lets all threads finish. -/
theorem C70_overAllocation_reported (c : Cfg) (ht : c.trivial = true) (hb : c.boundsCheck = true) (mesh : Spec.Mesh)
    (numNodes maxNodeElements n : Nat) (hn : n < numNodes) (hmax : maxNodeElements < (elementsOf mesh n).length)
    (sched : List Nat) (hs : RunsToEnd 4 mesh sched) :
    ∃ a0, AoA.mk' c 0 0 = .ok a0 ∧ Mesh.overAllocation c a0 mesh numNodes maxNodeElements sched = .error .abort := by
  obtain ⟨a0, a1, h1, h2, h3⟩ := reach_resized c ht numNodes maxNodeElements
  refine ⟨a0, h1, ?_⟩
  rw [Mesh.overAllocation, h2, bind_ok, Mesh.fill]
  rcases C26_overflow_reported c hb h3 (mesh.mapIdx Mesh.callsOf) sched with ⟨s, ts, h4, -, h5⟩ | ⟨h4, -⟩
  · have h6 := (h5 (appenders_finished c h4 (turns_enough hs))).1.2 n [] maxNodeElements (by simp [hn])
    rw [Mesh.valuesFor_elementsOf] at h6
    simp only [List.length_nil] at h6
    omega
  · exact h4

/-- **C70, with exactly the space needed.** The parallel program that counts first builds the map from any existing one: whatever
the interleaving of the counting threads, once they are done, and whatever that of the filling threads, no step fails, no slot is
written twice, and when the filling threads are done every node has the elements around it and no capacity is left over. -/
theorem C70_resizeFromCapacities (c : Cfg) {a : AoA Nat} {L : List (List Nat × Nat)} (h : Reach c a L) (mesh : Spec.Mesh)
    (numNodes : Nat) (hm : OnNodes mesh numNodes) (sched₁ sched₂ : List Nat) (h₁ : RunsToEnd 1 mesh sched₁) :
    ∃ left s ts, Mesh.resizeFromCapacities c a mesh numNodes sched₁ sched₂ = .ok (left, s, ts) ∧ (∀ t ∈ left, t = []) ∧
      s.writes.Nodup ∧
      (Finished ts → ElementsAround c s.view mesh numNodes ∧
        Capacities c s.view ((List.range numNodes).map fun n => (elementsOf mesh n).length)) ∧
      (RunsToEnd 4 mesh sched₂ → Finished ts) := by
  obtain ⟨counts, xs, left, h2, h3, h4⟩ := Mesh.countElements_ok c hm sched₁
  have h5 := h4 (fun k nodes hk => by simpa using h₁ k nodes hk)
  have hz : left.flatten = [] := by simpa using h5
  have hxs : xs = (List.range numNodes).map fun n => (elementsOf mesh n).length := by
    apply List.ext_getElem
    · simp [h3.size]
    · intro n h6 h7
      have := h3.sum n h6
      rw [hz] at this
      simpa [Mesh.elementsOf_eq, Mesh.around_length] using this
  have hsz : counts.size = xs.length := h3.good.size
  have hcap := Mesh.capacitiesFrom_ok h3.good counts.size 0 (by omega)
  obtain ⟨a1, h6, h7⟩ := reach_fromCapacities h xs
  have hfit : Fits (xs.map fun n => (([] : List Nat), n)) (mesh.mapIdx Mesh.callsOf) := by
    refine ⟨by simpa [h3.size] using Mesh.calls_onNodes hm, ?_⟩
    intro i ys cap hi
    rw [List.getElem?_map, Option.map_eq_some_iff] at hi
    obtain ⟨k, hk, e⟩ := hi
    simp only [Prod.mk.injEq] at e
    obtain ⟨rfl, rfl⟩ := e
    rw [Mesh.valuesFor_elementsOf]
    rw [hxs, List.getElem?_map, Option.map_eq_some_iff] at hk
    obtain ⟨m, hm1, rfl⟩ := hk
    obtain ⟨hm2, rfl⟩ := List.getElem?_eq_some_iff.1 hm1
    simp
  obtain ⟨s, ts, h8, h9, h10⟩ := C26_emplaceBackAtomic c h7 _ hfit sched₂
  refine ⟨left, s, ts, ?_, h5, h9, fun hf => ⟨?_, ?_⟩, fun ht => appenders_finished c h8 (turns_enough ht)⟩
  · simp only [Mesh.resizeFromCapacities, h2, bind_ok, hcap, List.drop_zero, h6, Mesh.fill, h8]
  · have := elementsAround_of (by simp) (h10 hf)
    simpa [h3.size] using this
  · obtain ⟨_, -, h11, -⟩ := h10 hf
    simpa [hxs, Function.comp_def] using h11

/-! ### The hypotheses are met -/

/-- Three triangles around node 2; node 5 belongs to none. -/
def triangles : Spec.Mesh := [[0, 1, 2], [1, 2, 3], [2, 3, 4]]

example : OnNodes triangles 6 := by unfold OnNodes; decide

example : elementsOf triangles 2 = [0, 1, 2] ∧ elementsOf triangles 1 = [0, 1] ∧ elementsOf triangles 5 = [] := by decide

/-- The largest node has three elements; two would not be enough. -/
example : (∀ n, n < 6 → (elementsOf triangles n).length ≤ 3) ∧ 2 < (elementsOf triangles 2).length := by decide

/-- Schedules that run to the end: the threads take turns, or the last goes first. -/
example : RunsToEnd 4 triangles ((List.replicate 12 [0, 1, 2]).flatten) ∧
    RunsToEnd 1 triangles [2, 2, 2, 0, 1, 0, 1, 1, 0] := by
  constructor <;>
  · intro e nodes h
    rcases e with _ | _ | _ | e
    · cases h; decide
    · cases h; decide
    · cases h; decide
    · cases h

end LvArray.Props

import Verif.Mesh
import Verif.Spec.Mesh
import Verif.Array1DLemmas
import Verif.Props.Concurrent

/-! # Lemmas about the node to element map programs -/

namespace LvArray.Mesh

open LvArray Layout Spec Concurrent Props

/-- `elementsOf` for elements numbered from `e` on. -/
def around (n : Nat) : Nat → List (List Nat) → List Nat
  | _, [] => []
  | e, nodes :: mesh => List.replicate (nodes.count n) e ++ around n (e + 1) mesh

theorem around_eq (n : Nat) (mesh : List (List Nat)) : ∀ e, around n e mesh =
    (List.range mesh.length).flatMap fun k => List.replicate ((mesh.getD k []).count n) (e + k) := by
  induction mesh with
  | nil => intro e; rfl
  | cons nodes mesh ih =>
    intro e
    simp only [around, ih, List.length_cons, List.range_succ_eq_map, List.flatMap_cons, List.flatMap_map, List.getD_cons_zero,
      Nat.add_zero, List.getD_cons_succ]
    congr 2
    funext k
    congr 1
    omega

theorem elementsOf_eq (mesh : List (List Nat)) (n : Nat) : elementsOf mesh n = around n 0 mesh := by
  rw [around_eq]
  simp [elementsOf]

theorem around_length (n : Nat) (mesh : List (List Nat)) : ∀ e, (around n e mesh).length = mesh.flatten.count n := by
  induction mesh with
  | nil => intro e; rfl
  | cons nodes mesh ih => intro e; simp [around, ih, List.count_append]

theorem valuesFor_append {T : Type} (i : Nat) (xs ys : List (Nat × T)) : valuesFor i (xs ++ ys) = valuesFor i xs ++ valuesFor i ys := by
  simp [valuesFor]

theorem valuesFor_callsOf (n e : Nat) (nodes : List Nat) : valuesFor n (callsOf e nodes) = List.replicate (nodes.count n) e := by
  induction nodes with
  | nil => rfl
  | cons m nodes ih =>
    have h : valuesFor n (callsOf e (m :: nodes)) = valuesFor n [(m, e)] ++ valuesFor n (callsOf e nodes) :=
      valuesFor_append n [(m, e)] (callsOf e nodes)
    rw [h, ih]
    by_cases hm : m = n
    · subst hm
      rw [List.count_cons_self, List.replicate_succ]
      simp [valuesFor]
    · rw [List.count_cons_of_ne hm]
      simp [valuesFor, hm]

theorem valuesFor_mesh (n : Nat) (mesh : List (List Nat)) : ∀ e,
    valuesFor n ((mesh.mapIdx fun k => callsOf (k + e)).flatten) = around n e mesh := by
  induction mesh with
  | nil => intro e; rfl
  | cons nodes mesh ih =>
    intro e
    rw [List.mapIdx_cons, List.flatten_cons, valuesFor_append, valuesFor_callsOf, around, ← ih (e + 1)]
    congr 3
    · congr 1; omega
    · congr 1
      funext k
      congr 1
      omega

theorem valuesFor_elementsOf (n : Nat) (mesh : List (List Nat)) :
    valuesFor n ((mesh.mapIdx callsOf).flatten) = elementsOf mesh n := by
  rw [elementsOf_eq, ← valuesFor_mesh n mesh 0]
  rfl

theorem calls_onNodes {mesh : List (List Nat)} {numNodes : Nat} (h : OnNodes mesh numNodes) :
    ∀ calls ∈ mesh.mapIdx callsOf, ∀ q ∈ calls, q.1 < numNodes := by
  intro calls hc q hq
  obtain ⟨k, hk, rfl⟩ := List.mem_mapIdx.1 hc
  simp only [callsOf, List.mem_map] at hq
  obtain ⟨n, hn, rfl⟩ := hq
  exact h _ (List.getElem_mem hk) n hn

/-! ## The counts -/

theorem set_flatten_count {ts : List (List Nat)} {k m : Nat} {rest : List Nat} (h : ts[k]? = some (m :: rest)) (n : Nat) :
    (ts.set k rest).flatten.count n + (if m = n then 1 else 0) = ts.flatten.count n := by
  induction ts generalizing k with
  | nil => simp at h
  | cons t ts ih =>
    cases k with
    | zero =>
      simp only [List.getElem?_cons_zero, Option.some.injEq] at h
      subst h
      simp only [List.set_cons_zero, List.flatten_cons, List.count_append, List.count_cons, beq_iff_eq]
      omega
    | succ k =>
      simp only [List.getElem?_cons_succ] at h
      have := ih h
      simp only [List.set_cons_succ, List.flatten_cons, List.count_append]
      omega

/-- The counts so far and the nodes still to be counted. -/
structure Counts (mesh : List (List Nat)) (numNodes : Nat) (a : Array1 Nat) (xs : List Nat) (ts : List (List Nat)) : Prop where
  good : Good none a xs
  size : xs.length = numNodes
  nodes : OnNodes ts numNodes
  sum : ∀ n (hn : n < xs.length), xs[n] + ts.flatten.count n = mesh.flatten.count n

theorem set_ok (c : Cfg) {a : Array1 Nat} {xs : List Nat} (g : Good none a xs) (i : Nat) (v : Nat) (hi : i < xs.length) :
    ∃ a', a.set c i v = .ok a' ∧ Good none a' (xs.set i v) := by
  have hck : a.checkIndex c i = .ok i := by
    unfold Array1.checkIndex; rw [if_neg (by have := g.size; omega)]; rfl
  unfold Array1.set
  rw [hck, bind_ok, bufferManipulation.write_rep c g.rep i v hi, bind_ok]
  refine ⟨_, rfl, ?_⟩
  exact { g with size := by simpa using g.size, rep := ⟨rfl, by simpa using g.rep.2⟩ }

theorem Counts.run {c : Cfg} {mesh : List (List Nat)} {numNodes : Nat} (sched : List Nat) :
    ∀ {a : Array1 Nat} {xs : List Nat} {ts : List (List Nat)}, Counts mesh numNodes a xs ts →
      ∃ a' xs' ts', interleave (countTurn c) a ts sched = .ok (a', ts') ∧ Counts mesh numNodes a' xs' ts' := by
  induction sched with
  | nil => intro a xs ts h; exact ⟨a, xs, ts, rfl, h⟩
  | cons k ks ih =>
    intro a xs ts h
    unfold interleave
    cases hk : ts[k]? with
    | none => exact ih h
    | some t =>
      have hkl : k < ts.length := by rw [List.getElem?_eq_some_iff] at hk; exact hk.1
      cases t with
      | nil =>
        have : ts.set k [] = ts := by
          rw [List.getElem?_eq_some_iff] at hk
          obtain ⟨h1, h2⟩ := hk
          rw [← h2, List.set_getElem_self]
        simp only [countTurn, bind_ok, this]
        exact ih h
      | cons m rest =>
        have hm : m < xs.length := by
          rw [h.size]; exact h.nodes _ (List.mem_of_getElem? hk) m (by simp)
        obtain ⟨a', h1, h2⟩ := set_ok c h.good m (xs[m] + 1) hm
        simp only [countTurn, get_ok c h.good m hm, bind_ok, h1]
        refine ih ⟨h2, by simpa using h.size, ?_, ?_⟩
        · intro nodes hn
          rcases List.mem_or_eq_of_mem_set hn with hn | rfl
          · exact h.nodes _ hn
          · exact fun n hn => h.nodes _ (List.mem_of_getElem? hk) n (by simp [hn])
        · intro n hn
          have hn' : n < xs.length := by simpa using hn
          have e1 := h.sum n hn'
          have e2 := set_flatten_count hk n
          by_cases e : m = n
          · subst e
            simp only [List.getElem_set_self]
            simp only [if_true] at e2
            omega
          · rw [List.getElem_set_ne e]
            simp only [e, if_false] at e2
            omega

theorem countTurn_work (c : Cfg) : ∀ (s : Array1 Nat) (t : List Nat) (s' : Array1 Nat) (t' : List Nat),
    countTurn c s t = .ok (s', t') → t'.length ≤ t.length - 1 := by
  intro s t s' t' h
  cases t with
  | nil => simp only [countTurn, Except.ok.injEq, Prod.mk.injEq] at h; simp [← h.2]
  | cons n rest =>
    simp only [countTurn] at h
    obtain ⟨x, -, h⟩ := bind_eq_ok.1 h
    obtain ⟨y, -, h⟩ := bind_eq_ok.1 h
    simp only [Except.ok.injEq, Prod.mk.injEq] at h
    simp [← h.2]

theorem capacitiesFrom_ok {a : Array1 Nat} {xs : List Nat} (g : Good none a xs) (k : Nat) :
    ∀ i, i + k = xs.length → capacitiesFrom a i k = .ok (xs.drop i) := by
  induction k with
  | zero => intro i hi; rw [capacitiesFrom, List.drop_of_length_le (by omega)]
  | succ k ih =>
    intro i hi
    rw [capacitiesFrom, bufferManipulation.read_rep g.rep i (by omega), bind_ok, ih (i + 1) (by omega), bind_ok,
      List.drop_eq_getElem_cons (i := i) (by omega)]

/-- The counting kernel, once every thread has had as many turns as its element has nodes. -/
theorem countElements_ok (c : Cfg) {mesh : List (List Nat)} {numNodes : Nat} (h : OnNodes mesh numNodes) (sched : List Nat) :
    ∃ a xs ts, countElements c mesh numNodes sched = .ok (a, ts) ∧ Counts mesh numNodes a xs ts ∧
      ((∀ (k : Nat) nodes, mesh[k]? = some nodes → nodes.length ≤ sched.count k) → ∀ t ∈ ts, t = []) := by
  obtain ⟨a, h1, h2⟩ := resizeDefault_ok c (Good.init Nat none) numNodes 0 (by omega) (by simp [Spec.fits])
  have h3 : Counts mesh numNodes a (List.replicate numNodes 0) mesh := by
    refine ⟨by simpa using h2, by simp, h, ?_⟩
    intro n hn
    simp
  obtain ⟨a', xs, ts, h4, h5⟩ := h3.run (c := c) sched
  refine ⟨a', xs, ts, by rw [countElements, h1, bind_ok, h4], h5, ?_⟩
  intro hs t ht
  obtain ⟨k, hk⟩ := List.mem_iff_getElem?.1 ht
  obtain ⟨t0, h6, h7⟩ := interleave_progress List.length (countTurn_work c) sched _ _ _ _ h4 k t hk
  have := hs k t0 h6
  exact List.length_eq_zero_iff.1 (by omega)

/-! ## The sequential loop -/

theorem onRowC_at {T : Type} {L : List (List T × Nat)} {i : Nat} (hi : i < L.length) (f : List T × Nat → List T × Nat) :
    onRowC L i (fun _ => true) f = some (L.set i (f L[i])) := by
  simp [onRowC, List.getElem?_eq_getElem hi]

theorem naiveElement_ok (c : Cfg) (ht : c.trivial = true) (e : Nat) (nodes : List Nat) :
    ∀ {a : AoA Nat} {L : List (List Nat × Nat)}, AGood a L → (∀ n ∈ nodes, n < L.length) →
      ∃ a' L', naiveElement c e a nodes = .ok a' ∧ AGood a' L' ∧
        L'.map (·.1) = L.mapIdx (fun n r => r.1 ++ List.replicate (nodes.count n) e) := by
  induction nodes with
  | nil =>
    intro a L h hn
    refine ⟨a, L, rfl, h, ?_⟩
    apply List.ext_getElem <;> simp
  | cons m nodes ih =>
    intro a L h hn
    have hm : m < L.length := hn m (by simp)
    have hs : vvcRun L [AoAOp.emplaceBack m e] =
        some (L.set m (L[m].1 ++ [e], grown L[m].2 (L[m].1.length + 1))) := by
      simp only [vvcRun, vvcStep, onRowC_at hm]
      rfl
    obtain ⟨a1, h1, h2⟩ := run_trivial c ht [AoAOp.emplaceBack m e] (by intro _ op ho; simp at ho; subst ho; trivial) h hs
    have h1' : a.emplaceBack c m e = .ok a1 := by
      simp only [AoA.run, AoA.step] at h1
      cases hh : a.emplaceBack c m e with
      | error x => rw [hh] at h1; cases h1
      | ok y => rw [hh] at h1; exact h1
    obtain ⟨a2, L2, h3, h4, h5⟩ := ih h2 (fun n hn' => by simpa using hn n (by simp [hn']))
    refine ⟨a2, L2, by rw [naiveElement, h1', bind_ok, h3], h4, ?_⟩
    rw [h5]
    apply List.ext_getElem
    · simp
    · intro n h6 h7
      simp only [List.length_mapIdx, List.length_set] at h6
      simp only [List.getElem_mapIdx]
      by_cases e1 : m = n
      · subst e1
        simp [List.replicate_succ]
      · rw [List.getElem_set_ne e1, List.count_cons_of_ne e1]

theorem naiveLoop_ok (c : Cfg) (ht : c.trivial = true) (mesh : List (List Nat)) :
    ∀ (e : Nat) {a : AoA Nat} {L : List (List Nat × Nat)}, AGood a L → OnNodes mesh L.length →
      ∃ a' L', naiveLoop c e a mesh = .ok a' ∧ AGood a' L' ∧
        L'.map (·.1) = L.mapIdx (fun n r => r.1 ++ around n e mesh) := by
  induction mesh with
  | nil =>
    intro e a L h _
    refine ⟨a, L, rfl, h, ?_⟩
    apply List.ext_getElem <;> simp [around]
  | cons nodes mesh ih =>
    intro e a L h hn
    obtain ⟨a1, L1, h1, h2, h3⟩ := naiveElement_ok c ht e nodes h (hn nodes (by simp))
    have hl : L1.length = L.length := by simpa using congrArg List.length h3
    obtain ⟨a2, L2, h4, h5, h6⟩ := ih (e + 1) h2 (fun x hx => by rw [hl]; exact hn x (by simp [hx]))
    refine ⟨a2, L2, by rw [naiveLoop, h1, bind_ok, h4], h5, ?_⟩
    rw [h6]
    apply List.ext_getElem
    · simp [hl]
    · intro n h7 h8
      simp only [List.length_mapIdx] at h7
      have : L1[n].1 = L[n].1 ++ List.replicate (nodes.count n) e := by
        have := congrArg (fun l => l[n]?) h3
        simpa [List.getElem?_eq_getElem h7, List.getElem?_eq_getElem (hl ▸ h7)] using this
      simp [this, around]

end LvArray.Mesh

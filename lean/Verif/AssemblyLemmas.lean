import Verif.Assembly
import Verif.Spec.Assembly
import Verif.Props.Concurrent
import Mathlib.Algebra.BigOperators.Group.List.Basic
import Mathlib.Data.List.Nodup

/-! # Lemmas about the assembly programs -/

namespace LvArray.Assembly

open LvArray Spec Concurrent Props

/-! ## Dofs -/

theorem dofNumbers_eq (ndim : Nat) (nodes : List Nat) : dofNumbers ndim nodes = dofsOf ndim nodes := by
  induction nodes with
  | nil => rfl
  | cons n nodes ih => simp [dofNumbers, dofsOf, ih]

theorem mem_dofsOf {ndim d : Nat} {nodes : List Nat} : d ∈ dofsOf ndim nodes ↔ 0 < ndim ∧ d / ndim ∈ nodes := by
  simp only [dofsOf, List.mem_flatMap, List.mem_map, List.mem_range]
  constructor
  · rintro ⟨n, hn, dim, hd, rfl⟩
    refine ⟨by omega, ?_⟩
    rw [Nat.mul_add_div (by omega), Nat.div_eq_of_lt hd, Nat.add_zero]
    exact hn
  · rintro ⟨hpos, hn⟩
    exact ⟨d / ndim, hn, d % ndim, Nat.mod_lt _ hpos, Nat.div_add_mod _ _⟩

theorem dofsOf_lt {ndim d numNodes : Nat} {nodes : List Nat} (hn : ∀ n ∈ nodes, n < numNodes) (h : d ∈ dofsOf ndim nodes) :
    d < ndim * numNodes := by
  obtain ⟨hpos, h1⟩ := mem_dofsOf.1 h
  have := hn _ h1
  rw [Nat.div_lt_iff_lt_mul hpos] at this
  rwa [Nat.mul_comm]

theorem dofsOf_nodup {ndim : Nat} {nodes : List Nat} (h : nodes.Nodup) : (dofsOf ndim nodes).Nodup := by
  unfold dofsOf
  rw [List.nodup_flatMap]
  refine ⟨fun n _ => ?_, ?_⟩
  · rw [List.nodup_map_iff_inj_on List.nodup_range]
    intro a _ b _ e
    omega
  · refine h.imp ?_
    intro a b hab x hx hy
    simp only [List.mem_map, List.mem_range] at hx hy
    obtain ⟨i, hi, rfl⟩ := hx
    obtain ⟨j, hj, e⟩ := hy
    apply hab
    have h1 : (ndim * a + i) / ndim = a := by rw [Nat.mul_add_div (by omega), Nat.div_eq_of_lt hi, Nat.add_zero]
    have h2 : (ndim * b + j) / ndim = b := by rw [Nat.mul_add_div (by omega), Nat.div_eq_of_lt hj, Nat.add_zero]
    rw [← h1, ← h2, e]

theorem dofsOf_length (ndim : Nat) (nodes : List Nat) : (dofsOf ndim nodes).length = ndim * nodes.length := by
  induction nodes with
  | nil => rfl
  | cons n nodes ih =>
    have : dofsOf ndim (n :: nodes) = (List.range ndim).map (fun dim => ndim * n + dim) ++ dofsOf ndim nodes := rfl
    rw [this, List.length_append, ih]
    simp [Nat.mul_add, Nat.add_comm]

/-- The sorted dofs. -/
def sorted (ds : List Nat) : List Nat := ds.mergeSort (fun a b => decide (a ≤ b))

theorem mem_sorted {ds : List Nat} {d : Nat} : d ∈ sorted ds ↔ d ∈ ds := List.mem_mergeSort

theorem sorted_toFinset (ds : List Nat) : (sorted ds).toFinset = ds.toFinset := by
  ext d; simp [mem_sorted]

theorem sorted_sortedUnique {ds : List Nat} (h : ds.Nodup) : sortedUnique (sorted ds) := by
  have h1 : (sorted ds).Pairwise (fun a b => decide (a ≤ b) = true) :=
    List.pairwise_mergeSort (fun a b c h1 h2 => by simp at *; omega) (fun a b => by simp; omega) ds
  have h2 : (sorted ds).Nodup := (List.mergeSort_perm ds _).nodup_iff.2 h
  have h3 := List.Pairwise.and h1 h2
  exact h3.imp (fun {a b} h => by simp at h; omega)

/-! ## The pattern -/

/-- The columns an element or a list of elements adds to row `r`. -/
def neighbours (ndim r : Nat) : List (List Nat) → Finset Nat
  | [] => ∅
  | nodes :: mesh => (if r ∈ dofsOf ndim nodes then (dofsOf ndim nodes).toFinset else ∅) ∪ neighbours ndim r mesh

theorem mem_neighbours {ndim r s : Nat} {mesh : List (List Nat)} : s ∈ neighbours ndim r mesh ↔ Coupled mesh ndim r s := by
  induction mesh with
  | nil => simp [neighbours, Coupled]
  | cons nodes mesh ih =>
    simp only [neighbours, Finset.mem_union, ih, Coupled, List.mem_cons, exists_eq_or_imp]
    split <;> simp_all

section

variable {insert : Sp → Nat → List Nat → R (Sp × Nat)} {I : Sp → Pattern → Prop} {Full : Nat → Finset Nat}

/-- `insertNonZeros` does what it should as long as the rows stay within `Full`. -/
def Inserts (insert : Sp → Nat → List Nat → R (Sp × Nat)) (I : Sp → Pattern → Prop) (Full : Nat → Finset Nat) : Prop :=
  ∀ s P row S cols, I s P → P.rows[row]? = some S → sortedUnique cols → S ∪ cols.toFinset ⊆ Full row →
    ∃ s' n, insert s row cols = .ok (s', n) ∧ I s' { P with rows := P.rows.set row (S ∪ cols.toFinset) }

theorem insertRows_ok (hins : Inserts insert I Full) {cols : List Nat} (hc : sortedUnique cols) (rows : List Nat) :
    ∀ {s : Sp} {P : Pattern}, I s P →
      (∀ row ∈ rows, ∃ S, P.rows[row]? = some S ∧ S ∪ cols.toFinset ⊆ Full row) →
      ∃ s', insertRows insert cols s rows = .ok s' ∧
        I s' { P with rows := P.rows.mapIdx fun r S => if r ∈ rows then S ∪ cols.toFinset else S } := by
  induction rows with
  | nil =>
    intro s P h _
    refine ⟨s, rfl, ?_⟩
    have : (P.rows.mapIdx fun r S => if r ∈ ([] : List Nat) then S ∪ cols.toFinset else S) = P.rows := by
      apply List.ext_getElem <;> simp
    rw [this]
    exact h
  | cons row rows ih =>
    intro s P h hr
    obtain ⟨S, hS, hF⟩ := hr row (by simp)
    obtain ⟨s1, n, h1, h2⟩ := hins s P row S cols h hS hc hF
    obtain ⟨s2, h3, h4⟩ := ih h2 (fun row' hrow' => by
      obtain ⟨S', hS', hF'⟩ := hr row' (by simp [hrow'])
      by_cases e : row = row'
      · subst e
        rw [hS] at hS'
        cases hS'
        have hl : row < P.rows.length := (List.getElem?_eq_some_iff.1 hS).1
        exact ⟨S ∪ cols.toFinset, by simp [hl], by rw [Finset.union_assoc, Finset.union_self]; exact hF⟩
      · exact ⟨S', by simpa [List.getElem?_set_ne e] using hS', hF'⟩)
    refine ⟨s2, by rw [insertRows, h1, bind_ok, h3], ?_⟩
    have : (P.rows.mapIdx fun r S => if r ∈ row :: rows then S ∪ cols.toFinset else S) =
        (P.rows.set row (S ∪ cols.toFinset)).mapIdx fun r S => if r ∈ rows then S ∪ cols.toFinset else S := by
      apply List.ext_getElem
      · simp
      · intro k hk1 hk2
        simp only [List.length_mapIdx] at hk1
        simp only [List.getElem_mapIdx, List.mem_cons]
        by_cases e : row = k
        · subst e
          have : P.rows[row] = S := by
            rw [List.getElem?_eq_getElem hk1] at hS; exact Option.some.inj hS
          simp only [List.getElem_set_self, this, true_or, if_true]
          split
          · rw [Finset.union_assoc, Finset.union_self]
          · rfl
        · have e' : ¬ k = row := fun h => e h.symm
          simp only [List.getElem_set_ne e, e', false_or]
    rw [this]
    exact h4

theorem generateElemLoop_ok (hins : Inserts insert I Full) (ndim : Nat) {numNodes : Nat} (mesh : List (List Nat))
    (hm : OnNodes mesh numNodes) (hnd : ∀ nodes ∈ mesh, nodes.Nodup) :
    ∀ {s : Sp} {P : Pattern}, I s P → P.rows.length = ndim * numNodes →
      (∀ (r : Nat) S, P.rows[r]? = some S → S ∪ neighbours ndim r mesh ⊆ Full r) →
      ∃ s', generateElemLoop insert ndim s mesh = .ok s' ∧
        I s' { P with rows := P.rows.mapIdx fun r S => S ∪ neighbours ndim r mesh } := by
  induction mesh with
  | nil =>
    intro s P h _ _
    refine ⟨s, rfl, ?_⟩
    have : (P.rows.mapIdx fun r S => S ∪ neighbours ndim r []) = P.rows := by
      apply List.ext_getElem <;> simp [neighbours]
    rw [this]
    exact h
  | cons nodes mesh ih =>
    intro s P h hl hF
    have hnode := hm nodes (by simp)
    obtain ⟨s1, h1, h2⟩ := insertRows_ok hins (sorted_sortedUnique (dofsOf_nodup (ndim := ndim) (hnd nodes (by simp))))
      (sorted (dofsOf ndim nodes)) h (fun row hrow => by
        rw [mem_sorted] at hrow
        have hlt : row < P.rows.length := by rw [hl]; exact dofsOf_lt hnode hrow
        refine ⟨P.rows[row], List.getElem?_eq_getElem hlt, ?_⟩
        have := hF row _ (List.getElem?_eq_getElem hlt)
        refine subset_trans ?_ this
        rw [sorted_toFinset]
        refine Finset.union_subset_union (le_refl _) ?_
        simp only [neighbours, hrow, if_true]
        exact Finset.subset_union_left)
    obtain ⟨s2, h3, h4⟩ := ih (fun x hx => hm x (by simp [hx])) (fun x hx => hnd x (by simp [hx])) h2 (by simpa using hl) (by
      intro r S hS
      simp only [List.getElem?_mapIdx, Option.map_eq_some_iff] at hS
      obtain ⟨S0, hS0, rfl⟩ := hS
      refine subset_trans ?_ (hF r S0 hS0)
      rw [sorted_toFinset, neighbours]
      simp only [mem_sorted]
      split
      · rw [Finset.union_assoc]
      · simp)
    refine ⟨s2, ?_, ?_⟩
    · rw [generateElemLoop, dofNumbers_eq]
      show (insertRows insert (sorted (dofsOf ndim nodes)) s (sorted (dofsOf ndim nodes)) >>= _) = _
      rw [h1, bind_ok, h3]
    · have : (P.rows.mapIdx fun r S => S ∪ neighbours ndim r (nodes :: mesh)) =
          (P.rows.mapIdx fun r S => if r ∈ sorted (dofsOf ndim nodes) then S ∪ (sorted (dofsOf ndim nodes)).toFinset else S).mapIdx
            fun r S => S ∪ neighbours ndim r mesh := by
        apply List.ext_getElem
        · simp
        · intro k hk1 hk2
          simp only [List.getElem_mapIdx, mem_sorted, sorted_toFinset, neighbours]
          split
          · rw [Finset.union_assoc]
          · simp
      rw [this]
      exact h4

end

/-- The owning class grows its rows as needed. -/
theorem inserts_owner {c : Cfg} (ht : c.trivial = true) (N : Nat) :
    Inserts (Sp.insertNonZeros c) (fun s P => SpGood s P ∧ P.numCols = N) (fun _ => Finset.range N) := by
  rintro s P row S cols ⟨h, hN⟩ hS hc hF
  have hcols : ∀ k ∈ cols, k < P.numCols := by
    intro k hk
    have := hF (Finset.mem_union_right _ (List.mem_toFinset.2 hk))
    rw [hN]; simpa using this
  obtain ⟨s', h1, h2⟩ := h.step_ok ht 0 (.insertMany row cols) { P with rows := P.rows.set row (S ∪ cols.toFinset) }
    (.num (cols.toFinset \ S).card) (by simp only [spStep, if_pos (And.intro hc hcols), Pattern.onRow, hS, Option.map_some])
  simp only [Sp.step] at h1
  obtain ⟨⟨s1, n⟩, h3, h4⟩ := bind_eq_ok.1 h1
  simp only [Except.ok.injEq, Prod.mk.injEq] at h4
  obtain ⟨rfl, -⟩ := h4
  exact ⟨_, _, h3, h2, hN⟩

/-- The pattern of a mesh. -/
def patternOf (mesh : List (List Nat)) (ndim N : Nat) : Pattern :=
  { numCols := N, rows := (List.range N).map fun r => (Finset.range N).filter fun s => Coupled mesh ndim r s }

theorem coupled_lt {mesh : List (List Nat)} {ndim numNodes r s : Nat} (hm : OnNodes mesh numNodes) (h : Coupled mesh ndim r s) :
    s < ndim * numNodes := by
  obtain ⟨nodes, h1, -, h2⟩ := h
  exact dofsOf_lt (hm nodes h1) h2

theorem rows_patternOf {mesh : List (List Nat)} {ndim numNodes : Nat} (hm : OnNodes mesh numNodes) :
    ((List.replicate (ndim * numNodes) (∅ : Finset Nat)).mapIdx fun r S => S ∪ neighbours ndim r mesh) =
      (patternOf mesh ndim (ndim * numNodes)).rows := by
  apply List.ext_getElem
  · simp [patternOf]
  · intro r h1 h2
    simp only [List.getElem_mapIdx, List.getElem_replicate, patternOf, List.getElem_map, List.getElem_range, Finset.empty_union]
    ext s
    simp only [mem_neighbours, Finset.mem_filter, Finset.mem_range]
    exact ⟨fun h => ⟨coupled_lt hm h, h⟩, fun h => h.2⟩

theorem generated {c : Cfg} (ht : c.trivial = true) {colMax ndim numNodes : Nat} (hN : ndim * numNodes ≤ colMax + 1) (capacity : Nat)
    {mesh : List (List Nat)} (hm : OnNodes mesh numNodes) (hnd : ∀ nodes ∈ mesh, nodes.Nodup) :
    ∃ s0 s, Sp.mk' c colMax (ndim * numNodes) (ndim * numNodes) capacity = .ok s0 ∧
      generateElemLoop (Sp.insertNonZeros c) ndim s0 mesh = .ok s ∧ SpGood s (patternOf mesh ndim (ndim * numNodes)) := by
  obtain ⟨s0, h1, h2⟩ := SpGood.mk_ok c colMax (ndim * numNodes) (ndim * numNodes) capacity hN
  obtain ⟨s, h3, h4, -⟩ := generateElemLoop_ok (inserts_owner ht (ndim * numNodes)) ndim mesh hm hnd ⟨h2, rfl⟩ (by simp) (by
    intro r S hS t ht
    obtain ⟨-, rfl⟩ : _ ∧ S = ∅ := by
      obtain ⟨a, b⟩ := List.getElem?_eq_some_iff.1 hS
      exact ⟨a, by simpa using b.symm⟩
    rw [Finset.empty_union, mem_neighbours] at ht
    exact Finset.mem_range.2 (coupled_lt hm ht))
  refine ⟨s0, s, h1, h3, ?_⟩
  have := h4
  simp only [rows_patternOf hm] at this
  exact this

/-! ## The contributions -/

theorem flatten_mapIdx {α β : Type} (l : List α) (f : Nat → α → List β) :
    (l.mapIdx f).flatten = (List.range l.length).flatMap fun i => match l[i]? with | some a => f i a | none => [] := by
  induction l using List.reverseRecOn with
  | nil => rfl
  | append_singleton l a ih =>
    rw [List.mapIdx_append, List.flatten_append, ih, List.length_append, List.length_singleton, List.range_succ, List.flatMap_append]
    congr 1
    · apply List.flatMap_congr
      intro i hi
      rw [List.mem_range] at hi
      rw [List.getElem?_append_left hi]
    · simp

theorem map_mapIdx' {α β γ : Type} (l : List α) (f : Nat → α → β) (g : β → γ) :
    (l.mapIdx f).map g = l.mapIdx fun i a => g (f i a) := by
  apply List.ext_getElem <;> simp

theorem filter_contributed {V : Type} (r s : Nat) (dofs : List Nat) (K : Nat → Nat → V) :
    ((contributed (elementCalls dofs K)).filter fun q => q.1 == r && q.2.1 == s).map (·.2.2) =
      (List.range dofs.length).flatMap fun i => (List.range dofs.length).flatMap fun j =>
        if dofs[i]? = some r ∧ dofs[j]? = some s then [K i j] else [] := by
  have e : contributed (elementCalls dofs K) =
      (dofs.mapIdx fun i row => (dofs.mapIdx fun j col => [(row, col, K i j)]).flatten).flatten := by
    unfold contributed elementCalls
    rw [List.flatMap_def]
    congr 1
    rw [map_mapIdx']
    congr 1
    funext i row
    simp only [map_mapIdx']
    have : ∀ (g : Nat → Nat → Nat × Nat × V) (l : List Nat), l.mapIdx g = (l.mapIdx fun j col => [g j col]).flatten := by
      intro g l
      induction l generalizing g with
      | nil => rfl
      | cons a l ih => simp [List.mapIdx_cons, ← ih]
    exact this _ _
  rw [e, flatten_mapIdx, List.filter_flatMap, List.map_flatMap]
  apply List.flatMap_congr
  intro i hi
  rw [List.mem_range] at hi
  rw [List.getElem?_eq_getElem hi]
  simp only
  rw [flatten_mapIdx, List.filter_flatMap, List.map_flatMap]
  apply List.flatMap_congr
  intro j hj
  rw [List.mem_range] at hj
  rw [List.getElem?_eq_getElem hj]
  simp only [Option.some.injEq]
  by_cases h1 : dofs[i] = r <;> by_cases h2 : dofs[j] = s <;> simp [h1, h2]

/-- The calls of the kernel. -/
def kernelCalls {V : Type} (ndim : Nat) (mesh : List (List Nat)) (K : Nat → Nat → Nat → V) : List (List (AddVariant × Nat × List (Nat × V))) :=
  mesh.mapIdx fun e nodes => elementCalls (dofNumbers ndim nodes) (K e)

theorem contributed_append {V : Type} (xs ys : List (AddVariant × Nat × List (Nat × V))) :
    contributed (xs ++ ys) = contributed xs ++ contributed ys := by simp [contributed]

theorem contributed_flatMap {α V : Type} (l : List α) (f : α → List (AddVariant × Nat × List (Nat × V))) :
    contributed (l.flatMap f) = l.flatMap fun x => contributed (f x) := by
  induction l with
  | nil => rfl
  | cons a l ih => simp [List.flatMap_cons, contributed_append, ih]

theorem kernel_contributions {V : Type} (ndim : Nat) (mesh : List (List Nat)) (K : Nat → Nat → Nat → V) (r s : Nat) :
    ((contributed (kernelCalls ndim mesh K).flatten).filter fun q => q.1 == r && q.2.1 == s).map (·.2.2) =
      contributionsTo mesh ndim K r s := by
  unfold kernelCalls contributionsTo
  rw [flatten_mapIdx, contributed_flatMap, List.filter_flatMap, List.map_flatMap]
  apply List.flatMap_congr
  intro e he
  rw [List.mem_range] at he
  rw [List.getElem?_eq_getElem he]
  simp only [List.getD_eq_getElem?_getD, List.getElem?_eq_getElem he, Option.getD_some]
  rw [filter_contributed, dofNumbers_eq]

theorem sum_flatMap_range {V : Type} [AddCommMonoid V] (n : Nat) (f : Nat → List V) :
    ((List.range n).flatMap f).sum = ∑ i ∈ Finset.range n, (f i).sum := by
  induction n with
  | zero => rfl
  | succ n ih => simp [List.range_succ, List.flatMap_append, Finset.sum_range_succ, ih]

theorem contributionsTo_sum {V : Type} [AddCommMonoid V] (mesh : List (List Nat)) (ndim : Nat) (K : Nat → Nat → Nat → V) (r s : Nat) :
    (contributionsTo mesh ndim K r s).sum = assembledEntry mesh ndim K r s := by
  unfold contributionsTo assembledEntry
  simp only [sum_flatMap_range]
  refine Finset.sum_congr rfl fun e _ => Finset.sum_congr rfl fun i _ => Finset.sum_congr rfl fun j _ => ?_
  split <;> simp

end LvArray.Assembly

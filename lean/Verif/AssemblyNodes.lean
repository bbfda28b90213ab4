import Verif.AssemblyLemmas
import Verif.MeshLemmas
import Verif.Props.Sorting
import Verif.Props.ParallelPattern

/-! # Lemmas about the generation of a pattern by nodes -/

namespace LvArray.Assembly

open LvArray Spec Concurrent Props Parallel

/-- The columns of a row of the pattern. -/
def fullRow (mesh : List (List Nat)) (ndim N r : Nat) : Finset Nat := (Finset.range N).filter fun s => Coupled mesh ndim r s

theorem mem_fullRow {mesh : List (List Nat)} {ndim numNodes r s : Nat} (hm : OnNodes mesh numNodes) :
    s ∈ fullRow mesh ndim (ndim * numNodes) r ↔ Coupled mesh ndim r s := by
  simp only [fullRow, Finset.mem_filter, Finset.mem_range]
  exact ⟨fun h => h.2, fun h => ⟨coupled_lt hm h, h⟩⟩

theorem mem_elementsOf {mesh : List (List Nat)} {n e : Nat} : e ∈ elementsOf mesh n ↔ e < mesh.length ∧ n ∈ mesh.getD e [] := by
  simp only [elementsOf, List.mem_flatMap, List.mem_range, List.mem_replicate, ne_eq, List.count_eq_zero, Decidable.not_not]
  constructor
  · rintro ⟨e', h1, h2, rfl⟩; exact ⟨h1, h2⟩
  · rintro ⟨h1, h2⟩; exact ⟨e, h1, h2, rfl⟩

theorem nodesOfElems_ok {mesh : List (List Nat)} {l : List Nat} (h : ∀ e ∈ l, e < mesh.length) :
    nodesOfElems mesh l = .ok (l.flatMap fun e => mesh.getD e []) := by
  induction l with
  | nil => rfl
  | cons e l ih =>
    have he := h e (by simp)
    rw [nodesOfElems, List.getElem?_eq_getElem he]
    simp only [ih fun x hx => h x (by simp [hx]), bind_ok, List.flatMap_cons, List.getD_eq_getElem?_getD,
      List.getElem?_eq_getElem he, Option.getD_some]

/-- How many nodes `getNeighborNodes` collects before it sorts them. -/
def gathered (mesh : List (List Nat)) (n : Nat) : Nat := ((elementsOf mesh n).map fun e => (mesh.getD e []).length).sum

theorem onStack_holds (xs : List Nat) : Holds (onStack xs) xs :=
  ⟨rfl, fun i h => by simp [onStack, List.getElem?_eq_getElem h]⟩

theorem getNeighborNodes_ok (c : Cfg) {sort : Buf Nat → R (Buf Nat)} (hsort : SortRoutine sort) {maxNeighbors n : Nat}
    {mesh : List (List Nat)} {l : List Nat} (hl : l.Perm (elementsOf mesh n)) (hmax : gathered mesh n ≤ maxNeighbors) :
    ∃ ys, getNeighborNodes c sort maxNeighbors mesh l = .ok ys ∧ sortedUnique ys ∧
      ∀ m, m ∈ ys ↔ ∃ nodes ∈ mesh, n ∈ nodes ∧ m ∈ nodes := by
  have he : ∀ e ∈ l, e < mesh.length ∧ n ∈ mesh.getD e [] := fun e he => mem_elementsOf.1 (hl.mem_iff.1 he)
  have h1 := nodesOfElems_ok fun e h => (he e h).1
  have h2 : ¬ maxNeighbors < (l.flatMap fun e => mesh.getD e []).length := by
    have : (l.flatMap fun e => mesh.getD e []).length = gathered mesh n := by
      rw [List.length_flatMap, gathered]
      exact (hl.map _).sum_eq
    omega
  obtain ⟨b', ys, h3, h4, h5, h6, h7, h8, -⟩ := C19_makeSortedUnique c sortedArrayManipulation.less strictWeakOrder_less sort
    (onStack (l.flatMap fun e => mesh.getD e [])) _ (hsort _ _ (onStack_holds _))
  have h9 : sortedArrayManipulation.readAll b'.read ys.length = .ok ys := sortedArrayManipulation.readAll_eq fun i hi => by
    have hlen : ys.length ≤ b'.cap := by
      rw [h8]
      refine List.Subperm.length_le (List.subperm_of_subset ?_ h5)
      exact h4.imp fun {a b} h => by simp [sortedArrayManipulation.less] at h; omega
    unfold Buf.read
    rw [if_pos (by omega), h7 i hi]
  refine ⟨ys, ?_, ?_, fun m => ?_⟩
  · simp only [getNeighborNodes, h1, bind_ok, if_neg h2, h3, h9]
  · exact h4.imp fun {a b} h => by simpa [sortedArrayManipulation.less] using h
  · constructor
    · intro hy
      obtain ⟨e, h10, h11⟩ := List.mem_flatMap.1 (h5 m hy)
      have hlt := (he e h10).1
      refine ⟨mesh[e], List.getElem_mem hlt, ?_⟩
      have h12 := (he e h10).2
      simp only [List.getD_eq_getElem?_getD, List.getElem?_eq_getElem hlt, Option.getD_some] at h11 h12
      exact ⟨h12, h11⟩
    · rintro ⟨nodes, h10, h11, h12⟩
      obtain ⟨e, hlt, rfl⟩ := List.getElem_of_mem h10
      obtain ⟨y, h13, h14, h15⟩ := h6 m (List.mem_flatMap.2 ⟨e, hl.mem_iff.2 (mem_elementsOf.2 ⟨hlt, by
        simpa [List.getElem?_eq_getElem hlt] using h11⟩), by simpa [List.getElem?_eq_getElem hlt] using h12⟩)
      simp [sortedArrayManipulation.less] at h14 h15
      obtain rfl : m = y := by omega
      exact h13

theorem dofsOf_increasing {ndim : Nat} {nodes : List Nat} (h : sortedUnique nodes) : sortedUnique (dofsOf ndim nodes) := by
  induction nodes with
  | nil => exact List.Pairwise.nil
  | cons n nodes ih =>
    obtain ⟨h1, h2⟩ := List.pairwise_cons.1 h
    have : dofsOf ndim (n :: nodes) = (List.range ndim).map (fun dim => ndim * n + dim) ++ dofsOf ndim nodes := rfl
    rw [this]
    refine List.pairwise_append.2 ⟨?_, ih h2, ?_⟩
    · rw [List.pairwise_map]
      exact List.pairwise_lt_range.imp fun {a b} h => by omega
    · intro a ha b hb
      simp only [List.mem_map, List.mem_range] at ha
      obtain ⟨dim, hd, rfl⟩ := ha
      obtain ⟨hpos, hb⟩ := mem_dofsOf.1 hb
      have h3 : n + 1 ≤ b / ndim := h1 _ hb
      have h4 : ndim * (n + 1) ≤ ndim * (b / ndim) := Nat.mul_le_mul_left _ h3
      have h5 := Nat.mul_div_le b ndim
      rw [Nat.mul_add] at h4
      omega

/-- The dofs of the neighbours of a node are the columns of its rows. -/
theorem dofs_eq_fullRow {mesh : List (List Nat)} {ndim numNodes n dim : Nat} (hm : OnNodes mesh numNodes) (hd : dim < ndim) {ys : List Nat}
    (h1 : sortedUnique ys) (h2 : ∀ m, m ∈ ys ↔ ∃ nodes ∈ mesh, n ∈ nodes ∧ m ∈ nodes) :
    dofsOf ndim ys = (fullRow mesh ndim (ndim * numNodes) (ndim * n + dim)).sort (· ≤ ·) := by
  refine sort_of_increasing (dofsOf_increasing h1) fun s => ?_
  rw [mem_fullRow hm, mem_dofsOf, h2]
  have e : (ndim * n + dim) / ndim = n := by rw [Nat.mul_add_div (by omega), Nat.div_eq_of_lt hd, Nat.add_zero]
  simp only [Coupled, mem_dofsOf, e]
  constructor
  · rintro ⟨hp, nodes, h3, h4, h5⟩; exact ⟨nodes, h3, ⟨hp, h4⟩, hp, h5⟩
  · rintro ⟨nodes, h3, ⟨hp, h4⟩, -, h5⟩; exact ⟨hp, nodes, h3, h4, h5⟩

/-! ## The threads -/

/-- The pattern is generated for these nodes, starting with node `k`. -/
def AroundFrom (mesh : List (List Nat)) (k : Nat) (nodeToElem : List (List Nat)) : Prop :=
  ∀ (i : Nat) l, nodeToElem[i]? = some l → l.Perm (elementsOf mesh (k + i))

theorem AroundFrom.tail {mesh : List (List Nat)} {k : Nat} {l : List Nat} {rest : List (List Nat)} (h : AroundFrom mesh k (l :: rest)) :
    AroundFrom mesh (k + 1) rest := fun i l' hl => by
  have := h (i + 1) l' (by simpa using hl)
  rwa [show k + 1 + i = k + (i + 1) by omega]

theorem nodeWork_ok (c : Cfg) {sort : Buf Nat → R (Buf Nat)} (hsort : SortRoutine sort) {maxNeighbors maxColumns ndim numNodes : Nat}
    {mesh : List (List Nat)} (hm : OnNodes mesh numNodes) (h1 : ∀ n, n < numNodes → gathered mesh n ≤ maxNeighbors)
    (h2 : ∀ r, r < ndim * numNodes → (fullRow mesh ndim (ndim * numNodes) r).card ≤ maxColumns) (nodeToElem : List (List Nat)) :
    ∀ k, AroundFrom mesh k nodeToElem → k + nodeToElem.length = numNodes →
      nodeWork c sort maxNeighbors maxColumns ndim mesh k nodeToElem =
        .ok ((List.range' k nodeToElem.length).map fun n => (List.range ndim).map fun dim =>
          (ndim * n + dim, .insertMany ((fullRow mesh ndim (ndim * numNodes) (ndim * n + dim)).sort (· ≤ ·)))) := by
  induction nodeToElem with
  | nil => intro k _ _; rfl
  | cons l rest ih =>
    intro k hk hn
    simp only [List.length_cons] at hn
    obtain ⟨ys, h3, h4, h5⟩ := getNeighborNodes_ok (n := k) c hsort (hk 0 l rfl) (h1 _ (by omega))
    have h6 : nodeCalls ndim maxColumns k ys = .ok ((List.range ndim).map fun dim =>
        (ndim * k + dim, .insertMany ((fullRow mesh ndim (ndim * numNodes) (ndim * k + dim)).sort (· ≤ ·)))) := by
      unfold nodeCalls
      rw [dofNumbers_eq]
      split
      · rename_i hbad
        exfalso
        have hpos : 0 < ndim := Nat.pos_of_ne_zero fun h0 => by simp [h0] at hbad
        have := h2 (ndim * k + 0) (by
          have : ndim * (k + 1) ≤ ndim * numNodes := Nat.mul_le_mul_left _ (by omega)
          rw [Nat.mul_add] at this
          omega)
        rw [← Finset.length_sort (· ≤ ·), ← dofs_eq_fullRow hm hpos h4 h5, dofsOf_length] at this
        omega
      · refine congrArg Except.ok (List.map_congr_left fun dim hd => ?_)
        rw [dofs_eq_fullRow hm (List.mem_range.1 hd) h4 h5]
    rw [nodeWork, h3, bind_ok, h6, bind_ok, ih (k + 1) hk.tail (by omega), bind_ok, List.length_cons, List.range'_succ,
      List.map_cons]

theorem nnzPerRow_ok (c : Cfg) {sort : Buf Nat → R (Buf Nat)} (hsort : SortRoutine sort) {maxNeighbors ndim numNodes : Nat}
    {mesh : List (List Nat)} (hm : OnNodes mesh numNodes) (h1 : ∀ n, n < numNodes → gathered mesh n ≤ maxNeighbors)
    (nodeToElem : List (List Nat)) :
    ∀ k, AroundFrom mesh k nodeToElem → k + nodeToElem.length = numNodes →
      nnzPerRow c sort maxNeighbors ndim mesh nodeToElem =
        .ok ((List.range' k nodeToElem.length).flatMap fun n => (List.range ndim).map fun dim =>
          (fullRow mesh ndim (ndim * numNodes) (ndim * n + dim)).card) := by
  induction nodeToElem with
  | nil => intro k _ _; rfl
  | cons l rest ih =>
    intro k hk hn
    simp only [List.length_cons] at hn
    obtain ⟨ys, h3, h4, h5⟩ := getNeighborNodes_ok (n := k) c hsort (hk 0 l rfl) (h1 _ (by omega))
    have h6 : List.replicate ndim (ndim * ys.length) =
        (List.range ndim).map fun dim => (fullRow mesh ndim (ndim * numNodes) (ndim * k + dim)).card := by
      apply List.ext_getElem
      · simp
      · intro dim hd hd'
        simp only [List.length_replicate] at hd
        simp only [List.getElem_replicate, List.getElem_map, List.getElem_range]
        rw [← Finset.length_sort (· ≤ ·), ← dofs_eq_fullRow hm hd h4 h5, dofsOf_length]
    rw [nnzPerRow, h3, bind_ok, ih (k + 1) hk.tail (by omega), bind_ok, List.length_cons, List.range'_succ, List.flatMap_cons, h6]

/-- All rows, node by node. -/
theorem flatMap_rows {β : Type} (ndim numNodes : Nat) (f : Nat → β) :
    ((List.range numNodes).flatMap fun n => (List.range ndim).map fun dim => f (ndim * n + dim)) = (List.range (ndim * numNodes)).map f := by
  induction numNodes with
  | zero => rfl
  | succ n ih =>
    rw [List.range_succ, List.flatMap_append, ih, Nat.mul_add, Nat.mul_one, List.range_add, List.map_append, List.map_map]
    simp [Function.comp_def]

/-! ## What the calls do -/

section

variable {ρ κ ω : Type} {step : κ → ρ → Option (ρ × ω)}

theorem rowRun_append {xs ys : List (Nat × κ)} : ∀ {rows rows1 rows2 : List ρ} {o1 o2 : List ω}, rowRun step rows xs = some (rows1, o1) →
    rowRun step rows1 ys = some (rows2, o2) → rowRun step rows (xs ++ ys) = some (rows2, o1 ++ o2) := by
  induction xs with
  | nil => intro rows rows1 rows2 o1 o2 h1 h2; cases h1; exact h2
  | cons q xs ih =>
    obtain ⟨i, call⟩ := q
    intro rows rows1 rows2 o1 o2 h1 h2
    simp only [rowRun, List.cons_append] at h1 ⊢
    split at h1
    · cases h1
    rename_i r hr
    split at h1
    · cases h1
    rename_i r' o hs
    obtain ⟨⟨a, b⟩, e1, e2⟩ := Option.map_eq_some_iff.1 h1
    cases e2
    simp only [ih e1 h2, Option.map_some, List.cons_append]

theorem rowRun_split {xs ys : List (Nat × κ)} : ∀ {rows rows2 : List ρ} {o : List ω}, rowRun step rows (xs ++ ys) = some (rows2, o) →
    ∃ rows1 o1 o2, rowRun step rows xs = some (rows1, o1) ∧ rowRun step rows1 ys = some (rows2, o2) := by
  induction xs with
  | nil => intro rows rows2 o h; exact ⟨_, _, _, rfl, h⟩
  | cons q xs ih =>
    obtain ⟨i, call⟩ := q
    intro rows rows2 o h
    simp only [rowRun, List.cons_append] at h ⊢
    split at h
    · cases h
    rename_i r hr
    split at h
    · cases h
    rename_i r' o hs
    obtain ⟨⟨a, b⟩, e1, e2⟩ := Option.map_eq_some_iff.1 h
    cases e2
    obtain ⟨rows1, o1, o2, h1, h2⟩ := ih e1
    exact ⟨rows1, o :: o1, o2, by simp only [h1, Option.map_some], h2⟩

theorem threadsRun_of_flatten {work : List (List (Nat × κ))} : ∀ {rows rows' : List ρ} {o : List ω},
    rowRun step rows work.flatten = some (rows', o) → ∃ outs, threadsRun step rows work = some (rows', outs) := by
  induction work with
  | nil => intro rows rows' o h; cases h; exact ⟨_, rfl⟩
  | cons calls work ih =>
    intro rows rows' o h
    rw [List.flatten_cons] at h
    obtain ⟨rows1, o1, o2, h1, h2⟩ := rowRun_split h
    obtain ⟨outs, h3⟩ := ih h2
    exact ⟨o1 :: outs, by simp only [threadsRun, h1, h3, Option.map_some]⟩

end

/-- Empty rows with exactly the capacities they need, filled one after the other. -/
theorem fill_rows {N : Nat} {full : Nat → Finset Nat} (hf : ∀ r, ∀ k ∈ full r, k < N) (n : Nat) (hn : n ≤ N) :
    ∃ o, rowRun (PatCall.step N) ((List.range N).map fun r => ((∅ : Finset Nat), (full r).card))
      ((List.range n).map fun r => (r, .insertMany ((full r).sort (· ≤ ·)))) =
      some ((List.range N).map fun r => (if r < n then full r else ∅, (full r).card), o) := by
  induction n with
  | zero => exact ⟨[], by simp [rowRun]⟩
  | succ n ih =>
    obtain ⟨o, h⟩ := ih (by omega)
    rw [List.range_succ, List.map_append]
    have hl : n < N := by omega
    refine ⟨_, rowRun_append h (o2 := [.num (full n).card]) ?_⟩
    have hrow : ((List.range N).map fun r => (if r < n then full r else (∅ : Finset Nat), (full r).card))[n]? =
        some (∅, (full n).card) := by simp [hl]
    have hstep : PatCall.step N (.insertMany ((full n).sort (· ≤ ·))) (∅, (full n).card) = some ((full n, (full n).card), .num (full n).card) := by
      have e : ((full n).sort (· ≤ ·)).toFinset = full n := Finset.sort_toFinset (full n) (· ≤ ·)
      have h1 : ∀ k ∈ (full n).sort (· ≤ ·), k < N := fun k hk => hf n k ((Finset.mem_sort (· ≤ ·)).1 hk)
      have h2 : sortedUnique ((full n).sort (· ≤ ·)) := Finset.sortedLT_sort (full n) |>.pairwise
      simp only [PatCall.step, e, Finset.empty_union, Finset.sdiff_empty]
      rw [if_pos ⟨h1, h2, Nat.le_refl _⟩]
    simp only [List.map_cons, List.map_nil, rowRun, hrow, hstep, Option.map_some, Option.some.injEq, Prod.mk.injEq, and_true]
    apply List.ext_getElem
    · simp
    · intro i h1 h2
      simp only [List.length_set, List.length_map, List.length_range] at h1
      rw [List.getElem_set]
      simp only [List.getElem_map, List.getElem_range]
      split
      · subst_vars; simp
      · rename_i hne
        have : (i < n + 1) = (i < n) := by simp; omega
        simp only [this]

/-! ## The loop over the elements with a view -/

/-- Rows that only grow, and stay below `full`. -/
theorem grow_rows {N : Nat} {full : Nat → Finset Nat} {cap : Nat → Nat} (hf : ∀ r, ∀ k ∈ full r, k < N)
    (hcap : ∀ r, r < N → (full r).card ≤ cap r) (calls : List (Nat × List Nat))
    (hc : ∀ q ∈ calls, q.1 < N ∧ sortedUnique q.2 ∧ q.2.toFinset ⊆ full q.1) :
    ∀ (S : Nat → Finset Nat), (∀ r, S r ⊆ full r) →
      ∃ o, rowRun (PatCall.step N) ((List.range N).map fun r => (S r, cap r)) (calls.map fun q => (q.1, .insertMany q.2)) =
        some ((List.range N).map fun r => (S r ∪ (calls.filter fun q => q.1 == r).toFinset.biUnion fun q => q.2.toFinset, cap r), o) := by
  induction calls with
  | nil => intro S hS; exact ⟨[], by simp [rowRun]⟩
  | cons q calls ih =>
    obtain ⟨row, cols⟩ := q
    intro S hS
    obtain ⟨h1, h2, h3⟩ := hc (row, cols) (by simp)
    simp only at h1 h2 h3
    obtain ⟨o, h⟩ := ih (fun q hq => hc q (by simp [hq])) (fun r => if r = row then S r ∪ cols.toFinset else S r) (by
      intro r
      split
      · subst_vars; exact Finset.union_subset (hS _) h3
      · exact hS r)
    have hrow : ((List.range N).map fun r => (S r, cap r))[row]? = some (S row, cap row) := by simp [h1]
    have hstep : PatCall.step N (.insertMany cols) (S row, cap row) =
        some ((S row ∪ cols.toFinset, cap row), .num (cols.toFinset \ S row).card) := by
      simp only [PatCall.step]
      rw [if_pos ⟨fun k hk => hf row k (h3 (List.mem_toFinset.2 hk)), h2,
        Nat.le_trans (Finset.card_le_card (Finset.union_subset (hS _) h3)) (hcap row h1)⟩]
    have hset : ((List.range N).map fun r => (S r, cap r)).set row (S row ∪ cols.toFinset, cap row) =
        (List.range N).map fun r => (if r = row then S r ∪ cols.toFinset else S r, cap r) := by
      apply List.ext_getElem
      · simp
      · intro i h4 h5
        rw [List.getElem_set]
        simp only [List.getElem_map, List.getElem_range]
        split
        · subst_vars; simp
        · rename_i hne
          rw [if_neg (fun h => hne h.symm)]
    refine ⟨.num (cols.toFinset \ S row).card :: o, ?_⟩
    simp only [List.map_cons, rowRun, hrow, hstep, hset, h, Option.map_some, Option.some.injEq, Prod.mk.injEq, and_true]
    apply List.map_congr_left
    intro r _
    by_cases e : r = row
    · subst e
      simp [List.filter_cons, Finset.biUnion_insert, Finset.union_assoc]
    · have e' : (row == r) = false := by simpa using fun h => e h.symm
      simp [List.filter_cons, e, e']

/-- The rows and columns of the calls of the loop over the elements. -/
def elemRows (ndim : Nat) : List (List Nat) → List (Nat × List Nat)
  | [] => []
  | nodes :: mesh => (sorted (dofsOf ndim nodes)).map (fun row => (row, sorted (dofsOf ndim nodes))) ++ elemRows ndim mesh

theorem elemLoopCalls_eq (ndim : Nat) (mesh : List (List Nat)) :
    elemLoopCalls ndim mesh = (elemRows ndim mesh).map fun q => (q.1, .insertMany q.2) := by
  induction mesh with
  | nil => rfl
  | cons nodes mesh ih =>
    rw [elemLoopCalls, elemRows, ih, dofNumbers_eq]
    simp [sorted]

theorem mem_elemRows {ndim : Nat} {mesh : List (List Nat)} {q : Nat × List Nat} :
    q ∈ elemRows ndim mesh ↔ ∃ nodes ∈ mesh, q.1 ∈ dofsOf ndim nodes ∧ q.2 = sorted (dofsOf ndim nodes) := by
  induction mesh with
  | nil => simp [elemRows]
  | cons nodes mesh ih =>
    obtain ⟨row, cols⟩ := q
    simp only [elemRows, List.mem_append, List.mem_map, ih, List.mem_cons, exists_eq_or_imp, Prod.mk.injEq, mem_sorted]
    constructor
    · rintro (⟨a, h1, rfl, rfl⟩ | h)
      · exact .inl ⟨h1, rfl⟩
      · exact .inr h
    · rintro (⟨h1, rfl⟩ | h)
      · exact .inl ⟨row, h1, rfl, rfl⟩
      · exact .inr h

theorem elem_rows {mesh : List (List Nat)} {ndim numNodes : Nat} (hm : OnNodes mesh numNodes) (hnd : ∀ nodes ∈ mesh, nodes.Nodup)
    {cap : Nat → Nat} (hcap : ∀ r, r < ndim * numNodes → (fullRow mesh ndim (ndim * numNodes) r).card ≤ cap r) :
    ∃ o, rowRun (PatCall.step (ndim * numNodes)) ((List.range (ndim * numNodes)).map fun r => (∅, cap r)) (elemLoopCalls ndim mesh) =
      some ((List.range (ndim * numNodes)).map fun r => (fullRow mesh ndim (ndim * numNodes) r, cap r), o) := by
  obtain ⟨o, h⟩ := grow_rows (N := ndim * numNodes) (full := fullRow mesh ndim (ndim * numNodes)) (cap := cap)
    (fun r k hk => by simp only [fullRow, Finset.mem_filter, Finset.mem_range] at hk; exact hk.1) hcap (elemRows ndim mesh) (by
      rintro ⟨row, cols⟩ hq
      obtain ⟨nodes, h1, h2, rfl⟩ := mem_elemRows.1 hq
      refine ⟨dofsOf_lt (hm nodes h1) h2, sorted_sortedUnique (dofsOf_nodup (hnd nodes h1)), fun k hk => ?_⟩
      rw [sorted_toFinset, List.mem_toFinset] at hk
      exact (mem_fullRow hm).2 ⟨nodes, h1, h2, hk⟩) (fun _ => ∅) (fun _ => Finset.empty_subset _)
  refine ⟨o, ?_⟩
  rw [elemLoopCalls_eq, h]
  simp only [Option.some.injEq, Prod.mk.injEq, and_true]
  apply List.map_congr_left
  intro r _
  refine congrArg (·, cap r) ?_
  ext k
  simp only [Finset.empty_union, Finset.mem_biUnion, List.mem_toFinset, List.mem_filter, beq_iff_eq, mem_fullRow hm]
  constructor
  · rintro ⟨⟨row, cols⟩, ⟨h1, rfl⟩, h2⟩
    obtain ⟨nodes, h3, h4, rfl⟩ := mem_elemRows.1 h1
    exact ⟨nodes, h3, h4, mem_sorted.1 h2⟩
  · rintro ⟨nodes, h3, h4, h5⟩
    exact ⟨(r, sorted (dofsOf ndim nodes)), ⟨mem_elemRows.2 ⟨nodes, h3, h4, rfl⟩, rfl⟩, mem_sorted.2 h5⟩

end LvArray.Assembly

import Verif.AoSLemmas
import Verif.Spec.Sparse

/-!
# Lemmas about `SparsityPattern`
-/

namespace LvArray

open Layout sortedArrayManipulation Spec

/-- The object holds this pattern. -/
structure SpGood (s : Sp) (P : Pattern) : Prop where
  cols : s.numCols = P.numCols
  sets : SetsGood s.sets P.rows
  inRange : ∀ S ∈ P.rows, ∀ k ∈ S, k < P.numCols

namespace SpGood

variable {c : Cfg} {s : Sp} {P : Pattern}

theorem card_le {S : Finset Nat} {n : Nat} (h : ∀ k ∈ S, k < n) : S.card ≤ n := by
  have : S ⊆ Finset.range n := fun k hk => Finset.mem_range.2 (h k hk)
  simpa using Finset.card_le_card this

theorem columnCheck (ks : List Nat) (n : Nat) (h : ∀ k ∈ ks, k < n) : Sp.columnCheck c n ks = .ok () := by
  unfold Sp.columnCheck
  have : (ks.any fun col => decide (n ≤ col)) = false := by
    rw [List.any_eq_false]
    intro k hk
    simpa using h k hk
  rw [this, Bool.and_false, errorIf_false]

theorem clip_min (n k : Nat) : Sp.clip n k = min k n := by unfold Sp.clip; split <;> omega

/-- `incrementSize` always succeeds when the row still fits into the columns of the matrix. -/
theorem growing_ok (ht : c.trivial = true) {a : AoA Nat} {A B : Layout Nat} {xs : List Nat} {cap n N : Nat}
    (h : AGood a (A ++ (xs, cap) :: B)) (hn : xs.length + n ≤ N) :
    ∃ a1 cap1, Sp.growing c N A.length a n = .ok a1 ∧ AGood a1 (A ++ (xs, cap1) :: B) ∧ xs.length + n ≤ cap1 := by
  unfold Sp.growing AoA.growIf
  rw [h.shape.sizeOfAt rfl, bind_ok, h.shape.capacityOfAt rfl, bind_ok]
  simp only
  have hf := h.lay.fits (xs, cap) (by simp)
  simp only at hf
  by_cases hg : cap < xs.length + n
  · rw [if_pos (by simpa using hg), clip_min]
    rcases h.setCapacity (c := c) (min ((xs.length + n) * 2) N) with ⟨_, a', h1, h2, _⟩ | ⟨h1, _⟩
    · rw [List.take_of_length_le (by omega)] at h2
      exact ⟨a', _, h1, h2, by omega⟩
    · exact absurd (.inr (.inl ht)) h1
  · rw [if_neg (by simpa using hg)]
    exact ⟨a, cap, rfl, h, by omega⟩

/-- Replace one row. -/
theorem setRow (h : SpGood s P) {i : Nat} {S' : Finset Nat} (hS' : ∀ k ∈ S', k < P.numCols) {a : AoA Nat}
    (ha : SetsGood a (P.rows.set i S')) : SpGood { s with sets := a } { P with rows := P.rows.set i S' } := by
  refine ⟨h.cols, ha, fun S hS => ?_⟩
  rcases List.mem_or_eq_of_mem_set hS with hS | rfl
  · exact h.inRange S hS
  · exact hS'

theorem rowRange (h : SpGood s P) {i : Nat} {S : Finset Nat} (hi : P.rows[i]? = some S) : ∀ k ∈ S, k < P.numCols :=
  h.inRange S (List.mem_of_getElem? hi)

/-- An operation of the parent class. -/
theorem parent (ht : c.trivial = true) (h : SpGood s P) (op : AoAOp Nat) (hop : op.nonEmptyInsert) (rows' : List (Finset Nat))
    (hs : Spec.vvStep (P.rows.map (·.sort (· ≤ ·))) op = some (rows'.map (·.sort (· ≤ ·)))) :
    ∃ a, s.sets.step c op = .ok a ∧ SetsGood a rows' := by
  rcases AoS.parent (c := c) h.sets op hop rows' hs with ⟨a, h1, h2⟩ | ⟨h1, _⟩
  · cases h3 : s.sets.step c op with
    | error e => rw [h3, bind_err] at h1; cases h1
    | ok a' => rw [h3, bind_ok] at h1; cases h1; exact ⟨_, rfl, h2⟩
  · rw [ht] at h1; cases h1

theorem setCapacity (ht : c.trivial = true) (h : SpGood s P) {i : Nat} {S : Finset Nat} (hi : P.rows[i]? = some S) (n : Nat) :
    ∃ s', s.setRowCapacity c i n = .ok s' ∧
      SpGood s' { P with rows := P.rows.set i ((S.sort (· ≤ ·)).take n).toFinset } := by
  unfold Sp.setRowCapacity
  obtain ⟨a, h1, h2⟩ := parent ht h (.setCapacityOfArray i (Sp.clip s.numCols n)) trivial
    (P.rows.set i ((S.sort (· ≤ ·)).take n).toFinset) (by
      simp only [Spec.vvStep, Spec.onRow, List.getElem?_map, hi, Option.map_some, if_true]
      rw [List.map_set, AoS.sort_take_toFinset, clip_min, h.cols]
      have := card_le (h.rowRange hi)
      congr 2
      rw [List.take_eq_take_iff]
      simp
      omega)
  simp only [AoA.step] at h1
  rw [h1, bind_ok]
  refine ⟨_, rfl, h.setRow (fun k hk => ?_) h2⟩
  rw [List.mem_toFinset] at hk
  exact h.rowRange hi k (by simpa using List.mem_of_mem_take hk)

theorem numArrays (h : SpGood s P) : s.sets.shape.numArrays = P.rows.length := by
  obtain ⟨L, hg, hL⟩ := h.sets
  rw [hg.shape.num]
  simpa using congrArg List.length hL

theorem sizeOf (h : SpGood s P) {i : Nat} {S : Finset Nat} (hi : P.rows[i]? = some S) :
    s.sets.shape.sizeOfArray c i = .ok S.card := by
  obtain ⟨A, cap, B, rfl, hg, -⟩ := h.sets.at hi
  rw [hg.shape.sizeOfAt rfl]; simp

end SpGood

/-- Summing the sizes of the rows. -/
theorem numNonZeros_ok {c : Cfg} {s : Shape} (ns : List Nat) (hn : s.numArrays = ns.length)
    (h : ∀ i (hi : i < ns.length), s.sizeOfArray c i = .ok ns[i]) : Sp.numNonZeros c s = .ok ns.sum := by
  unfold Sp.numNonZeros
  obtain ⟨x, h1, h2⟩ := forUp_inv (f := fun row nnz => do
    let n ← s.sizeOfArray c row
    Except.ok (nnz + n)) (fun i x => i ≤ ns.length ∧ x = (ns.take i).sum) s.numArrays 0 0 ⟨by omega, by simp⟩
    (by
      intro i x h0 hi ⟨_, hx⟩
      have hlt : i < ns.length := by omega
      refine ⟨x + ns[i], ?_, by omega, ?_⟩
      · rw [h i hlt, bind_ok]
      · rw [List.take_succ_eq_append_getElem hlt, List.sum_append, hx]
        simp)
  rw [h1]
  rw [h2.2, hn]
  simp

namespace SpGood

variable {c : Cfg} {s : Sp} {P : Pattern}

/-- **Every legal call** does what the specification says. -/
theorem step_ok (ht : c.trivial = true) (colMax : Nat) (h : SpGood s P) (op : SpOp) (P' : Pattern) (out : AoSOut Nat)
    (hs : spStep colMax P op = some (P', out)) : ∃ s', s.step c colMax op = .ok (s', out) ∧ SpGood s' P' := by
  cases op with
  | insert i k =>
    simp only [spStep] at hs
    split at hs
    · rename_i hk
      simp only [Pattern.onRow, Option.map_eq_some_iff, Prod.mk.injEq] at hs
      obtain ⟨S, hS, rfl, rfl⟩ := hs
      obtain ⟨A, cap, B, rfl, hg, hset⟩ := h.sets.at hS
      have hr : ∀ j ∈ insert k S, j < P.numCols := by
        intro j hj
        rcases Finset.mem_insert.1 hj with rfl | hj
        · exact hk
        · exact h.rowRange hS j hj
      have hc := card_le hr
      obtain ⟨a', cap', h1, h2⟩ := AoS.insert_ok (c := c) (inc := Sp.growing c s.numCols A.length) hg k (fun n hn => by
        obtain ⟨a1, cap1, q1, q2, q3⟩ := growing_ok (N := s.numCols) ht hg (n := n) (by
          rw [h.cols]; simp only [Finset.length_sort]; omega)
        exact ⟨a1, cap1, q1, q2, by simpa using q3⟩)
      simp only [Sp.step, Sp.insertNonZero]
      rw [h1, bind_ok, bind_ok]
      exact ⟨_, rfl, h.setRow hr (hset _ _ _ h2)⟩
    · cases hs
  | insertMany i ks =>
    simp only [spStep] at hs
    split at hs
    · rename_i hk
      simp only [Pattern.onRow, Option.map_eq_some_iff, Prod.mk.injEq] at hs
      obtain ⟨S, hS, rfl, rfl⟩ := hs
      obtain ⟨A, cap, B, rfl, hg, hset⟩ := h.sets.at hS
      have hr : ∀ j ∈ S ∪ ks.toFinset, j < P.numCols := by
        intro j hj
        rcases Finset.mem_union.1 hj with hj | hj
        · exact h.rowRange hS j hj
        · exact hk.2 j (by simpa using hj)
      have hc := card_le hr
      rw [SortedArr.card_union_eq S ks] at hc
      obtain ⟨a', cap', h1, h2⟩ := AoS.insertMany_ok (c := c) (inc := Sp.growing c s.numCols A.length) hg ks hk.1 (by
        obtain ⟨a1, cap1, q1, q2, q3⟩ := growing_ok (N := s.numCols) ht hg (n := (ks.toFinset \ S).card) (by
          rw [h.cols]; simp only [Finset.length_sort]; omega)
        exact ⟨a1, cap1, q1, q2, by simpa using q3⟩)
      simp only [Sp.step, Sp.insertNonZeros]
      rw [h1, bind_ok, bind_ok]
      exact ⟨_, rfl, h.setRow hr (hset _ _ _ h2)⟩
    · cases hs
  | remove i k =>
    simp only [spStep] at hs
    split at hs
    · rename_i hk
      simp only [Pattern.onRow, Option.map_eq_some_iff, Prod.mk.injEq] at hs
      obtain ⟨S, hS, rfl, rfl⟩ := hs
      obtain ⟨A, cap, B, rfl, hg, hset⟩ := h.sets.at hS
      obtain ⟨a', cap', h1, h2⟩ := AoS.remove_ok (c := c) hg k
      simp only [Sp.step, Sp.removeNonZero]
      rw [hg.checkBounds (by simp), bind_ok, columnCheck _ _ (by simpa [h.cols] using hk), bind_ok, h1, bind_ok, bind_ok]
      exact ⟨_, rfl, h.setRow (fun j hj => h.rowRange hS j (Finset.mem_of_mem_erase hj)) (hset _ _ _ h2)⟩
    · cases hs
  | removeMany i ks =>
    simp only [spStep] at hs
    split at hs
    · rename_i hk
      simp only [Pattern.onRow, Option.map_eq_some_iff, Prod.mk.injEq] at hs
      obtain ⟨S, hS, rfl, rfl⟩ := hs
      obtain ⟨A, cap, B, rfl, hg, hset⟩ := h.sets.at hS
      obtain ⟨a', cap', h1, h2⟩ := AoS.removeMany_ok (c := c) hg ks hk.1
      simp only [Sp.step, Sp.removeNonZeros]
      rw [hg.checkBounds (by simp), bind_ok, columnCheck _ _ (by simpa [h.cols] using hk.2), bind_ok, h1, bind_ok, bind_ok]
      exact ⟨_, rfl, h.setRow (fun j hj => h.rowRange hS j (Finset.mem_sdiff.1 hj).1) (hset _ _ _ h2)⟩
    · cases hs
  | isEmpty i k =>
    simp only [spStep, Pattern.onRow, Option.map_eq_some_iff, Prod.mk.injEq, id_eq] at hs
    obtain ⟨S, hS, rfl, rfl⟩ := hs
    obtain ⟨A, cap, B, rfl, hg, hset⟩ := h.sets.at hS
    simp only [Sp.step, Sp.isEmpty]
    rw [AoS.contains_ok hg k, bind_ok, bind_ok]
    refine ⟨s, by simp, ?_⟩
    exact h.setRow (h.rowRange hS) (hset S cap s.sets hg)
  | setRowCapacity i n =>
    simp only [spStep, Pattern.onRow, Option.map_eq_some_iff, Prod.mk.injEq] at hs
    obtain ⟨S, hS, rfl, rfl⟩ := hs
    obtain ⟨s', h1, h2⟩ := setCapacity ht h hS n
    simp only [Sp.step]
    rw [h1, bind_ok]
    exact ⟨s', rfl, h2⟩
  | reserveNonZeros i n =>
    simp only [spStep, Pattern.onRow, Option.map_eq_some_iff, Prod.mk.injEq, id_eq] at hs
    obtain ⟨S, hS, rfl, rfl⟩ := hs
    obtain ⟨A, cap, B, rfl, hg, hset⟩ := h.sets.at hS
    simp only [Sp.step, Sp.reserveNonZeros]
    rw [hg.shape.capacityOfAt rfl, bind_ok]
    have hsame : { P with rows := P.rows.set A.length S } = P := by
      have : P.rows.set A.length S = P.rows := by
        obtain ⟨hlt, he⟩ := List.getElem?_eq_some_iff.1 hS
        rw [← he]; simp
      rw [this]
    by_cases hn : n ≤ cap
    · rw [if_pos hn, bind_ok]
      exact ⟨s, rfl, by rw [hsame]; exact h⟩
    · rw [if_neg hn]
      obtain ⟨s', h1, h2⟩ := setCapacity (s := s) ht h hS n
      have hf := hg.lay.fits (S.sort (· ≤ ·), cap) (by simp)
      simp only at hf
      rw [List.take_of_length_le (by omega), Finset.sort_toFinset] at h2
      rw [h1, bind_ok]
      exact ⟨s', rfl, h2⟩
  | reserveNonZerosTotal n =>
    simp only [spStep, Option.some.injEq, Prod.mk.injEq] at hs
    obtain ⟨rfl, rfl⟩ := hs
    obtain ⟨a, h1, h2⟩ := parent ht h (.reserveValues n) trivial P.rows rfl
    simp only [AoA.step] at h1
    simp only [Sp.step]
    rw [h1, bind_ok]
    exact ⟨_, rfl, h.cols, h2, h.inRange⟩
  | reserveRows n =>
    simp only [spStep, Option.some.injEq, Prod.mk.injEq] at hs
    obtain ⟨rfl, rfl⟩ := hs
    obtain ⟨a, h1, h2⟩ := parent ht h (.reserve n) trivial P.rows rfl
    simp only [AoA.step] at h1
    simp only [Sp.step]
    rw [h1, bind_ok]
    exact ⟨_, rfl, h.cols, h2, h.inRange⟩
  | appendRow n =>
    simp only [spStep, Option.some.injEq, Prod.mk.injEq] at hs
    obtain ⟨rfl, rfl⟩ := hs
    obtain ⟨L, hg, hL⟩ := h.sets
    obtain ⟨s', h1, h2, h3⟩ := hg.appendRow (c := c)
    simp only [Sp.step, Sp.appendRow]
    rw [h1, bind_ok, h2, Nat.add_sub_cancel]
    have hg' : SpGood { s with sets := { s.sets with shape := s' } } { P with rows := P.rows ++ [∅] } := by
      refine ⟨h.cols, ⟨_, h3, by simp [hL]⟩, ?_⟩
      intro S hS
      simp only [List.mem_append, List.mem_singleton] at hS
      rcases hS with hS | rfl
      · exact h.inRange S hS
      · simp
    have hlen : L.length = P.rows.length := by simpa using congrArg List.length hL
    obtain ⟨s'', h4, h5⟩ := setCapacity ht hg' (i := L.length) (S := ∅) (by simp [hlen]) n
    rw [h4, bind_ok]
    refine ⟨_, rfl, ?_⟩
    simpa [hlen] using h5
  | resize r n k =>
    simp only [spStep] at hs
    split at hs
    · rename_i hr
      simp only [Option.some.injEq, Prod.mk.injEq] at hs
      obtain ⟨rfl, rfl⟩ := hs
      obtain ⟨a, h1, h2⟩ := parent ht h (.resize r k) trivial (P.rows.take r ++ List.replicate (r - P.rows.length) ∅)
        (by simp [Spec.vvStep, List.map_take])
      simp only [AoA.step] at h1
      simp only [Sp.step, Sp.resize]
      rw [decide_eq_false (by omega), errorIf_false, bind_ok, h1, bind_ok, bind_ok]
      refine ⟨_, rfl, rfl, h2, ?_⟩
      intro S hS
      simp only [List.mem_append, List.mem_replicate] at hS
      rcases hS with hS | ⟨_, rfl⟩
      · exact hr.2 S hS
      · simp
    · cases hs
  | resizeFromRowCapacities n ks =>
    simp only [spStep] at hs
    split at hs
    · rename_i hr
      simp only [Option.some.injEq, Prod.mk.injEq] at hs
      obtain ⟨rfl, rfl⟩ := hs
      obtain ⟨a, h1, h2⟩ := parent ht h (.resizeFromCapacities ks) trivial (List.replicate ks.length ∅) (by simp [Spec.vvStep])
      simp only [AoA.step] at h1
      simp only [Sp.step, Sp.resizeFromRowCapacities]
      rw [decide_eq_false (by omega), errorIf_false, bind_ok, h1, bind_ok, bind_ok]
      refine ⟨_, rfl, rfl, h2, ?_⟩
      intro S hS
      simp only [List.mem_replicate] at hS
      rw [hS.2]
      simp
    · cases hs
  | compress =>
    simp only [spStep, Option.some.injEq, Prod.mk.injEq] at hs
    obtain ⟨rfl, rfl⟩ := hs
    obtain ⟨a, h1, h2⟩ := parent ht h .compress trivial P.rows rfl
    simp only [AoA.step] at h1
    simp only [Sp.step]
    rw [h1, bind_ok]
    exact ⟨_, rfl, h.cols, h2, h.inRange⟩
  | numNonZeros =>
    simp only [spStep, Option.some.injEq, Prod.mk.injEq] at hs
    obtain ⟨rfl, rfl⟩ := hs
    simp only [Sp.step]
    rw [numNonZeros_ok (P.rows.map (·.card)) (by rw [h.numArrays]; simp) (by
      intro i hi
      rw [h.sizeOf (List.getElem?_eq_getElem (by simpa using hi))]
      simp), bind_ok]
    exact ⟨s, rfl, h⟩

theorem run_ok (ht : c.trivial = true) (colMax : Nat) (h : SpGood s P) (ops : List SpOp) (P' : Pattern)
    (outs : List (AoSOut Nat)) (hs : spRun colMax P ops = some (P', outs)) :
    ∃ s', Sp.run c colMax s ops = .ok (s', outs) ∧ SpGood s' P' := by
  induction ops generalizing s P outs with
  | nil =>
    simp only [spRun, Option.some.injEq, Prod.mk.injEq] at hs
    obtain ⟨rfl, rfl⟩ := hs
    exact ⟨s, rfl, h⟩
  | cons op ops ih =>
    simp only [spRun, Option.bind_eq_some_iff, Option.map_eq_some_iff, Prod.mk.injEq] at hs
    obtain ⟨⟨P1, o1⟩, h1, ⟨P2, o2⟩, h2, rfl, rfl⟩ := hs
    obtain ⟨s1, e1, g1⟩ := h.step_ok ht colMax op P1 o1 h1
    obtain ⟨s2, e2, g2⟩ := ih g1 _ h2
    unfold Sp.run
    rw [e1, bind_ok, e2, bind_ok]
    exact ⟨s2, rfl, g2⟩

theorem mk_ok (c : Cfg) (colMax nRows nCols k : Nat) (hn : nCols ≤ colMax + 1) :
    ∃ s, Sp.mk' c colMax nRows nCols k = .ok s ∧ SpGood s { numCols := nCols, rows := List.replicate nRows ∅ } := by
  obtain ⟨a, h1, h2⟩ := mk_good (T := Nat) c nRows k
  unfold AoA.mk' at h1
  unfold Sp.mk' Sp.resize
  rw [decide_eq_false (by omega), errorIf_false, bind_ok]
  simp only
  rw [h1, bind_ok]
  refine ⟨_, rfl, rfl, ⟨_, h2, by simp⟩, ?_⟩
  intro S hS
  simp only [List.mem_replicate] at hS
  rw [hS.2]
  simp

end SpGood

end LvArray

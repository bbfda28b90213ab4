import Verif.SortedArrayLemmas
/-!
# C15, C16, C17, C20: searching, and `SortedArray` as a mathematical set
-/

namespace LvArray.Props

open LvArray sortedArrayManipulation

set_option linter.unusedSectionVars false

/-- What the code requires of a comparison object: a strict weak order. -/
structure StrictWeakOrder {T : Type} (comp : T → T → Bool) : Prop where
  irrefl : ∀ a, comp a a = false
  trans : ∀ a b c, comp a b = true → comp b c = true → comp a c = true
  negTrans : ∀ a b c, comp a b = false → comp b c = false → comp a c = false

theorem StrictWeakOrder.asymm {T : Type} {comp : T → T → Bool} (h : StrictWeakOrder comp) {a b : T} (hab : comp a b = true) :
    comp b a = false := by
  cases hba : comp b a with
  | false => rfl
  | true =>
    have := h.trans a b a hab hba
    rw [h.irrefl a] at this
    exact absurd this (by decide)

theorem strictWeakOrder_less {T : Type} [LinearOrder T] : StrictWeakOrder (less (T := T)) where
  irrefl := fun a => by simp [less]
  trans := fun a b c h1 h2 => by rw [less_iff] at *; exact lt_trans h1 h2
  negTrans := fun a b c h1 h2 => by
    simp only [less, decide_eq_false_iff_not, not_lt] at *
    exact le_trans h2 h1

/-- **C15 (find).** On a range that is sorted under `comp` the search returns the one position such that everything before
it is smaller than the value and nothing from it on is.  `read` may fail or return anything outside the range, so nothing
outside is read. -/
theorem C15_find {T : Type} (c : Cfg) (comp : T → T → Bool) (hcomp : StrictWeakOrder comp) (read : Nat → R T) (xs : List T)
    (v : T) (hread : ∀ i (hi : i < xs.length), read i = .ok xs[i])
    (hsorted : ∀ i j (hij : i < j) (hj : j < xs.length), comp xs[j] xs[i] = false) :
    ∃ k, find c comp read xs.length v = .ok k ∧ k ≤ xs.length ∧
      (∀ i (hi : i < xs.length), i < k ↔ comp xs[i] v = true) := by
  obtain ⟨k, e, h1, h2, h3⟩ := find_spec c comp read xs v hread
    (isSorted_of_pairwise (List.pairwise_iff_getElem.mpr (fun i j _ hj hij => hsorted i j hij hj)))
    (fun i j hij hj h => by
      cases hx : comp xs[i] v with
      | true => rfl
      | false => rw [hcomp.negTrans _ _ _ (hsorted i j hij hj) hx] at h; exact absurd h (by decide))
  refine ⟨k, e, h1, fun i hi => ⟨fun hk => h2 i hi hk, fun hc => ?_⟩⟩
  rcases Nat.lt_or_ge i k with h | h
  · exact h
  · rw [h3 i hi h] at hc; exact absurd hc (by decide)

/-- **C15 (contains).** On a sorted range (duplicates allowed) membership is decided exactly. -/
theorem C15_contains {T : Type} [LinearOrder T] (c : Cfg) (read : Nat → R T) (xs : List T) (v : T)
    (hread : ∀ i (hi : i < xs.length), read i = .ok xs[i])
    (hsorted : ∀ i j (hij : i < j) (hj : j < xs.length), xs[i] ≤ xs[j]) :
    contains c less read xs.length v = .ok (decide (v ∈ xs)) := by
  obtain ⟨k, e, h1, h2⟩ := C15_find c less strictWeakOrder_less read xs v hread
    (fun i j hij hj => by simp only [less, decide_eq_false_iff_not, not_lt]; exact hsorted i j hij hj)
  unfold contains
  rw [e, bind_ok]
  unfold isAt
  simp only [less_iff] at h2
  split
  · rename_i hk
    subst hk
    congr 1
    symm
    rw [decide_eq_false_iff_not]
    intro hv
    obtain ⟨i, hi, rfl⟩ := List.getElem_of_mem hv
    exact absurd ((h2 i hi).mp hi) (lt_irrefl _)
  · rename_i hk
    have hk' : k < xs.length := by omega
    rw [hread k hk', bind_ok]
    congr 2
    apply propext
    constructor
    · rintro rfl; exact List.getElem_mem _
    · intro hv
      obtain ⟨i, hi, rfl⟩ := List.getElem_of_mem hv
      have hik : ¬ i < k := fun h => absurd ((h2 i hi).mp h) (lt_irrefl _)
      have hle : ¬ xs[k] < xs[i] := fun h => absurd ((h2 k hk').mpr h) (Nat.lt_irrefl _)
      rcases Nat.eq_or_lt_of_le (Nat.le_of_not_lt hik) with h | h
      · subst h; rfl
      · exact le_antisymm (hsorted k i h hi) (not_lt.mp hle)

example : find ⟨true, true, true⟩ less (fun i => if h : i < 4 then .ok [1, 3, 3, 7][i] else .error (.ub .outOfBounds)) 4 3 = .ok 1 ∧
    contains ⟨true, true, true⟩ less (fun i => if h : i < 4 then .ok [1, 3, 3, 7][i] else .error (.ub .outOfBounds)) 4 5
      = .ok false := by decide

/-- **C20 (isSorted).** -/
theorem C20_isSorted {T : Type} (comp : T → T → Bool) (hcomp : StrictWeakOrder comp) (xs : List T) :
    isSorted comp xs = true ↔ ∀ i j (hij : i < j) (hj : j < xs.length), comp xs[j] xs[i] = false := by
  have key : isSorted comp xs = true ↔ xs.Pairwise (fun a b => comp b a = false) := by
    refine ⟨fun h => ?_, isSorted_of_pairwise⟩
    induction xs with
    | nil => exact List.Pairwise.nil
    | cons a xs ih =>
      cases xs with
      | nil => simp
      | cons b xs =>
        simp only [isSorted] at h
        cases hc : comp b a with
        | true => rw [hc] at h; simp at h
        | false =>
          rw [hc] at h
          have := ih h
          rw [List.pairwise_cons]
          refine ⟨fun d hd => ?_, this⟩
          rcases List.mem_cons.mp hd with rfl | hd
          · exact hc
          · exact hcomp.negTrans d b a ((List.pairwise_cons.mp this).1 d hd) hc
  rw [key, List.pairwise_iff_getElem]
  exact ⟨fun h i j hij hj => h i j _ hj hij, fun h i j _ hj hij => h i j hij hj⟩

/-- **C20 (isSortedUnique).** -/
theorem C20_isSortedUnique {T : Type} (comp : T → T → Bool) (hcomp : StrictWeakOrder comp) (xs : List T) :
    isSortedUnique comp xs = true ↔ ∀ i j (hij : i < j) (hj : j < xs.length), comp xs[i] xs[j] = true := by
  have key : isSortedUnique comp xs = true ↔ xs.Pairwise (fun a b => comp a b = true) := by
    refine ⟨fun h => ?_, fun h => isSortedUnique_of_pairwise (h.imp (fun hab => ⟨hab, hcomp.asymm hab⟩))⟩
    induction xs with
    | nil => exact List.Pairwise.nil
    | cons a xs ih =>
      cases xs with
      | nil => simp
      | cons b xs =>
        simp only [isSortedUnique] at h
        cases hc : comp a b with
        | false => rw [hc] at h; simp at h
        | true =>
          rw [hc, hcomp.asymm hc] at h
          have := ih (by simpa using h)
          rw [List.pairwise_cons]
          refine ⟨fun d hd => ?_, this⟩
          rcases List.mem_cons.mp hd with rfl | hd
          · exact hc
          · exact hcomp.trans a b d hc ((List.pairwise_cons.mp this).1 d hd)
  rw [key, List.pairwise_iff_getElem]
  exact ⟨fun h i j hij hj => h i j _ hj hij, fun h i j _ hj hij => h i j hij hj⟩

example : StrictWeakOrder (less (T := Nat)) ∧ isSorted less [1, 3, 3, 7] = true ∧ isSortedUnique less [1, 3, 3, 7] = false ∧
    isSorted less [3, 1] = false := ⟨strictWeakOrder_less, by decide, by decide, by decide⟩

variable {T : Type} [LinearOrder T] [Inhabited T]

theorem set_init_good (limit : Option Nat) : SGood limit (SortedArr.init T limit) (∅ : Finset T) := by
  unfold SGood
  rw [Finset.sort_empty]
  cases limit <;> exact Good.init T _

theorem set_run_good (c : Cfg) (limit : Option Nat) : ∀ (ops : List (SetOp T)) (a : SortedArr T) (S S' : Finset T)
    (outs : List (SetOut T)), SGood limit a S → Spec.setRun limit S ops = some (S', outs) →
    ∃ a', a.run c ops = .ok (a', outs) ∧ SGood limit a' S'
  | [], a, S, S', outs, g, h => by
    simp only [Spec.setRun, Option.some.injEq, Prod.mk.injEq] at h
    obtain ⟨rfl, rfl⟩ := h
    exact ⟨a, rfl, g⟩
  | op :: ops, a, S, S', outs, g, h => by
    simp only [Spec.setRun, Option.bind_eq_some_iff, Option.map_eq_some_iff, Prod.mk.injEq] at h
    obtain ⟨⟨S1, o⟩, h1, ⟨S2, os⟩, h2, rfl, rfl⟩ := h
    obtain ⟨a1, e1, g1⟩ := SortedArr.step_good c g op h1
    obtain ⟨a2, e2, g2⟩ := set_run_good c limit ops a1 S1 S2 os g1 h2
    exact ⟨a2, by simp only [SortedArr.run, e1, e2, bind_ok], g2⟩

/-- **C16, C17.** Any history of `insert`, `remove` (of single values and of sorted unique ranges), `contains`, `operator[]`,
`reserve` and `clear` runs without abort or undefined behaviour, every call returns what the corresponding operation
on the mathematical set returns (in particular: whether the set changed, how many values were added or removed), and
afterwards the array lists exactly the elements of the set in increasing order.  For every element type, heap and stack
buffers, and every build configuration. -/
theorem C16_sortedArray_is_set (c : Cfg) (limit : Option Nat) (ops : List (SetOp T)) (S : Finset T)
    (outs : List (SetOut T)) (h : Spec.setRun limit ∅ ops = some (S, outs)) :
    ∃ a, (SortedArr.init T limit).run c ops = .ok (a, outs) ∧ a.size = S.card ∧
      (∀ (i : Nat) (hi : i < S.card), a.get c i = .ok ((S.sort (· ≤ ·))[i]'(by simpa using hi))) ∧
      (∀ v, a.contains c v = .ok (decide (v ∈ S))) := by
  obtain ⟨a, e, g⟩ := set_run_good c limit ops _ ∅ S outs (set_init_good limit) h
  exact ⟨a, e, g.size, fun i hi => SortedArr.get_good c g i hi, fun v => SortedArr.contains_good c g v⟩

example : Spec.setRun (T := Nat) (some 6) ∅ [.insert 5, .insert 2, .insert 5, .insertMany [1, 2, 7, 9], .removeMany [2, 3, 9],
    .remove 4, .contains 7] =
    some ({1, 5, 7}, [.bool true, .bool true, .bool false, .num 3, .num 2, .bool false, .bool true]) := by
  decide +kernel

example : Spec.setStep (T := Nat) none {1, 5, 7} (.get 1) = some ({1, 5, 7}, .val 5) := by
  have : ({1, 5, 7} : Finset Nat).sort (· ≤ ·) = [1, 5, 7] := (sort_of_increasing (by decide) (by simp)).symm
  simp [Spec.setStep, this]

/-- **C17 (bulk operations).** From the state after any history, inserting a sorted unique range gives the union and
returns the number of new values, removing one gives the difference and returns the number of removed values. -/
theorem C17_bulk (c : Cfg) (limit : Option Nat) (ops : List (SetOp T)) (S : Finset T) (outs : List (SetOut T))
    (h : Spec.setRun limit ∅ ops = some (S, outs)) (vs : List T) (hv : vs.Pairwise (· < ·)) :
    ∃ a, (SortedArr.init T limit).run c ops = .ok (a, outs) ∧
      (Spec.fits limit (S ∪ vs.toFinset).card → ∃ a', a.insertMany c vs = .ok (a', (vs.toFinset \ S).card) ∧
        a'.size = (S ∪ vs.toFinset).card ∧
        ∀ (i : Nat) (hi : i < (S ∪ vs.toFinset).card),
          a'.get c i = .ok (((S ∪ vs.toFinset).sort (· ≤ ·))[i]'(by simpa using hi))) ∧
      (∃ a', a.removeMany c vs = .ok (a', (S ∩ vs.toFinset).card) ∧ a'.size = (S \ vs.toFinset).card ∧
        ∀ (i : Nat) (hi : i < (S \ vs.toFinset).card),
          a'.get c i = .ok (((S \ vs.toFinset).sort (· ≤ ·))[i]'(by simpa using hi))) := by
  obtain ⟨a, e, g⟩ := set_run_good c limit ops _ ∅ S outs (set_init_good limit) h
  refine ⟨a, e, fun hf => ?_, ?_⟩
  · obtain ⟨a', e', g'⟩ := SortedArr.insertMany_good c g vs hv hf
    exact ⟨a', e', g'.size, fun i hi => SortedArr.get_good c g' i hi⟩
  · obtain ⟨a', e', g'⟩ := SortedArr.removeMany_good c g vs hv
    exact ⟨a', e', g'.size, fun i hi => SortedArr.get_good c g' i hi⟩

/-- With debug assertions compiled in, a range that is not sorted and unique makes the bulk operations abort instead of
corrupting the set. -/
theorem C17_unsorted_range_aborts (c : Cfg) (hd : c.debug = true) (limit : Option Nat) (ops : List (SetOp T)) (S : Finset T)
    (outs : List (SetOut T)) (h : Spec.setRun limit ∅ ops = some (S, outs)) (vs : List T) (hv : ¬ vs.Pairwise (· < ·)) :
    ∃ a, (SortedArr.init T limit).run c ops = .ok (a, outs) ∧
      a.insertMany c vs = .error .abort ∧ a.removeMany c vs = .error .abort := by
  obtain ⟨a, e, g⟩ := set_run_good c limit ops _ ∅ S outs (set_init_good limit) h
  have hns : isSortedUnique less vs = false := by
    cases hb : isSortedUnique less vs with
    | false => rfl
    | true =>
      refine absurd ?_ hv
      rw [C20_isSortedUnique less strictWeakOrder_less] at hb
      exact List.pairwise_iff_getElem.mpr (fun i j _ hj hij => less_iff.mp (hb i j hij hj))
  have ha := assertUnique_ok c id (sort_increasing S) (fun i hi => SortedArr.read_target c g a.size i hi)
  have hsz : a.size = (S.sort (· ≤ ·)).length := by rw [g.size]; simp
  rw [← hsz] at ha
  refine ⟨a, e, ?_, ?_⟩
  · unfold SortedArr.insertMany insertRange
    rw [ha, bind_ok, hd, hns]; rfl
  · unfold SortedArr.removeMany removeRange
    rw [ha, bind_ok, hd, hns]; rfl

/-- An insertion that does not fit a fixed-capacity buffer aborts. -/
theorem C16_full_buffer_aborts (c : Cfg) (n : Nat) (ops : List (SetOp T)) (S : Finset T) (outs : List (SetOut T))
    (h : Spec.setRun (some n) ∅ ops = some (S, outs)) (hfull : S.card = n) (v : T) (hv : v ∉ S) :
    ∃ a, (SortedArr.init T (some n)).run c ops = .ok (a, outs) ∧ a.insert c v = .error .abort := by
  obtain ⟨a, e, g⟩ := set_run_good c (some n) ops _ ∅ S outs (set_init_good _) h
  refine ⟨a, e, SortedArr.insert_abort c g v ?_⟩
  rw [Finset.card_insert_of_notMem hv]
  intro hf
  have := hf n rfl
  omega

example : Spec.setRun (T := Nat) (some 2) ∅ [.insert 5, .insert 2] = some ({2, 5}, [.bool true, .bool true]) := by
  decide +kernel

/-- The memory of a `SortedArray`: after any history exactly the first `size` slots hold an object and no object carrying a
value was overwritten or released without being destroyed. -/
theorem C16_lifetimes (c : Cfg) (limit : Option Nat) (ops : List (SetOp T)) (S : Finset T) (outs : List (SetOut T))
    (h : Spec.setRun limit ∅ ops = some (S, outs)) :
    ∃ a, (SortedArr.init T limit).run c ops = .ok (a, outs) ∧ a.buf.lostLive = 0 ∧ a.size ≤ a.buf.cap ∧
      (∀ k, (a.buf.cell k).isRaw = false ↔ k < a.size) := by
  obtain ⟨a, e, g⟩ := set_run_good c limit ops _ ∅ S outs (set_init_good limit) h
  have hrep : a.buf.cell = cellsOf (S.sort (· ≤ ·)) := g.rep.1
  have hcap : (S.sort (· ≤ ·)).length ≤ a.buf.cap := g.rep.2
  have hsz : a.size = (S.sort (· ≤ ·)).length := by rw [g.size]; simp
  refine ⟨a, e, g.lost, by omega, fun k => ?_⟩
  rw [hrep, hsz]
  constructor
  · intro hk
    rcases Nat.lt_or_ge k (S.sort (· ≤ ·)).length with h | h
    · exact h
    · rw [cellsOf_ge h] at hk; exact absurd hk (by simp [Cell.isRaw])
  · exact fun h => cellsOf_notRaw h

end LvArray.Props

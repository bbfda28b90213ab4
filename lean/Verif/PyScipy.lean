import Verif.PyCrs

/-!
# `to_scipy`
-/

namespace LvArray.Python

open Spec Layout Crs

variable {V : Type} {c : Cfg}

theorem cellsOf_append {X : Type} (xs ys : List X) (k : Nat) :
    cellsOf (xs ++ ys) k = if k < xs.length then cellsOf xs k else cellsOf ys (k - xs.length) := by
  unfold cellsOf
  rw [List.getElem?_append]
  by_cases hk : k < xs.length
  · rw [if_pos hk, if_pos hk]
  · rw [if_neg hk, if_neg hk]

theorem cells_tight {X : Type} (L : Layout X) (h : ∀ r ∈ L, r.1.length = r.2) : cells L = cellsOf (L.flatMap (·.1)) := by
  induction L with
  | nil => funext k; simp [cells, cellsOf]
  | cons r L ih =>
    obtain ⟨xs, cap⟩ := r
    have h0 : xs.length = cap := h (xs, cap) (by simp)
    funext k
    simp only [cells, List.flatMap_cons, cellsOf_append]
    rw [ih (fun r hr => h r (by simp [hr])), h0]

theorem length_tight {X : Type} (L : Layout X) (h : ∀ r ∈ L, r.1.length = r.2) : (L.flatMap (·.1)).length = total L := by
  induction L with
  | nil => rfl
  | cons r L ih => simp [h r (by simp), ih (fun r hr => h r (by simp [hr]))]

theorem readRange_lay {X : Type} {b : Buf X} {L : Layout X} (hl : Lay b L) (h : ∀ r ∈ L, r.1.length = r.2) :
    readRange b 0 (total L) = .ok (L.flatMap (·.1)) := by
  rw [← length_tight L h]
  refine readRange_ok _ 0 fun j hj => ?_
  have := hl.room
  have := length_tight L h
  unfold Buf.read
  rw [Nat.zero_add, if_pos (by omega), hl.cell, cells_tight L h, cellsOf_lt hj]

theorem isCompressed_ok {m : Crs V} {L : Layout (Nat × V)} (h : CGood m L) :
    isCompressed c m = .ok (decide (∀ r ∈ L, r.1.length = r.2)) := by
  unfold isCompressed
  obtain ⟨b, h1, h2⟩ := forUp_inv (f := fun row r => do
      let n ← m.shape.sizeOfArray c row
      let cap ← m.shape.capacityOfArray c row
      .ok (r && decide (n = cap))) (fun i (b : Bool) => b = decide (∀ r ∈ L.take i, r.1.length = r.2)) m.shape.numArrays 0 true
    (by simp) (fun i b _ hi hb => by
      rw [h.shape.num] at hi
      have hi : i < L.length := by omega
      refine ⟨_, by rw [h.shape.sizeOf' hi, bind_ok, h.shape.capacityOf' hi, bind_ok], ?_⟩
      rw [hb, List.take_add_one, List.getElem?_eq_getElem hi]
      rw [← Bool.decide_and]
      congr 1
      simp only [Option.toList_some, List.mem_append, List.mem_singleton, eq_iff_iff]
      constructor
      · rintro ⟨h1, h2⟩ r (hr | rfl)
        · exact h1 r hr
        · exact h2
      · exact fun hh => ⟨fun r hr => hh r (.inl hr), hh _ (.inr rfl)⟩)
  rw [h1, h2, Nat.zero_add, h.shape.num, List.take_length]

theorem total_mapL {X Y : Type} (f : X → Y) (L : Layout X) : total (mapL f L) = total L := by
  induction L with
  | nil => rfl
  | cons r L ih => simp only [mapL, List.map_cons, total_cons] at ih ⊢; rw [ih]

theorem flatMap_mapL {X Y : Type} (f : X → Y) (L : Layout X) : (mapL f L).flatMap (·.1) = L.flatMap (fun r => r.1.map f) := by
  simp only [mapL, List.flatMap_map]

/-- What `to_scipy` does to a matrix. -/
theorem toSciPy_ok {m : Crs V} {M : Spec.Matrix V} (h : CrsGood m M) (level : Int) :
    (∃ L, CGood m L ∧ L.map (·.1) = M.rows.map (rowList M.numCols) ∧
      ((toSciPy c level m = .ok (.error .runtimeError) ∧ (M.rows = [] ∨ ∃ r ∈ L, r.1.length ≠ r.2)) ∨
       (M.rows ≠ [] ∧ (∀ r ∈ L, r.1.length = r.2) ∧ ∃ data indices indptr,
        toSciPy c level m = .ok (.ok (data, indices, indptr, decide (level ≥ MODIFIABLE))) ∧ IsCsr M data indices indptr))) := by
  obtain ⟨L, hg, hL⟩ := h.rows
  refine ⟨L, hg, hL, ?_⟩
  have hlen : L.length = M.rows.length := by simpa using congrArg List.length hL
  unfold toSciPy
  rw [isCompressed_ok hg, bind_ok]
  by_cases ht : ∀ r ∈ L, r.1.length = r.2
  · rw [decide_eq_true ht]
    by_cases hr : M.rows = []
    · refine .inl ⟨?_, .inl hr⟩
      simp [hg.shape.num, hlen, hr, raised]
    · refine .inr ⟨hr, ht, ?_⟩
      have hpos : 0 < M.rows.length := List.length_pos_iff.2 hr
      simp only [Bool.not_true, Bool.false_eq_true, if_false]
      rw [if_neg (by rw [hg.shape.num, hlen]; omega)]
      rw [hg.shape.readOff' (i := 0) (by omega), bind_ok, hg.shape.num, hg.shape.readOff' (i := L.length) (by omega), bind_ok]
      rw [List.take_zero, total_nil, List.take_length]
      have he := readRange_lay hg.layE (by
        intro r hr
        simp only [mapL, List.mem_map] at hr
        obtain ⟨q, hq, rfl⟩ := hr
        simpa using ht q hq)
      have hc := readRange_lay hg.layC (by
        intro r hr
        simp only [mapL, List.mem_map] at hr
        obtain ⟨q, hq, rfl⟩ := hr
        simpa using ht q hq)
      rw [total_mapL, flatMap_mapL] at he hc
      rw [he, bind_ok, hc, bind_ok]
      have ho : readRange m.shape.offsets 0 (L.length + 1) = .ok ((List.range (L.length + 1)).map fun i => total (L.take i)) := by
        have := readRange_ok (b := m.shape.offsets) ((List.range (L.length + 1)).map fun i => total (L.take i)) 0 (fun j hj => by
          simp only [List.length_map, List.length_range] at hj
          rw [Nat.zero_add, hg.shape.readOff' (by omega)]
          simp)
        simpa using this
      rw [ho, bind_ok]
      refine ⟨_, _, _, rfl, ?_, ?_, ?_, ?_⟩
      · have : L.flatMap (fun r => r.1.map Prod.snd) = (L.map (·.1)).flatMap (fun xs => xs.map Prod.snd) := by
          rw [List.flatMap_map]
        rw [this, hL, List.flatMap_map]
        simp only [filterMap_columnsOf]
      · have : L.flatMap (fun r => r.1.map Prod.fst) = (L.map (·.1)).flatMap (fun xs => xs.map Prod.fst) := by
          rw [List.flatMap_map]
        rw [this, hL, List.flatMap_map]
        congr 1
        funext f
        exact (columnsOf_eq _ _).symm
      · simp [hlen]
      · intro i hi
        have h1 : i < L.length + 1 := by omega
        rw [List.getElem?_map, List.getElem?_range h1, Option.map_some]
        congr 1
        have h2 : total (L.take i) = ((L.take i).map fun r => r.1.length).sum := by
          unfold total
          congr 1
          refine List.map_congr_left fun r hr => (ht r (List.mem_of_mem_take hr)).symm
        have h3 : (L.take i).map (fun r => r.1.length) = ((L.map (·.1)).take i).map List.length := by
          rw [← List.map_take, List.map_map]; rfl
        rw [h2, h3, hL, ← List.map_take, List.map_map]
        simp only [Function.comp_def, columnsOf_length]
  · rw [decide_eq_false ht]
    refine .inl ⟨rfl, .inr ?_⟩
    simpa using ht

end LvArray.Python

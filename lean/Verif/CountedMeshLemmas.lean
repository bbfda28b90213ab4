import Verif.CountedMesh
import Verif.CountedRows
import Verif.AoAStep
import Verif.Spec.Mesh

/-!
# Costs of the programs of the documentation
-/

namespace LvArray.Counted

open LvArray.Spec Layout LvArray.Concurrent

variable {T X : Type} {c : Cfg}

/-! ## Resizing -/

theorem costs_bufferReserve (c : Cfg) (b : Buf T) (size newCap : Nat) :
    Costs (bufferManipulation.reserve c b size newCap) (LvArray.bufferManipulation.reserve c b size newCap) 0 (2 * size) := by
  unfold bufferManipulation.reserve LvArray.bufferManipulation.reserve
  refine Costs.thenFree ?_
  split
  · exact costs_setCapacity c b size _
  · exact (costs_pure b).weaken (by omega) (by omega)

theorem costs_bufferResize (c : Cfg) (b : Buf T) (size newSize : Nat) (v : T) :
    Costs (bufferManipulation.resize c b size newSize v) (LvArray.bufferManipulation.resize c b size newSize v) 0
      (2 * size + ((size - newSize) + (newSize - size))) :=
  Costs.thenFree ((costs_bufferReserve c b size newSize).bind' (fun b' _ => costs_resize c b' 0 size newSize v) (by omega) (by omega))

theorem costs_destroyValues {s : Shape} {l : List Nat} (hl : ∀ i (hi : i < l.length), s.sizeOfArray c i = .ok l[i])
    (first last : Nat) (hlast : last ≤ l.length) (b : Buf X) :
    Costs (Shape.destroyValues c s first last b) (s.destroyValues c first last b) 0 (2 * (last - first) + (l.drop first).sum) := by
  unfold Shape.destroyValues LvArray.Shape.destroyValues
  refine Costs.thenFree (Costs.thenFree ?_)
  refine (costs_forUp (fun i => 2 + 1 * l.getD i 0) _ _ (fun row h1 h2 b => ?_) b).weaken (by omega) ?_
  · have hr : row < l.length := by omega
    refine (Costs.thenOp (l := 0) (h := 1 + l.getD row 0) fun off _ => ?_).weaken (by omega) (by omega)
    refine (costs_sizeOfArray c s row).bind' (l' := 0) (h' := l.getD row 0) (fun n hsz => ?_) (by omega) (by omega)
    rw [hl row hr] at hsz
    cases hsz
    refine (costs_destroy c b off _).weaken (by omega) ?_
    simp [List.getD_eq_getElem?_getD, List.getElem?_eq_getElem hr]
  · rw [total_affine]
    have := total_getD l (last - first) first
    omega

theorem offsetsSize_le (s : Shape) : s.offsetsSize ≤ s.numArrays + 1 := by
  unfold LvArray.Shape.offsetsSize; split <;> omega

theorem costs_dropRows (c : Cfg) (s : Shape) (n : Nat) (hn : n < s.numArrays) :
    Costs (Shape.dropRows c s n) (s.dropRows c n) 0 (2 + 6 * s.numArrays) := by
  unfold Shape.dropRows LvArray.Shape.dropRows
  have := offsetsSize_le s
  have h0 : s.offsetsSize = s.numArrays + 1 := if_neg (by omega)
  refine (costs_bufferResize c.ix s.offsets _ (n + 1) 0).bind' (l' := 0) (h' := 3 * s.numArrays) (fun o _ => ?_) (by omega) (by omega)
  exact ((costs_bufferResize c.ix s.sizes _ n 0).bindPure).weaken (by omega) (by omega)

theorem costs_lastOffset (s : Shape) : Costs (Shape.lastOffset s) s.lastOffset 0 1 := by
  unfold Shape.lastOffset LvArray.Shape.lastOffset
  split
  · exact (costs_pure _).weaken (by omega) (by omega)
  · exact (costs_op _).weaken (by omega) (by omega)

theorem costs_spreadOffsets (c : Cfg) (s : Shape) (n o d : Nat) :
    Costs (Shape.spreadOffsets c s n o d) (s.spreadOffsets c n o d) 0 n :=
  (((costs_forUp_const 1 _ _ (fun _ _ => (costs_op _).weaken (by omega) (by omega)) _).bindPure)).weaken (by omega) (by omega)

theorem costs_addRows (c : Cfg) (s : Shape) (n d : Nat) (hn : s.numArrays ≤ n) :
    Costs (Shape.addRows c s n d) (s.addRows c n d) 0 (4 + 4 * s.numArrays + 3 * n) := by
  unfold Shape.addRows LvArray.Shape.addRows
  have := offsetsSize_le s
  refine (costs_lastOffset s).bind' (l' := 0) (h' := 3 + 4 * s.numArrays + 3 * n) (fun o _ => ?_) (by omega) (by omega)
  refine (costs_bufferResize c.ix s.offsets _ (n + 1) o).bind' (l' := 0) (h' := 2 * s.numArrays + 2 * n) (fun os _ => ?_)
    (by omega) (by omega)
  refine (costs_bufferResize c.ix s.sizes _ n 0).bind' (l' := 0) (h' := n) (fun ss _ => ?_) (by omega) (by omega)
  simp only
  split
  · exact costs_spreadOffsets c _ _ _ _
  · exact (costs_pure _).weaken (by omega) (by omega)

/-- `resize` costs time linear in the number of arrays before and after and the sum of the capacities before. -/
theorem costs_aoaResize {a : AoA T} {L : Layout T} (h : AGood a L) (n d : Nat) :
    Costs (AoA.resize c a n d) (a.resize c n d) 0 (6 + 8 * L.length + 3 * n + 2 * Layout.total L) := by
  have hnum : a.shape.numArrays = L.length := h.shape.num.trans (by simp)
  unfold AoA.resize LvArray.AoA.resize
  split
  · rename_i hlt
    refine (costs_destroyValues (l := szs L) (LShape.sizes h.shape) n a.shape.numArrays (by rw [hnum]; simp) a.values).bind' (l' := 0)
      (h' := 2 + 6 * L.length) (fun values _ => ?_) (by omega) ?_
    · exact ((costs_dropRows c a.shape n hlt).bindPure).weaken (by omega) (by omega)
    · have h1 := drop_sum_le (szs L) n
      have h2 := szs_sum_le (L := L) h.lay.fits
      omega
  · rename_i hle
    refine (costs_addRows c a.shape n d (by omega)).bind' (l' := 0) (h' := 2 + 2 * Layout.total L) (fun s' hs' => ?_)
      (by omega) (by omega)
    obtain ⟨s1, h1, h2, h3⟩ := h.weak.shape.addRows (c := c) (n := n) (by simp; omega) d
    rw [hs'] at h1
    cases h1
    refine Costs.bindPure ?_
    unfold Shape.addRowsReserve LvArray.Shape.addRowsReserve
    split
    · refine (Costs.thenOp (l := 0) (h := 1 + 2 * Layout.total L) fun _ _ => ?_).weaken (by omega) (by omega)
      refine (Costs.thenOp (l := 0) (h := 2 * Layout.total L) fun m hm => ?_).weaken (by omega) (by omega)
      have := h3.readOff (i := L.length) (by simp)
      rw [List.take_append_of_le_length (by simp), List.take_of_length_le (by simp), caps_sum] at this
      rw [h2, caps_length] at hm
      rw [this] at hm
      cases hm
      exact costs_bufferReserve c _ _ _
    · exact (costs_pure _).weaken (by omega) (by omega)

theorem costs_scanOffsets (c : Cfg) (capacities : List Nat) (o : Buf Nat) :
    Costs (Shape.scanOffsets c capacities o) (LvArray.Shape.scanOffsets c capacities o) 0 (capacities.length + 1) :=
  (Costs.thenOp (l := 0) (h := capacities.length) fun o' _ =>
    (costs_forUp_const 1 _ _ (fun _ _ => (costs_op _).weaken (by omega) (by omega)) o').weaken (by omega) (by omega)).weaken
    (by omega) (by omega)

theorem costs_fromCapacities (c : Cfg) (s : Shape) (capacities : List Nat) :
    Costs (Shape.fromCapacities c s capacities) (s.fromCapacities c capacities) 0 (4 + 6 * s.numArrays + 2 * capacities.length) := by
  unfold Shape.fromCapacities LvArray.Shape.fromCapacities
  have := offsetsSize_le s
  refine (costs_bufferReserve c.ix s.sizes _ _).bind' (l' := 0) (h' := 4 + 4 * s.numArrays + 2 * capacities.length) (fun z _ => ?_)
    (by omega) (by omega)
  refine (costs_destroy c.ix z _ _).bind' (l' := 0) (h' := 4 + 3 * s.numArrays + 2 * capacities.length) (fun z _ => ?_)
    (by omega) (by omega)
  refine (costs_forUp_const 1 _ _ (fun _ _ => (costs_op _).weaken (by omega) (by omega)) z).bind' (l' := 0)
    (h' := 4 + 3 * s.numArrays + capacities.length) (fun z _ => ?_) (by omega) (by omega)
  refine (costs_bufferReserve c.ix s.offsets _ _).bind' (l' := 0) (h' := 2 + s.numArrays + capacities.length) (fun o _ => ?_)
    (by omega) (by omega)
  refine (costs_destroy c.ix o _ _).bind' (l' := 0) (h' := 1 + capacities.length) (fun o _ => ?_)
    (by omega) (by omega)
  exact ((costs_scanOffsets c capacities o).bindPure).weaken (by omega) (by omega)

theorem costs_aoaFromCapacities {a : AoA T} {L : Layout T} (h : AGood a L) (capacities : List Nat) :
    Costs (AoA.resizeFromCapacities c a capacities) (a.resizeFromCapacities c capacities) 0
      (5 + 8 * L.length + Layout.total L + 2 * capacities.length) := by
  have hnum : a.shape.numArrays = L.length := h.shape.num.trans (by simp)
  unfold AoA.resizeFromCapacities LvArray.AoA.resizeFromCapacities
  have h2 := szs_sum_le (L := L) h.lay.fits
  refine (costs_destroyValues (l := szs L) (LShape.sizes h.shape) 0 a.shape.numArrays (by rw [hnum]; simp) a.values).bind' (l' := 0)
    (h' := 5 + 6 * L.length + 2 * capacities.length) (fun values _ => ?_) (by omega) (by rw [List.drop_zero]; omega)
  refine (costs_fromCapacities c a.shape capacities).bind' (l' := 0) (h' := 1) (fun s' _ => ?_) (by omega) (by omega)
  refine Costs.bindPure ?_
  unfold Shape.fromCapacitiesReserve LvArray.Shape.fromCapacitiesReserve
  exact (Costs.thenOp (l := 0) (h := 0) fun m hm => costs_bufferReserve c _ _ _).weaken (by omega) (by omega)

/-! ## Threads -/

/-- Whatever the order of the turns: if a turn costs no more than what the thread's budget decreases by, then the run of all threads costs
no more than their budgets. -/
theorem costs_interleave {σ τ : Type} {f : σ → τ → Counted (σ × τ)} {g : σ → τ → R (σ × τ)} (W D : τ → Nat)
    (H : ∀ s t, Costs (f s t) (g s t) 0 (D t)) (hW : ∀ s t r, g s t = .ok r → D t + W r.2 ≤ W t) :
    ∀ (sched : List Nat) (s : σ) (ts : List τ),
      Costs (interleave f s ts sched) (LvArray.interleave g s ts sched) 0 (ts.map W).sum
  | [], s, ts => (costs_pure _).weaken (by omega) (by omega)
  | k :: ks, s, ts => by
    rw [interleave, LvArray.interleave]
    by_cases hk : k < ts.length
    · simp only [List.getElem?_eq_getElem hk]
      refine ⟨?_, ?_⟩
      · intro n a ha
        cases hg : g s ts[k] with
        | error e => rw [hg] at ha; cases ha
        | ok r =>
          have hw := hW s _ r hg
          have hb := (H s ts[k]).bind (f := fun r => interleave f r.1 (ts.set k r.2) ks) (l' := 0)
            (h' := ((ts.set k r.2).map W).sum) (g := fun r => LvArray.interleave g r.1 (ts.set k r.2) ks)
            (fun r' hr' => by
              rw [hg] at hr'; cases hr'
              exact costs_interleave W D H hW ks r.1 (ts.set k r.2))
          obtain ⟨j, _, h2, h3⟩ := hb.returns n a ha
          refine ⟨j, Nat.zero_le _, ?_, h3⟩
          have := sum_set_map W ts k hk r.2
          omega
      · intro n e he
        cases hg : g s ts[k] with
        | error e' =>
          rw [hg] at he
          obtain rfl : e' = e := by cases he; rfl
          exact bind_of_error ((H s ts[k]).fails n e' hg)
        | ok r =>
          obtain ⟨j, _, _, h3⟩ := (H s ts[k]).returns n r hg
          rw [hg, bind_ok] at he
          show (f s ts[k] >>= _) n = _
          rw [bind_of_ok h3]
          exact (costs_interleave W D H hW ks r.1 (ts.set k r.2)).fails _ e he
    · simp only [List.getElem?_eq_none (Nat.le_of_not_lt hk)]
      exact costs_interleave W D H hW ks s ts
where
  sum_set_map (W : τ → Nat) (ts : List τ) (k : Nat) (hk : k < ts.length) (t : τ) :
      ((ts.set k t).map W).sum + W ts[k] = (ts.map W).sum + W t := by
    induction ts generalizing k with
    | nil => simp at hk
    | cons u ts ih =>
      cases k with
      | zero => simp; omega
      | succ k =>
        have := ih k (by simpa using hk)
        simp only [List.set_cons_succ, List.map_cons, List.sum_cons, List.getElem_cons_succ]
        omega

/-- What a thread in `emplaceBackAtomic` may still spend. -/
def appendBudget (t : Appender T) : Nat :=
  match t.calls, t.pc with
  | [], _ => 0
  | _ :: rest, .start => 6 + 6 * rest.length
  | _ :: rest, .addressed _ => 5 + 6 * rest.length
  | _ :: rest, .claimed _ _ => 3 + 6 * rest.length
  | _ :: rest, .checked _ _ => 1 + 6 * rest.length

/-- What one turn of it costs. -/
def turnCost (t : Appender T) : Nat :=
  match t.calls, t.pc with
  | [], _ => 0
  | _ :: _, .start => 1
  | _ :: _, .addressed _ => 2
  | _ :: _, .claimed _ _ => 2
  | _ :: _, .checked _ _ => 1

theorem costs_appendTurn (c : Cfg) (s : Shared T) (t : Appender T) :
    Costs (appendTurn c s t) (LvArray.Concurrent.appendTurn c s t) 0 (turnCost t) := by
  obtain ⟨calls, pc⟩ := t
  unfold appendTurn LvArray.Concurrent.appendTurn turnCost
  cases calls with
  | nil => exact costs_pure _
  | cons iv rest =>
    obtain ⟨i, v⟩ := iv
    cases pc with
    | start => exact Costs.thenFree ((costs_ptr s.view i).bindPure)
    | addressed p =>
      exact (Costs.thenOp (l := 0) (h := 1) fun n _ => (costs_setSize c s.view.shape i (n + 1)).bindPure).weaken (by omega) (Nat.le_refl 2)
    | claimed p n =>
      simp only
      split
      · exact ((costs_capacityOfArray c s.view.shape i).bind (fun k _ => Costs.thenFree (costs_pure _))).weaken (by omega) (Nat.le_refl 2)
      · exact (costs_pure _).weaken (by omega) (Nat.zero_le _)
    | checked p n => exact ((costs_emplaceBack c s.view.values p n v).bindPure).weaken (by omega) (Nat.le_refl 1)

theorem appendBudget_start (calls : List (Nat × T)) : appendBudget ⟨calls, .start⟩ = 6 * calls.length := by
  cases calls with
  | nil => rfl
  | cons _ rest => simp [appendBudget]; omega

theorem appendTurn_budget (c : Cfg) (s : Shared T) (t : Appender T) (r : Shared T × Appender T)
    (h : LvArray.Concurrent.appendTurn c s t = .ok r) : turnCost t + appendBudget r.2 ≤ appendBudget t := by
  obtain ⟨calls, pc⟩ := t
  unfold LvArray.Concurrent.appendTurn at h
  cases calls with
  | nil => cases h; exact Nat.le_of_eq (Nat.zero_add _)
  | cons iv rest =>
    obtain ⟨i, v⟩ := iv
    cases pc with
    | start =>
      obtain ⟨_, _, h⟩ := LvArray.bind_eq_ok.1 h
      obtain ⟨_, _, h⟩ := LvArray.bind_eq_ok.1 h
      cases h
      simp only [turnCost, appendBudget]; omega
    | addressed p =>
      obtain ⟨_, _, h⟩ := LvArray.bind_eq_ok.1 h
      obtain ⟨_, _, h⟩ := LvArray.bind_eq_ok.1 h
      cases h
      simp only [turnCost, appendBudget]; omega
    | claimed p n =>
      simp only at h
      split at h
      · obtain ⟨_, _, h⟩ := LvArray.bind_eq_ok.1 h
        obtain ⟨_, _, h⟩ := LvArray.bind_eq_ok.1 h
        cases h
        simp only [turnCost, appendBudget]; omega
      · cases h
        simp only [turnCost, appendBudget]; omega
    | checked p n =>
      obtain ⟨_, _, h⟩ := LvArray.bind_eq_ok.1 h
      cases h
      simp only [turnCost]
      rw [appendBudget_start]
      simp only [appendBudget]; omega

namespace Mesh

theorem sum_map_calls (mesh : List (List Nat)) : ∀ k : Nat,
    ((appenders ((mesh.mapIdx fun i l => LvArray.Mesh.callsOf (k + i) l))).map appendBudget).sum = 6 * (mesh.map List.length).sum := by
  induction mesh with
  | nil => intro k; rfl
  | cons nodes mesh ih =>
    intro k
    have := ih (k + 1)
    simp only [List.mapIdx_cons, appenders, List.map_cons, List.sum_cons, appendBudget_start, LvArray.Mesh.callsOf, List.length_map] at this ⊢
    have e : ∀ i, k + 1 + i = k + (i + 1) := by intro i; omega
    simp only [e] at this
    omega

theorem costs_fill (c : Cfg) (a : AoA Nat) (mesh : List (List Nat)) (sched : List Nat) :
    Costs (fill c a mesh sched) (LvArray.Mesh.fill c a mesh sched) 0 (6 * (mesh.map List.length).sum) := by
  have h := costs_interleave appendBudget turnCost (costs_appendTurn c) (appendTurn_budget c) sched (⟨a, []⟩ : Shared Nat)
    (appenders (mesh.mapIdx LvArray.Mesh.callsOf))
  have e := sum_map_calls mesh 0
  simp only [Nat.zero_add] at e
  rw [show (mesh.mapIdx fun i l => LvArray.Mesh.callsOf i l) = mesh.mapIdx LvArray.Mesh.callsOf from rfl] at e
  rwa [e] at h

theorem costs_overAllocation {a : AoA Nat} {L : Layout Nat} (h : AGood a L) (mesh : List (List Nat)) (n d : Nat) (sched : List Nat) :
    Costs (overAllocation c a mesh n d sched) (LvArray.Mesh.overAllocation c a mesh n d sched) 0
      (6 + 8 * L.length + 3 * n + 2 * Layout.total L + 6 * (mesh.map List.length).sum) :=
  (costs_aoaResize h n d).bind' (fun a' _ => costs_fill c a' mesh sched) (by omega) (by omega)

theorem costs_countTurn (c : Cfg) (e : Array1 Nat) (nodes : List Nat) :
    Costs (countTurn c e nodes) (LvArray.Mesh.countTurn c e nodes) 0 (if nodes = [] then 0 else 2) := by
  unfold countTurn LvArray.Mesh.countTurn
  cases nodes with
  | nil => exact costs_pure _
  | cons n rest =>
    rw [if_neg (by simp)]
    exact (Costs.thenOp (l := 0) (h := 1) fun k _ => ((costs_op _).bindPure).weaken (by omega) (by omega)).weaken (by omega) (by omega)

theorem countTurn_budget (c : Cfg) (e : Array1 Nat) (nodes : List Nat) (r : Array1 Nat × List Nat)
    (h : LvArray.Mesh.countTurn c e nodes = .ok r) : (if nodes = [] then 0 else 2) + 2 * r.2.length ≤ 2 * nodes.length := by
  unfold LvArray.Mesh.countTurn at h
  cases nodes with
  | nil => cases h; simp
  | cons n rest =>
    obtain ⟨_, _, h⟩ := LvArray.bind_eq_ok.1 h
    obtain ⟨_, _, h⟩ := LvArray.bind_eq_ok.1 h
    cases h
    simp; omega

theorem countTurn_size (c : Cfg) (e : Array1 Nat) (nodes : List Nat) (r : Array1 Nat × List Nat)
    (h : LvArray.Mesh.countTurn c e nodes = .ok r) : r.1.size = e.size := by
  unfold LvArray.Mesh.countTurn at h
  cases nodes with
  | nil => cases h; rfl
  | cons n rest =>
    obtain ⟨_, _, h⟩ := LvArray.bind_eq_ok.1 h
    obtain ⟨_, h1, h⟩ := LvArray.bind_eq_ok.1 h
    cases h
    obtain ⟨_, _, h1⟩ := LvArray.bind_eq_ok.1 h1
    obtain ⟨_, _, h1⟩ := LvArray.bind_eq_ok.1 h1
    cases h1
    rfl

theorem interleave_count_size (c : Cfg) : ∀ (sched : List Nat) (e : Array1 Nat) (ts : List (List Nat)) (r : Array1 Nat × List (List Nat)),
    LvArray.interleave (LvArray.Mesh.countTurn c) e ts sched = .ok r → r.1.size = e.size
  | [], e, ts, r, h => by cases h; rfl
  | k :: ks, e, ts, r, h => by
    unfold LvArray.interleave at h
    split at h
    · exact interleave_count_size c ks e ts r h
    · obtain ⟨q, h1, h⟩ := LvArray.bind_eq_ok.1 h
      rw [interleave_count_size c ks q.1 _ r h, countTurn_size c e _ q h1]

theorem sum_two_mul (mesh : List (List Nat)) : (mesh.map fun l => 2 * l.length).sum = 2 * (mesh.map List.length).sum := by
  induction mesh with
  | nil => rfl
  | cons l mesh ih => simp only [List.map_cons, List.sum_cons, ih]; omega

theorem costs_counters (c : Cfg) (n : Nat) : Costs (counters c n) ((Array1.init Nat none).resizeDefault c n 0) 0 n := by
  unfold counters Array1.resizeDefault
  refine Costs.thenFree ?_
  refine (costs_bufferResize c _ _ _ 0).bindPure.weaken (by omega) ?_
  show 2 * 0 + ((0 - (n : Int).toNat) + ((n : Int).toNat - 0)) ≤ n
  omega

theorem costs_countElements (c : Cfg) (mesh : List (List Nat)) (n : Nat) (sched : List Nat) :
    Costs (countElements c mesh n sched) (LvArray.Mesh.countElements c mesh n sched) 0 (n + 2 * (mesh.map List.length).sum) :=
  (costs_counters c n).bind' (fun e _ => costs_interleave (fun l => 2 * l.length) _ (costs_countTurn c) (countTurn_budget c) sched e mesh)
    (by omega) (by rw [sum_two_mul]; omega)

theorem countElements_size (c : Cfg) (mesh : List (List Nat)) (n : Nat) (sched : List Nat) (r : Array1 Nat × List (List Nat))
    (h : LvArray.Mesh.countElements c mesh n sched = .ok r) : r.1.size = n := by
  obtain ⟨e, h1, h⟩ := LvArray.bind_eq_ok.1 h
  rw [interleave_count_size c sched e mesh r h]
  obtain ⟨_, _, h1⟩ := LvArray.bind_eq_ok.1 h1
  obtain ⟨_, _, h1⟩ := LvArray.bind_eq_ok.1 h1
  cases h1
  simp

theorem costs_capacitiesFrom (e : Array1 Nat) : ∀ (k i : Nat),
    Costs (capacitiesFrom e i k) (LvArray.Mesh.capacitiesFrom e i k) 0 k
  | 0, i => costs_pure _
  | k + 1, i => by
    unfold capacitiesFrom LvArray.Mesh.capacitiesFrom
    exact (Costs.thenOp (l := 0) (h := k) fun n _ => (costs_capacitiesFrom e k (i + 1)).bindPure).weaken (by omega) (by omega)

theorem capacitiesFrom_length (e : Array1 Nat) : ∀ (k i : Nat) (r : List Nat), LvArray.Mesh.capacitiesFrom e i k = .ok r → r.length = k
  | 0, i, r, h => by cases h; rfl
  | k + 1, i, r, h => by
    unfold LvArray.Mesh.capacitiesFrom at h
    obtain ⟨n, _, h⟩ := LvArray.bind_eq_ok.1 h
    obtain ⟨ns, h1, h⟩ := LvArray.bind_eq_ok.1 h
    cases h
    simp [capacitiesFrom_length e k (i + 1) ns h1]

theorem costs_resizeFromCapacities {a : AoA Nat} {L : Layout Nat} (h : AGood a L) (mesh : List (List Nat)) (n : Nat) (sched₁ sched₂ : List Nat) :
    Costs (resizeFromCapacities c a mesh n sched₁ sched₂) (LvArray.Mesh.resizeFromCapacities c a mesh n sched₁ sched₂) 0
      (5 + 8 * L.length + Layout.total L + 4 * n + 8 * (mesh.map List.length).sum) := by
  unfold resizeFromCapacities LvArray.Mesh.resizeFromCapacities
  refine (costs_countElements c mesh n sched₁).bind' (l' := 0)
    (h' := 5 + 8 * L.length + Layout.total L + 3 * n + 6 * (mesh.map List.length).sum) (fun r hr => ?_) (by omega) (by omega)
  have hs := countElements_size c mesh n sched₁ r hr
  obtain ⟨e, left⟩ := r
  simp only at hs
  subst hs
  refine (costs_capacitiesFrom e _ _).bind' (l' := 0)
    (h' := 5 + 8 * L.length + Layout.total L + 2 * e.size + 6 * (mesh.map List.length).sum) (fun cs hcs => ?_) (by omega) (by omega)
  have hl := capacitiesFrom_length e _ _ cs hcs
  refine (costs_aoaFromCapacities (c := c) h cs).bind' (l' := 0) (h' := 6 * (mesh.map List.length).sum) (fun a' _ => ?_)
    (by omega) (by omega)
  refine (costs_fill c a' mesh sched₂).bind' (l' := 0) (h' := 0) (fun r _ => ?_) (by omega) (by omega)
  exact costs_pure _

/-! ## Without preallocation -/

/-- An upper bound on the capacities that grows by at most two with each element. -/
def bulk (L : Layout Nat) : Nat := (L.map fun r => max r.2 (2 * r.1.length)).sum

theorem bulk_append (A B : Layout Nat) : bulk (A ++ B) = bulk A + bulk B := by simp [bulk]

theorem bulk_cons (r : List Nat × Nat) (B : Layout Nat) : bulk (r :: B) = max r.2 (2 * r.1.length) + bulk B := by simp [bulk]

theorem total_le_bulk (L : Layout Nat) : Layout.total L ≤ bulk L := by
  induction L with
  | nil => simp [bulk]
  | cons r L ih => rw [total_cons, bulk_cons]; omega

theorem bulk_le {L : Layout Nat} (h : ∀ r ∈ L, r.1.length ≤ r.2) : bulk L ≤ 2 * Layout.total L := by
  induction L with
  | nil => simp [bulk]
  | cons r L ih =>
    have h1 := h r (by simp)
    have h2 := ih (fun r hr => h r (by simp [hr]))
    rw [total_cons, bulk_cons]; omega

theorem emplaceBack_step {a a' : AoA Nat} {L : Layout Nat} (h : AGood a L) {i : Nat} (hi : i < L.length) (v : Nat)
    (ha : a.emplaceBack c i v = .ok a') : ∃ L', AGood a' L' ∧ L'.length = L.length ∧ bulk L' ≤ bulk L + 2 := by
  obtain ⟨A, xs, cap, B, rfl, rfl, _⟩ := split1 hi
  have hf := h.lay.fits (xs, cap) (by simp)
  simp only at hf
  rcases h.emplaceBack (c := c) v with ⟨_, b, hb, hg, _⟩ | ⟨_, hb⟩
  · rw [ha] at hb; cases hb
    refine ⟨_, hg, by simp, ?_⟩
    simp only [bulk_append, bulk_cons, List.length_append, List.length_singleton]
    have : AGood.grownTo xs cap 1 ≤ max cap (2 * (xs.length + 1)) := by
      unfold AGood.grownTo; split <;> omega
    omega
  · rw [ha] at hb; cases hb

theorem costs_emplaceBackAt {a : AoA Nat} {L : Layout Nat} (h : AGood a L) {i : Nat} (hi : i < L.length) (v : Nat) :
    Costs (AoA.emplaceBack c a i v) (a.emplaceBack c i v) 0 (16 + 4 * L.length + 4 * bulk L) := by
  obtain ⟨A, xs, cap, B, rfl, rfl, _⟩ := split1 hi
  refine (costs_emplaceBackRow (c := c) h v).weaken (Nat.zero_le _) ?_
  have h1 := roomCost_le (A ++ (xs, cap) :: B) (cap < xs.length + 1)
  have h2 := total_le_bulk (A ++ (xs, cap) :: B)
  omega

/-- `k` calls, each at most `16 + 4 n + 4 M`. -/
theorem costs_naiveElement (c : Cfg) (e N M : Nat) (nodes : List Nat) :
    ∀ {a : AoA Nat} {L : Layout Nat}, AGood a L → L.length = N → (∀ n ∈ nodes, n < N) → bulk L + 2 * nodes.length ≤ M →
      Costs (naiveElement c e a nodes) (LvArray.Mesh.naiveElement c e a nodes) 0 (nodes.length * (16 + 4 * N + 4 * M)) := by
  induction nodes with
  | nil => intro a L h _ _ _; exact (costs_pure a).weaken (by omega) (by omega)
  | cons n nodes ih =>
    intro a L h hN hn hM
    simp only [List.length_cons] at hM ⊢
    have hi : n < L.length := by rw [hN]; exact hn n (by simp)
    rw [naiveElement, LvArray.Mesh.naiveElement]
    refine (costs_emplaceBackAt h hi e).bind' (l' := 0) (h' := nodes.length * (16 + 4 * N + 4 * M)) (fun a' ha => ?_) (by omega)
      (by rw [Nat.add_mul nodes.length 1]; omega)
    obtain ⟨L', h1, h2, h3⟩ := emplaceBack_step h hi e ha
    exact ih h1 (by omega) (fun m hm => hn m (by simp [hm])) (by omega)

theorem naiveElement_step (c : Cfg) (e : Nat) (nodes : List Nat) :
    ∀ {a a' : AoA Nat} {L : Layout Nat}, AGood a L → (∀ n ∈ nodes, n < L.length) → LvArray.Mesh.naiveElement c e a nodes = .ok a' →
      ∃ L', AGood a' L' ∧ L'.length = L.length ∧ bulk L' ≤ bulk L + 2 * nodes.length := by
  induction nodes with
  | nil => intro a a' L h _ ha; cases ha; exact ⟨L, h, rfl, by simp⟩
  | cons n nodes ih =>
    intro a a' L h hn ha
    rw [LvArray.Mesh.naiveElement] at ha
    obtain ⟨a1, h1, ha⟩ := LvArray.bind_eq_ok.1 ha
    obtain ⟨L1, h2, h3, h4⟩ := emplaceBack_step h (hn n (by simp)) e h1
    obtain ⟨L2, h5, h6, h7⟩ := ih h2 (fun m hm => by rw [h3]; exact hn m (by simp [hm])) ha
    exact ⟨L2, h5, by omega, by simp only [List.length_cons]; omega⟩

theorem costs_naiveLoop (c : Cfg) (N M : Nat) (mesh : List (List Nat)) :
    ∀ (e : Nat) {a : AoA Nat} {L : Layout Nat}, AGood a L → L.length = N → OnNodes mesh N →
      bulk L + 2 * (mesh.map List.length).sum ≤ M →
      Costs (naiveLoop c e a mesh) (LvArray.Mesh.naiveLoop c e a mesh) 0 ((mesh.map List.length).sum * (16 + 4 * N + 4 * M)) := by
  induction mesh with
  | nil => intro e a L h _ _ _; exact (costs_pure a).weaken (by omega) (by omega)
  | cons nodes mesh ih =>
    intro e a L h hN hn hM
    simp only [List.map_cons, List.sum_cons] at hM ⊢
    rw [naiveLoop, LvArray.Mesh.naiveLoop]
    have hnodes := hn nodes (by simp)
    refine (costs_naiveElement c e N M nodes h hN hnodes (by omega)).bind' (l' := 0)
      (h' := (mesh.map List.length).sum * (16 + 4 * N + 4 * M)) (fun a' ha => ?_) (by omega) (by rw [Nat.add_mul]; omega)
    obtain ⟨L', h1, h2, h3⟩ := naiveElement_step c e nodes h (by rw [hN]; exact hnodes) ha
    exact ih (e + 1) h1 (by omega) (fun x hx => hn x (by simp [hx])) (by omega)

theorem resize_step {a a' : AoA Nat} {L : Layout Nat} (h : AGood a L) (n : Nat) (ha : a.resize c n 0 = .ok a') :
    ∃ L', AGood a' L' ∧ L'.length = n ∧ bulk L' ≤ bulk L := by
  by_cases hn : n < L.length
  · have e : L = L.take n ++ L.drop n := by simp
    have hl : (L.take n).length = n := by simp; omega
    have h' := h.weak
    rw [e] at h'
    obtain ⟨a1, h1, h2, _⟩ := h'.resizeShrink (c := c) (by simp; omega) 0
    rw [hl, ha] at h1
    cases h1
    refine ⟨_, h2, hl, ?_⟩
    conv => rhs; rw [e, bulk_append]
    omega
  · rcases h.weak.resizeGrow (c := c) n 0 (by omega) with ⟨_, b, hb, hg, _⟩ | ⟨_, hb⟩
    · rw [ha] at hb; cases hb
      refine ⟨_, hg, by simp; omega, ?_⟩
      rw [bulk_append]
      have : bulk (List.replicate (n - L.length) ([], 0)) = 0 := by simp [bulk]
      omega
    · rw [ha] at hb; cases hb

theorem costs_naive {a : AoA Nat} {L : Layout Nat} (h : AGood a L) (mesh : List (List Nat)) (N : Nat) (hm : OnNodes mesh N) :
    Costs (naive c a mesh N) (LvArray.Mesh.naive c a mesh N) 0
      (6 + 8 * L.length + 3 * N + 2 * Layout.total L +
        (mesh.map List.length).sum * (16 + 4 * N + 4 * (2 * Layout.total L + 2 * (mesh.map List.length).sum))) := by
  refine (costs_aoaResize h N 0).bind' (fun a' ha => ?_) (l' := 0) (by omega) (Nat.le_refl _)
  obtain ⟨L', h1, h2, h3⟩ := resize_step h N ha
  have := bulk_le h.lay.fits
  exact costs_naiveLoop c N _ mesh 0 h1 h2 hm (by omega)

/-! ### How much it is at least -/

/-- A mesh of points: element `e` has the only node `e`. -/
def points (n : Nat) : List (List Nat) := (List.range n).map fun e => [e]

/-- Rows `i, ..., i + k - 1` are empty without capacity and get one element each. -/
theorem costs_pointsLoop (c : Cfg) : ∀ (k : Nat) {a : AoA Nat} {A : Layout Nat}, AGood a (A ++ List.replicate k ([], 0)) →
    Costs (naiveLoop c A.length a ((List.range' A.length k).map fun e => [e]))
      (LvArray.Mesh.naiveLoop c A.length a ((List.range' A.length k).map fun e => [e])) (k * (k + 1))
      (k * (16 + 4 * (A.length + k) + 4 * (bulk A + 2 * k)))
  | 0, a, A, h => (costs_pure a).weaken (by omega) (by omega)
  | k + 1, a, A, h => by
    have hup : bulk (A ++ List.replicate (k + 1) (([] : List Nat), 0)) = bulk A := by
      rw [bulk_append]; simp [bulk]
    rw [List.range'_succ, List.map_cons, naiveLoop, LvArray.Mesh.naiveLoop]
    have h' : AGood a (A ++ ([], 0) :: List.replicate k ([], 0)) := by rw [← List.replicate_succ]; exact h
    have e1 : ∀ a : AoA Nat, naiveElement c A.length a [A.length] = (AoA.emplaceBack c a A.length A.length >>= fun a => pure a) := fun _ => rfl
    have e2 : ∀ a : AoA Nat, LvArray.Mesh.naiveElement c A.length a [A.length] = (a.emplaceBack c A.length A.length >>= fun a => .ok a) := fun _ => rfl
    rw [e1, e2]
    have hc := (costs_emplaceBackRow (c := c) h' A.length)
    rw [if_pos (by simp), List.length_replicate] at hc
    have hc1 : Costs (AoA.emplaceBack c a A.length A.length >>= fun a => pure a) (a.emplaceBack c A.length A.length >>= fun a => .ok a)
      (2 * (k + 1)) (16 + 4 * (A.length + (k + 1)) + 4 * bulk A) := by
      refine Costs.bindPure (f := fun x => x) (hc.weaken (Nat.le_refl _) ?_)
      have h1 := roomCost_le (A ++ (([] : List Nat), 0) :: List.replicate k ([], 0)) (0 < ([] : List Nat).length + 1)
      have h2 := total_le_bulk (A ++ ([], 0) :: List.replicate k ([], 0))
      rw [← List.replicate_succ, hup] at h2
      rw [← List.replicate_succ] at h1 ⊢
      simp only [List.length_append, List.length_replicate] at h1 ⊢
      omega
    refine hc1.bind' (l' := k * (k + 1)) (h' := k * (16 + 4 * (A.length + 1 + k) + 4 * (bulk A + 2 + 2 * k))) (fun a' ha => ?_) ?_ ?_
    · obtain ⟨a1, ha1, ha⟩ := LvArray.bind_eq_ok.1 ha
      cases ha
      rcases h'.emplaceBack (c := c) A.length with ⟨_, b, hb, hg, _⟩ | ⟨_, hb⟩
      · rw [ha1] at hb; cases hb
        have hg' : AGood a' ((A ++ [([] ++ [A.length], AGood.grownTo ([] : List Nat) 0 1)]) ++ List.replicate k ([], 0)) := by simpa using hg
        have := costs_pointsLoop c k hg'
        rw [bulk_append] at this
        simp only [List.length_append, List.length_singleton] at this
        refine this.weaken (Nat.le_refl _) (Nat.le_of_eq ?_)
        have e : bulk [([] ++ [A.length], AGood.grownTo ([] : List Nat) 0 1)] = 2 := by simp [bulk, AGood.grownTo]
        rw [e]
      · rw [ha1] at hb; cases hb
    · have e : (k + 1) * (k + 1 + 1) = k * (k + 1) + 2 * (k + 1) := by
        rw [Nat.succ_mul, Nat.mul_succ k (k + 1)]; omega
      omega
    · rw [Nat.add_mul k 1]
      have e : 16 + 4 * (A.length + 1 + k) + 4 * (bulk A + 2 + 2 * k) = 16 + 4 * (A.length + (k + 1)) + 4 * (bulk A + 2 * (k + 1)) := by omega
      rw [e]
      omega

theorem costs_points {a : AoA Nat} (h : AGood a []) (n : Nat) :
    Costs (naive c a (points n) n) (LvArray.Mesh.naive c a (points n) n) (n * (n + 1))
      (6 + 3 * n + n * (16 + 12 * n)) := by
  unfold naive LvArray.Mesh.naive
  refine (costs_aoaResize h n 0).bind' (l' := n * (n + 1)) (h' := n * (16 + 12 * n)) (fun a' ha => ?_) (by omega) (by simp)
  rcases h.weak.resizeGrow (c := c) n 0 (by simp) with ⟨_, b, hb, hg, _⟩ | ⟨_, hb⟩
  · rw [ha] at hb; cases hb
    have := costs_pointsLoop c n (A := []) (a := a') (by simpa using hg)
    simp only [List.length_nil, Nat.zero_add] at this
    rw [← List.range_eq_range'] at this
    refine this.weaken (Nat.le_refl _) (Nat.le_of_eq ?_)
    congr 1
    simp [bulk]; omega
  · rw [ha] at hb; cases hb

end Mesh

end LvArray.Counted

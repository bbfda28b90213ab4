import Verif.CountedRows
/-!
# What appending rows costs

Helper lemmas for the property that operations have the documented costs: appending a row costs a constant
number of operations besides the relocations of the three buffers, and those are paid for by the capacity that
is left behind.
-/

namespace LvArray.Counted

open LvArray.Spec LvArray.Layout

variable {T : Type} {c : Cfg} {a : AoA T} {L A B : Layout T}

/-! ## Capacities -/

/-- The result, if there is one, is in the same allocation as `b`. -/
def KeepsCap (b : Buf T) (x : R (Buf T)) : Prop := ∀ b', x = .ok b' → b'.cap = b.cap ∧ b'.kind = b.kind

theorem keepsCap_ok (b : Buf T) : KeepsCap b (.ok b) := fun _ h => by cases h; exact ⟨rfl, rfl⟩

theorem KeepsCap.bind {b : Buf T} {x : R (Buf T)} {f : Buf T → R (Buf T)} (h : KeepsCap b x) (hf : ∀ b', KeepsCap b' (f b')) :
    KeepsCap b (x >>= f) := fun b' e => by
  obtain ⟨b1, h1, h2⟩ := bind_eq_ok.mp e
  exact ⟨by rw [(hf b1 b' h2).1, (h b1 h1).1], by rw [(hf b1 b' h2).2, (h b1 h1).2]⟩

theorem keepsCap_forUp {f : Nat → Buf T → R (Buf T)} (hf : ∀ i b, KeepsCap b (f i b)) : ∀ n lo b, KeepsCap b (LvArray.forUp n lo f b)
  | 0, _, b => keepsCap_ok b
  | n + 1, lo, b => (hf lo b).bind (fun b' => keepsCap_forUp hf n (lo + 1) b')

theorem keepsCap_forDown {f : Nat → Buf T → R (Buf T)} (hf : ∀ i b, KeepsCap b (f i b)) : ∀ n lo b, KeepsCap b (LvArray.forDown n lo f b)
  | 0, _, b => keepsCap_ok b
  | n + 1, lo, b => (hf (lo + n) b).bind (fun b' => keepsCap_forDown hf n lo b')

theorem keepsCap_construct (b : Buf T) (i : Nat) (v : T) : KeepsCap b (b.construct c i v) := fun b' h => by
  unfold Buf.construct at h
  split at h
  · cases h; exact ⟨rfl, rfl⟩
  · cases h

theorem keepsCap_destroyAt (b : Buf T) (i : Nat) : KeepsCap b (b.destroyAt c i) := fun b' h => by
  unfold Buf.destroyAt at h
  split at h
  · cases h; exact ⟨rfl, rfl⟩
  · split at h
    · split at h <;> first | (cases h; exact ⟨rfl, rfl⟩) | cases h
    · cases h

theorem keepsCap_moveConstruct (b : Buf T) (i j : Nat) : KeepsCap b (b.moveConstruct c i j) := fun b' h => by
  unfold Buf.moveConstruct at h
  split at h
  · split at h
    · split at h <;> first | (cases h; exact ⟨rfl, rfl⟩) | cases h
    · cases h; exact ⟨rfl, rfl⟩
    · cases h; exact ⟨rfl, rfl⟩
  · cases h

theorem keepsCap_resize (b : Buf T) (p size n : Nat) (v : T) : KeepsCap b (LvArray.arrayManipulation.resize c b p size n v) :=
  KeepsCap.bind (keepsCap_forUp (fun i b => keepsCap_destroyAt b i) _ _ _)
    (fun b' => keepsCap_forUp (fun i b => keepsCap_construct b i _) _ _ b')

theorem keepsCap_append [Inhabited T] (b : Buf T) (p size : Nat) (vs : List T) :
    KeepsCap b (LvArray.arrayManipulation.append c b p size vs) :=
  keepsCap_forUp (fun i b => keepsCap_construct b i _) _ _ _

theorem keepsCap_emplaceBack (b : Buf T) (p size : Nat) (v : T) :
    KeepsCap b (LvArray.arrayManipulation.emplaceBack c b p size v) := fun b' h => by
  unfold LvArray.arrayManipulation.emplaceBack at h
  obtain ⟨_, _, h2⟩ := bind_eq_ok.mp h
  exact keepsCap_construct b _ v b' h2

/-- The capacity a buffer has at least after room was made for `size + k` elements. -/
def grownCap (cap size k : Nat) : Nat := if cap < size + k then 2 * (size + k) else cap

theorem moveAcross_cap {i : Nat} {s s' : Buf T × Buf T} (h : moveAcross c i s = .ok s') : s'.1.cap = s.1.cap := by
  obtain ⟨d, q⟩ := s
  unfold moveAcross at h
  simp only at h
  split at h
  · split at h
    · split at h <;> first | (cases h; rfl) | cases h
    · cases h; rfl
    · cases h; rfl
  · cases h

theorem forUp_moveAcross_cap : ∀ n lo (s s' : Buf T × Buf T), LvArray.forUp n lo (moveAcross c) s = .ok s' → s'.1.cap = s.1.cap
  | 0, _, _, _, h => by cases h; rfl
  | n + 1, lo, s, s', h => by
    obtain ⟨s1, h1, h2⟩ := bind_eq_ok.mp (show (moveAcross c lo s >>= LvArray.forUp n (lo + 1) (moveAcross c)) = .ok s' from h)
    rw [forUp_moveAcross_cap n (lo + 1) s1 s' h2, moveAcross_cap h1]

theorem reallocate_cap {b b' : Buf T} {size n : Nat} (h : b.reallocate c size n = .ok b') : n ≤ b'.cap := by
  unfold Buf.reallocate at h
  split at h
  · obtain ⟨_, h1, h2⟩ := bind_eq_ok.mp h
    cases h2
    unfold errorIf at h1
    split at h1
    · cases h1
    · rename_i hn; simpa using hn
  · obtain ⟨⟨nb, ob⟩, h1, h2⟩ := bind_eq_ok.mp h
    obtain ⟨ob', _, h4⟩ := bind_eq_ok.mp h2
    cases h4
    have := forUp_moveAcross_cap _ _ _ _ h1
    simp only at this ⊢
    omega

theorem dynamicReserve_cap {b b' : Buf T} {size k : Nat} (h : LvArray.bufferManipulation.dynamicReserve c b size (size + k) = .ok b') :
    grownCap b.cap size k ≤ b'.cap := by
  unfold LvArray.bufferManipulation.dynamicReserve at h
  obtain ⟨_, _, h⟩ := bind_eq_ok.mp h
  unfold grownCap
  split at h
  · rename_i hlt
    rw [if_pos hlt]
    unfold LvArray.bufferManipulation.setCapacity at h
    obtain ⟨_, _, h⟩ := bind_eq_ok.mp h
    exact reallocate_cap h
  · rename_i hlt
    rw [if_neg hlt]
    cases h
    exact Nat.le_refl _

theorem bufferEmplaceBack_cap {b b' : Buf T} {size : Nat} {v : T} (h : LvArray.bufferManipulation.emplaceBack c b size v = .ok b') :
    grownCap b.cap size 1 ≤ b'.cap := by
  unfold LvArray.bufferManipulation.emplaceBack at h
  obtain ⟨_, _, h⟩ := bind_eq_ok.mp h
  obtain ⟨b1, h1, h2⟩ := bind_eq_ok.mp h
  rw [(keepsCap_emplaceBack _ _ _ _ b' h2).1]
  exact dynamicReserve_cap h1

theorem appendRow_cap {s s' : Shape} (h : s.appendRow c = .ok s') :
    grownCap s.offsets.cap (s.numArrays + 1) 1 ≤ s'.offsets.cap ∧ grownCap s.sizes.cap s.numArrays 1 ≤ s'.sizes.cap := by
  unfold LvArray.Shape.appendRow at h
  obtain ⟨_, _, h⟩ := bind_eq_ok.mp h
  obtain ⟨o, h1, h⟩ := bind_eq_ok.mp h
  obtain ⟨z, h2, h⟩ := bind_eq_ok.mp h
  cases h
  exact ⟨bufferEmplaceBack_cap h1, bufferEmplaceBack_cap h2⟩

/-! ## Growing the last row -/

/-- What relocating a buffer of `size` elements costs when `k` more do not fit. -/
def relocation (cap size k : Nat) : Nat := if cap < size + k then 2 * size else 0

theorem costs_shiftRowsUp_last {s : Shape} {X : Type} {i amount : Nat} {b : Buf X} (hi : s.numArrays = i + 1) :
    Costs (Shape.shiftRowsUp c s i amount b) (s.shiftRowsUp c i amount b) 0 0 := by
  unfold Shape.shiftRowsUp LvArray.Shape.shiftRowsUp
  rw [show s.numArrays - 1 - i = 0 by omega]
  exact costs_pure b

theorem shiftRowsUp_last {s : Shape} {X : Type} {i amount : Nat} {b : Buf X} (hi : s.numArrays = i + 1) :
    s.shiftRowsUp c i amount b = .ok b := by
  unfold LvArray.Shape.shiftRowsUp
  rw [show s.numArrays - 1 - i = 0 by omega]
  rfl

theorem costs_setCapacityLast (h : AGood a (L ++ [([], 0)])) (n : Nat) :
    Costs (AoA.setCapacityOfArray c a L.length n) (a.setCapacityOfArray c L.length n) 0 (5 + relocation a.values.cap (Layout.total L) n) := by
  have hnum : a.shape.numArrays = L.length + 1 := by rw [h.shape.num]; simp
  have hr := h.shape.readOff' (i := a.shape.numArrays) (by rw [h.shape.num]; exact Nat.le_refl _)
  rw [h.shape.num, List.take_length] at hr
  have hM : Layout.total (L ++ [([], 0)]) = Layout.total L := by simp
  unfold AoA.setCapacityOfArray LvArray.AoA.setCapacityOfArray
  refine Costs.thenFree ?_
  refine (costs_capacityOfArray c a.shape L.length).bind' (l' := 0) (h' := 3 + relocation a.values.cap (Layout.total L) n)
    (fun k hk => ?_) (by omega) (by omega)
  rw [h.shape.capacityOfAt rfl] at hk
  cases hk
  simp only
  split
  · exact (costs_pure a).weaken (by omega) (by omega)
  · rename_i hn0
    rw [if_pos (by omega), if_pos (by omega)]
    have hg : Costs (Shape.growRow c a.shape L.length (n - 0) a.values) (a.shape.growRow c L.length (n - 0) a.values) 0
        (1 + relocation a.values.cap (Layout.total L) n) := by
      unfold Shape.growRow LvArray.Shape.growRow
      refine (Costs.thenOp (l := 0) (h := relocation a.values.cap (Layout.total L) n) fun off hoff => ?_).weaken (by omega) (by omega)
      rw [h.shape.num, hr] at hoff
      cases hoff
      rw [hM]
      exact (costs_dynamicReserve c a.values _ _).bind' (l' := 0) (fun b _ => costs_shiftRowsUp_last hnum) (by omega)
        (by unfold relocation; simp)
    refine hg.bind' (l' := 0) (h' := 2) (fun b _ => ?_) (by omega) (by omega)
    refine (costs_updateOffsets c a.shape L.length _).bindPure.weaken (by omega) ?_
    omega

theorem keepsCap_write (b : Buf T) (i : Nat) (v : T) : KeepsCap b (b.write c i v) := fun b' h => by
  unfold Buf.write at h
  split at h
  · split at h
    · cases h
    · cases h; exact ⟨rfl, rfl⟩
  · cases h

theorem updateOffsets_cap {s s' : Shape} {i : Nat} {f : Nat → Nat} (h : s.updateOffsets c i f = .ok s') :
    s'.offsets.cap = s.offsets.cap ∧ s'.sizes = s.sizes := by
  unfold LvArray.Shape.updateOffsets at h
  obtain ⟨o, h1, h2⟩ := bind_eq_ok.mp h
  cases h2
  refine ⟨(keepsCap_forUp (f := _) (fun i b => ?_) _ _ _ _ h1).1, rfl⟩
  intro b' hb
  obtain ⟨x, _, hx⟩ := bind_eq_ok.mp hb
  exact keepsCap_write b i _ b' hx

theorem setCapacityLast_cap (h : AGood a (L ++ [([], 0)])) {n : Nat} {a' : AoA T} (ha : a.setCapacityOfArray c L.length n = .ok a') :
    grownCap a.values.cap (Layout.total L) n ≤ a'.values.cap ∧ a'.shape.offsets.cap = a.shape.offsets.cap ∧ a'.shape.sizes = a.shape.sizes := by
  have hnum : a.shape.numArrays = L.length + 1 := by rw [h.shape.num]; simp
  have hr := h.shape.readOff' (i := a.shape.numArrays) (by rw [h.shape.num]; exact Nat.le_refl _)
  rw [h.shape.num, List.take_length] at hr
  have hM : Layout.total (L ++ [([], 0)]) = Layout.total L := by simp
  have hroom := h.lay.room
  rw [hM] at hroom
  unfold LvArray.AoA.setCapacityOfArray at ha
  obtain ⟨_, _, ha⟩ := bind_eq_ok.mp ha
  obtain ⟨k, hk, ha⟩ := bind_eq_ok.mp ha
  rw [h.shape.capacityOfAt rfl] at hk
  cases hk
  simp only at ha
  split at ha
  · rename_i h0
    cases ha
    refine ⟨?_, rfl, rfl⟩
    unfold grownCap
    rw [if_neg (by omega)]
    exact Nat.le_refl _
  · rw [if_pos (by omega)] at ha
    obtain ⟨b, hb, ha⟩ := bind_eq_ok.mp ha
    obtain ⟨s, hs, ha⟩ := bind_eq_ok.mp ha
    cases ha
    obtain ⟨h1, h2⟩ := updateOffsets_cap hs
    refine ⟨?_, h1, h2⟩
    unfold LvArray.Shape.growRow at hb
    obtain ⟨off, hoff, hb⟩ := bind_eq_ok.mp hb
    rw [h.shape.num, hr, hM] at hoff
    cases hoff
    obtain ⟨b1, hb1, hb⟩ := bind_eq_ok.mp hb
    rw [shiftRowsUp_last hnum] at hb
    cases hb
    exact dynamicReserve_cap hb1

/-! ## Appending a row -/

theorem setSize_caps {s s' : Shape} {i n : Nat} (h : s.setSize c i n = .ok s') :
    s'.offsets = s.offsets ∧ s'.sizes.cap = s.sizes.cap := by
  unfold LvArray.Shape.setSize at h
  obtain ⟨z, h1, h2⟩ := bind_eq_ok.mp h
  cases h2
  exact ⟨rfl, (keepsCap_write _ _ _ _ h1).1⟩

theorem grownCap_zero {cap size : Nat} (h : size ≤ cap) : grownCap cap size 0 = cap := by
  unfold grownCap; rw [if_neg (by omega)]

theorem costs_resizeLast (h : AGood a (L ++ [([], 0)])) (n : Nat) (v : T) :
    Costs (AoA.resizeArray c a L.length n v) (a.resizeArray c L.length n v) 0 (10 + n + relocation a.values.cap (Layout.total L) n) := by
  unfold AoA.resizeArray LvArray.AoA.resizeArray
  refine Costs.thenFree ?_
  refine ((costs_capacityOfArray c _ _).bind (l' := 0) (h' := 8 + n + relocation a.values.cap (Layout.total L) n)
    (fun k hk => ?_)).weaken (by omega) (by omega)
  rw [h.shape.capacityOfAt rfl] at hk
  cases hk
  simp only
  have hg : Costs (AoA.growIf c (decide (0 < n)) a L.length n) (a.growIf c (decide (0 < n)) L.length n) 0
      (5 + relocation a.values.cap (Layout.total L) n) := by
    unfold AoA.growIf LvArray.AoA.growIf
    split
    · exact costs_setCapacityLast h n
    · exact (costs_pure a).weaken (by omega) (by omega)
  refine hg.bind' (l' := 0) (h' := 3 + n) (fun a' ha => ?_) (by omega) (by omega)
  obtain ⟨_, hg⟩ := growIf_good h n ha
  refine ((costs_sizeOfArray c _ _).bind (l' := 0) (h' := 2 + n) (fun k hk => ?_)).weaken (by omega) (by omega)
  rw [hg.shape.sizeOfAt rfl] at hk
  cases hk
  refine Costs.thenFree ?_
  refine ((costs_ptr a' _).bind (l' := 0) (h' := 1 + n) (fun p _ => ?_)).weaken (by omega) (by omega)
  exact ((costs_resize c _ _ _ n v).bind (fun values _ => (costs_setSize c _ _ _).bindPure)).weaken (by omega)
    (by simp only [List.length_nil]; omega)

theorem resizeLast_cap (h : AGood a (L ++ [([], 0)])) {n : Nat} {v : T} {a' : AoA T} (ha : a.resizeArray c L.length n v = .ok a') :
    grownCap a.values.cap (Layout.total L) n ≤ a'.values.cap ∧ a'.shape.offsets.cap = a.shape.offsets.cap ∧
      a'.shape.sizes.cap = a.shape.sizes.cap := by
  have hroom := h.lay.room
  rw [show Layout.total (L ++ [([], 0)]) = Layout.total L by simp] at hroom
  unfold LvArray.AoA.resizeArray at ha
  obtain ⟨_, _, ha⟩ := bind_eq_ok.mp ha
  obtain ⟨k, hk, ha⟩ := bind_eq_ok.mp ha
  rw [h.shape.capacityOfAt rfl] at hk
  cases hk
  obtain ⟨a1, h1, ha⟩ := bind_eq_ok.mp ha
  have hg : grownCap a.values.cap (Layout.total L) n ≤ a1.values.cap ∧ a1.shape.offsets.cap = a.shape.offsets.cap ∧
      a1.shape.sizes.cap = a.shape.sizes.cap := by
    unfold LvArray.AoA.growIf at h1
    split at h1
    · obtain ⟨q1, q2, q3⟩ := setCapacityLast_cap h h1
      exact ⟨q1, q2, by rw [q3]⟩
    · rename_i hn
      have hn : n = 0 := by simpa using hn
      subst hn
      cases h1
      exact ⟨by rw [grownCap_zero hroom]; exact Nat.le_refl _, rfl, rfl⟩
  obtain ⟨_, _, ha⟩ := bind_eq_ok.mp ha
  obtain ⟨_, _, ha⟩ := bind_eq_ok.mp ha
  obtain ⟨_, _, ha⟩ := bind_eq_ok.mp ha
  obtain ⟨b, hb, ha⟩ := bind_eq_ok.mp ha
  obtain ⟨s, hs, ha⟩ := bind_eq_ok.mp ha
  cases ha
  obtain ⟨e1, e2⟩ := setSize_caps hs
  exact ⟨by rw [(keepsCap_resize _ _ _ _ _ _ hb).1]; exact hg.1, by rw [e1]; exact hg.2.1, by rw [e2]; exact hg.2.2⟩

theorem costs_appendRow' (h : AGood a L) : Costs (Shape.appendRow c a.shape) (a.shape.appendRow c) 0
    (3 + relocation a.shape.offsets.cap (L.length + 1) 1 + relocation a.shape.sizes.cap L.length 1) := by
  have := costs_appendRow c a.shape
  rw [h.shape.num] at this
  exact this

/-- `appendArray( n )`, with what has to be relocated. -/
theorem costs_appendArraySize [Inhabited T] (h : AGood a L) (n : Nat) :
    Costs (AoA.appendArraySize c a n) (a.appendArraySize c n) 0
      (13 + n + relocation a.shape.offsets.cap (L.length + 1) 1 + relocation a.shape.sizes.cap L.length 1 +
        relocation a.values.cap (Layout.total L) n) := by
  unfold AoA.appendArraySize LvArray.AoA.appendArraySize
  refine (costs_appendRow' h).bind' (l' := 0) (h' := 10 + n + relocation a.values.cap (Layout.total L) n)
    (fun s hs => ?_) (by omega) (by omega)
  obtain ⟨s', h1, h2, h3⟩ := h.appendRow (c := c)
  rw [hs] at h1
  cases h1
  rw [h2, Nat.add_sub_cancel]
  exact costs_resizeLast h3 n default

theorem appendArraySize_cap [Inhabited T] (h : AGood a L) {n : Nat} {a' : AoA T} (ha : a.appendArraySize c n = .ok a') :
    grownCap a.shape.offsets.cap (L.length + 1) 1 ≤ a'.shape.offsets.cap ∧
      grownCap a.shape.sizes.cap L.length 1 ≤ a'.shape.sizes.cap ∧
      grownCap a.values.cap (Layout.total L) n ≤ a'.values.cap := by
  unfold LvArray.AoA.appendArraySize at ha
  obtain ⟨s, hs, ha⟩ := bind_eq_ok.mp ha
  obtain ⟨s', h1, h2, h3⟩ := h.appendRow (c := c)
  rw [hs] at h1
  cases h1
  rw [h2, Nat.add_sub_cancel] at ha
  obtain ⟨q1, q2, q3⟩ := resizeLast_cap h3 ha
  obtain ⟨r1, r2⟩ := appendRow_cap hs
  rw [h.shape.num] at r1 r2
  exact ⟨by rw [q2]; exact r1, by rw [q3]; exact r2, q1⟩

/-! ## Amortisation -/

/-- What earlier operations have left to pay for relocations. -/
def pot (cap size : Nat) : Nat := 4 * size - 2 * cap

theorem relocation_pays {cap cap' size k : Nat} (h : grownCap cap size k ≤ cap') :
    relocation cap size k + pot cap' (size + k) ≤ pot cap size + 4 * k := by
  unfold grownCap at h
  unfold relocation pot
  split at h
  · rw [if_pos (by assumption)]; omega
  · rw [if_neg (by assumption)]; omega

theorem relocation_le (cap size k : Nat) : relocation cap size k ≤ 2 * size := by
  unfold relocation; split <;> omega

theorem pot_le (cap size : Nat) : pot cap size ≤ 4 * size := Nat.sub_le _ _

/-- Any sequence of `appendArray( n )`. -/
theorem costs_appendMany [Inhabited T] : ∀ (ns : List Nat) {a : AoA T} {L : Layout T} (_ : AGood a L),
    Costs (ns.foldlM (AoA.appendArraySize c) a) (ns.foldlM (LvArray.AoA.appendArraySize c) a) 0
      (21 * ns.length + 5 * ns.sum + pot a.shape.offsets.cap (L.length + 1) + pot a.shape.sizes.cap L.length +
        pot a.values.cap (Layout.total L))
  | [], a, L, h => (costs_pure a).weaken (by omega) (by omega)
  | n :: ns, a, L, h => by
    simp only [List.foldlM_cons]
    have hd := h.appendArraySize (c := c) n
    cases hx : a.appendArraySize c n with
    | error e =>
      rw [← hx]
      refine (costs_appendArraySize h n).bind' (l' := 0) (h' := 0) (fun a' ha => ?_) (Nat.le_refl _) ?_
      · rw [hx] at ha; cases ha
      · have r1 := relocation_pays (Nat.le_refl (grownCap a.shape.offsets.cap (L.length + 1) 1))
        have r2 := relocation_pays (Nat.le_refl (grownCap a.shape.sizes.cap L.length 1))
        have r3 := relocation_pays (Nat.le_refl (grownCap a.values.cap (Layout.total L) n))
        simp only [List.length_cons, List.sum_cons]
        omega
    | ok a1 =>
      rw [← hx]
      obtain ⟨c1, c2, c3⟩ := appendArraySize_cap h hx
      have r1 := relocation_pays c1
      have r2 := relocation_pays c2
      have r3 := relocation_pays c3
      have hg : AGood a1 (L ++ [(List.replicate n default, n)]) := by
        rcases hd with ⟨_, b, hb, hg, _⟩ | ⟨_, hb⟩
        · rw [hx] at hb; cases hb; exact hg
        · rw [hx] at hb; cases hb
      have ih := costs_appendMany ns hg
      have e : Layout.total (L ++ [(List.replicate n default, n)]) = Layout.total L + n := by simp
      rw [e, List.length_append, List.length_singleton] at ih
      refine (costs_appendArraySize h n).bind' (l' := 0)
        (h' := 21 * ns.length + 5 * ns.sum + pot a1.shape.offsets.cap (L.length + 1 + 1) + pot a1.shape.sizes.cap (L.length + 1) +
          pot a1.values.cap (Layout.total L + n)) (fun a' ha => ?_) ?_ ?_
      · rw [hx] at ha; cases ha; exact ih
      · exact Nat.zero_le _
      · simp only [List.length_cons, List.sum_cons]
        omega

/-! ## Lower bounds -/

theorem costs_reallocate_from {b : Buf T} (hb : b.kind = .malloc) {size newCap : Nat} (h : size ≤ newCap) :
    Costs (reallocate c b size newCap) (b.reallocate c size newCap) size (2 * size) := by
  unfold reallocate Buf.reallocate
  rw [hb]
  simp only
  exact (costs_forUp_exactly 1 _ 0 (fun i s => costs_op _) _).bind' (l' := 0) (h' := size)
    (fun s _ => (costs_destroy c s.2 0 size).bindPure) (by omega) (by omega)

theorem costs_bufferEmplaceBack_from {b : Buf T} (hb : b.kind = .malloc) {size : Nat} (h : b.cap < size + 1) (v : T) :
    Costs (bufferManipulation.emplaceBack c b size v) (LvArray.bufferManipulation.emplaceBack c b size v) size (2 * size + 1) := by
  refine Costs.thenFree ?_
  have hr : Costs (bufferManipulation.dynamicReserve c b size (size + 1)) (LvArray.bufferManipulation.dynamicReserve c b size (size + 1))
      size (2 * size) := by
    unfold bufferManipulation.dynamicReserve LvArray.bufferManipulation.dynamicReserve
    refine Costs.thenFree ?_
    rw [if_pos h, if_pos h]
    exact Costs.thenFree (costs_reallocate_from hb (by omega))
  exact hr.bind' (fun b' _ => costs_emplaceBack c b' 0 size v) (by omega) (by omega)

theorem costs_appendArraySize_from [Inhabited T] (h : AGood a L) (hk : a.shape.offsets.kind = .malloc)
    (hf : a.shape.offsets.cap < L.length + 2) (n : Nat) :
    Costs (AoA.appendArraySize c a n) (a.appendArraySize c n) (L.length + 1) (30 + 8 * L.length + n + 2 * Layout.total L) := by
  unfold AoA.appendArraySize LvArray.AoA.appendArraySize
  have hrow : Costs (Shape.appendRow c a.shape) (a.shape.appendRow c) (L.length + 1) (6 + 4 * L.length) := by
    unfold Shape.appendRow LvArray.Shape.appendRow
    have hn : a.shape.numArrays = L.length := by rw [h.shape.num]
    rw [hn]
    refine (Costs.thenOp (l := L.length + 1) (h := 5 + 4 * L.length) fun off _ => ?_).weaken (by omega) (by omega)
    refine (costs_bufferEmplaceBack_from hk hf off).bind' (l' := 0) (h' := 2 * L.length + 1) (fun o _ => ?_) (by omega) (by omega)
    exact ((costs_bufferEmplaceBack c.ix a.shape.sizes L.length 0).bindPure).weaken (by omega) (by split <;> omega)
  refine hrow.bind' (l' := 0) (h' := 10 + n + 2 * Layout.total L) (fun s hs => ?_) (by omega) (by omega)
  obtain ⟨s', h1, h2, h3⟩ := h.appendRow (c := c)
  rw [hs] at h1
  cases h1
  rw [h2, Nat.add_sub_cancel]
  exact (costs_resizeLast h3 n default).weaken (by omega) (by have := relocation_le a.values.cap (Layout.total L) n; simp only; omega)

/-- The offsets of a new array of arrays fill their allocation. -/
theorem mk_full {n : Nat} {a : AoA T} (h : LvArray.AoA.mk' c n 0 = .ok a) :
    a.shape.offsets.cap = n + 1 ∧ a.shape.offsets.kind = .malloc := by
  unfold LvArray.AoA.mk' LvArray.AoA.resize at h
  rw [if_neg (by simp)] at h
  obtain ⟨s, hs, h⟩ := bind_eq_ok.mp h
  obtain ⟨v, _, h⟩ := bind_eq_ok.mp h
  cases h
  unfold LvArray.Shape.addRows at hs
  obtain ⟨o, _, hs⟩ := bind_eq_ok.mp hs
  obtain ⟨ob, hob, hs⟩ := bind_eq_ok.mp hs
  obtain ⟨sb, _, hs⟩ := bind_eq_ok.mp hs
  rw [if_neg (by simp)] at hs
  cases hs
  unfold LvArray.bufferManipulation.resize at hob
  obtain ⟨_, _, hob⟩ := bind_eq_ok.mp hob
  obtain ⟨b1, h1, hob⟩ := bind_eq_ok.mp hob
  obtain ⟨e1, e2⟩ := keepsCap_resize _ _ _ _ _ _ hob
  rw [e1, e2]
  unfold LvArray.bufferManipulation.reserve at h1
  obtain ⟨_, _, h1⟩ := bind_eq_ok.mp h1
  rw [if_pos (by simp [Buf.empty])] at h1
  unfold LvArray.bufferManipulation.setCapacity at h1
  obtain ⟨_, _, h1⟩ := bind_eq_ok.mp h1
  unfold Buf.reallocate at h1
  simp only [Buf.empty] at h1
  obtain ⟨⟨nb, ob'⟩, h2, h1⟩ := bind_eq_ok.mp h1
  obtain ⟨ob'', _, h1⟩ := bind_eq_ok.mp h1
  cases h1
  simp only [LvArray.Shape.offsetsSize, if_true, Nat.min_zero, LvArray.forUp] at h2
  cases h2
  exact ⟨rfl, rfl⟩

end LvArray.Counted

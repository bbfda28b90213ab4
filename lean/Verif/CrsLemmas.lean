import Verif.SparseLemmas

/-!
# Lemmas about `CRSMatrix`: columns and entries are two objects with the same shape
-/

namespace LvArray

open Layout sortedArrayManipulation Spec

set_option linter.unusedSectionVars false

namespace Layout

variable {X Y : Type}

/-- Apply `g` to every element. -/
def mapL (g : X → Y) (L : Layout X) : Layout Y := L.map fun r => (r.1.map g, r.2)

variable (g : X → Y)

@[simp] theorem mapL_nil : mapL g ([] : Layout X) = [] := rfl
@[simp] theorem mapL_append (A B : Layout X) : mapL g (A ++ B) = mapL g A ++ mapL g B := by simp [mapL]
@[simp] theorem mapL_cons (xs : List X) (cap : Nat) (B : Layout X) : mapL g ((xs, cap) :: B) = (xs.map g, cap) :: mapL g B := rfl
@[simp] theorem mapL_length (L : Layout X) : (mapL g L).length = L.length := by simp [mapL]
@[simp] theorem mapL_total (L : Layout X) : total (mapL g L) = total L := by simp [mapL, total, Function.comp_def]
@[simp] theorem mapL_szs (L : Layout X) : szs (mapL g L) = szs L := by simp [mapL, szs, Function.comp_def]
@[simp] theorem mapL_caps (L : Layout X) : caps (mapL g L) = caps L := by simp [mapL, caps, Function.comp_def]
theorem mapL_take (L : Layout X) (n : Nat) : mapL g (L.take n) = (mapL g L).take n := by simp [mapL, List.map_take]

end Layout

theorem LShape_mapL {X Y : Type} {g : X → Y} {s : Shape} {L : Layout X} : LShape s (mapL g L) ↔ LShape s L := by
  unfold LShape
  simp

variable {V : Type}

/-- The columns of a matrix as an array of arrays. -/
abbrev Crs.cols (m : Crs V) : AoA Nat := ⟨m.shape, m.columns⟩
/-- The entries of a matrix as an array of arrays. -/
abbrev Crs.ents (m : Crs V) : AoA V := ⟨m.shape, m.entries⟩

/-- The matrix holds these rows of pairs of columns and entries. -/
structure CGood (m : Crs V) (L : Layout (Nat × V)) : Prop where
  shape : LShape m.shape L
  layC : Lay m.columns (mapL Prod.fst L)
  layE : Lay m.entries (mapL Prod.snd L)

/-- Like `CGood`, for objects whose offsets may not be allocated yet. -/
structure CWeak (m : Crs V) (L : Layout (Nat × V)) : Prop where
  shape : ShWeak m.shape L.szs L.caps
  layC : Lay m.columns (mapL Prod.fst L)
  layE : Lay m.entries (mapL Prod.snd L)

theorem CGood.weak {m : Crs V} {L : Layout (Nat × V)} (h : CGood m L) : CWeak m L := ⟨ShGood.weak h.shape, h.layC, h.layE⟩

theorem CGood.cols {m : Crs V} {L : Layout (Nat × V)} (h : CGood m L) : AGood m.cols (mapL Prod.fst L) :=
  ⟨LShape_mapL.2 h.shape, h.layC⟩
theorem CGood.ents {m : Crs V} {L : Layout (Nat × V)} (h : CGood m L) : AGood m.ents (mapL Prod.snd L) :=
  ⟨LShape_mapL.2 h.shape, h.layE⟩
theorem CWeak.cols {m : Crs V} {L : Layout (Nat × V)} (h : CWeak m L) : AWeak m.cols (mapL Prod.fst L) :=
  ⟨by simpa using h.shape, h.layC⟩
theorem CWeak.ents {m : Crs V} {L : Layout (Nat × V)} (h : CWeak m L) : AWeak m.ents (mapL Prod.snd L) :=
  ⟨by simpa using h.shape, h.layE⟩

/-- Two operations on the parts make one on the matrix. -/
theorem CGood.ofParts {n : Nat} {a1 : AoA Nat} {a2 : AoA V} {L : Layout (Nat × V)} (h1 : AGood a1 (mapL Prod.fst L))
    (h2 : AGood a2 (mapL Prod.snd L)) : CGood ⟨n, a2.shape, a1.values, a2.values⟩ L :=
  ⟨LShape_mapL.1 h2.shape, h1.lay, h2.lay⟩

namespace Crs

variable {c : Cfg} {m : Crs V}

theorem setCapacity_pair {i n : Nat} {a1 : AoA Nat} (h : m.cols.setCapacityOfArray c.ix i n = .ok a1) :
    m.setCapacityOfArray c i n =
      (m.ents.setCapacityOfArray c i n >>= fun a2 => .ok ⟨m.numCols, a2.shape, a1.values, a2.values⟩) := by
  unfold AoA.setCapacityOfArray at h ⊢
  unfold Crs.setCapacityOfArray
  rw [bind_eq_ok] at h
  obtain ⟨_, h1, h⟩ := h
  rw [bind_eq_ok] at h
  obtain ⟨cap, h2, h⟩ := h
  have h1' : m.shape.checkBounds c i = .ok () := h1
  have h2' : m.shape.capacityOfArray c i = .ok cap := h2
  simp only [Crs.ents, h1', h2', bind_ok]
  split at h
  · rename_i he
    cases h
    simp only [he, if_true, bind_ok]
  · rename_i he
    simp only [he, if_false]
    split at h
    · rename_i hl
      rw [bind_eq_ok] at h
      obtain ⟨b1, h3, h⟩ := h
      rw [bind_eq_ok] at h
      obtain ⟨s1, h4, h⟩ := h
      cases h
      have h3' : m.shape.growRow c.ix i (n - cap) m.columns = .ok b1 := h3
      have h4' : m.shape.updateOffsets c i (· + (n - cap)) = .ok s1 := h4
      simp only [hl, if_true, h3', h4', bind_ok]
      cases m.shape.growRow c i (n - cap) m.entries <;> rfl
    · rename_i hl
      rw [bind_eq_ok] at h
      obtain ⟨off, h3, h⟩ := h
      rw [bind_eq_ok] at h
      obtain ⟨ps, h4, h⟩ := h
      rw [bind_eq_ok] at h
      obtain ⟨s1, h5, h⟩ := h
      rw [bind_eq_ok] at h
      obtain ⟨b1, h6, h⟩ := h
      rw [bind_eq_ok] at h
      obtain ⟨s2, h7, h⟩ := h
      cases h
      have h3' : m.shape.offsets.read i = .ok off := h3
      have h4' : m.shape.sizeOfArray c i = .ok ps := h4
      have h5' : m.shape.setSize c i (min ps n) = .ok s1 := h5
      have h7' : s1.updateOffsets c i (· - (cap - n)) = .ok s2 := h7
      have h6' : s1.shrinkRow c.ix i (cap - n) off (min ps n) ps m.columns = .ok b1 := h6
      simp only [hl, if_false, h3', h4', h5', h6', bind_ok]
      cases s1.shrinkRow c i (cap - n) off (min ps n) ps m.entries with
      | error e => rfl
      | ok b => simp only [bind_ok, h7']

theorem reserveValues_pair {n : Nat} {a1 : AoA Nat} (h : m.cols.reserveValues c.ix n = .ok a1) :
    m.reserveValues c n = (m.ents.reserveValues c n >>= fun a2 => .ok ⟨m.numCols, a2.shape, a1.values, a2.values⟩) := by
  unfold AoA.reserveValues at h ⊢
  unfold Crs.reserveValues
  rw [bind_eq_ok] at h
  obtain ⟨b1, h1, h⟩ := h
  cases h
  have h1' : m.shape.reserveValues c.ix n m.columns = .ok b1 := h1
  rw [h1', bind_ok]
  simp only [Crs.ents]
  cases m.shape.reserveValues c n m.entries <;> rfl

theorem compress_pair {a1 : AoA Nat} (h : m.cols.compress c.ix = .ok a1) :
    m.compress c = (m.ents.compress c >>= fun a2 => .ok ⟨m.numCols, a2.shape, a1.values, a2.values⟩) := by
  unfold AoA.compress at h ⊢
  unfold Crs.compress
  rw [bind_eq_ok] at h
  obtain ⟨⟨s1, b1⟩, h1, h⟩ := h
  cases h
  have h1' : m.shape.compress c.ix m.columns = .ok (s1, b1) := h1
  rw [h1', bind_ok]
  simp only [Crs.ents]
  cases m.shape.compress c m.entries <;> rfl

theorem resize_pair {colMax r n k : Nat} {a1 : AoA Nat} (hn : n ≤ colMax + 1) (h : m.cols.resize c.ix r k = .ok a1) :
    m.resize c colMax r n k = (m.ents.resize c r k >>= fun a2 => .ok ⟨n, a2.shape, a1.values, a2.values⟩) := by
  have h := (show AoA.resize c.ix ⟨m.shape, m.columns⟩ r k = .ok a1 from h)
  show m.resize c colMax r n k = (AoA.resize c ⟨m.shape, m.entries⟩ r k >>= _)
  unfold AoA.resize at h ⊢
  unfold Crs.resize
  rw [decide_eq_false (by omega), errorIf_false, bind_ok]
  simp only at h ⊢
  by_cases hr : r < m.shape.numArrays
  · rw [if_pos hr] at h ⊢
    rw [if_pos hr]
    rw [bind_eq_ok] at h
    obtain ⟨b1, h1, h⟩ := h
    rw [bind_eq_ok] at h
    obtain ⟨s1, h2, h⟩ := h
    cases h
    have h2' : m.shape.dropRows c r = .ok s1 := h2
    simp only [h1, h2', bind_ok]
    cases m.shape.destroyValues c r m.shape.numArrays m.entries <;> rfl
  · rw [if_neg hr] at h ⊢
    rw [if_neg hr]
    rw [bind_eq_ok] at h
    obtain ⟨s1, h1, h⟩ := h
    rw [bind_eq_ok] at h
    obtain ⟨b1, h2, h⟩ := h
    cases h
    have h1' : m.shape.addRows c r k = .ok s1 := h1
    simp only [h1', h2, bind_ok]
    cases s1.addRowsReserve c r k m.entries <;> rfl

theorem resizeFrom_pair {colMax n : Nat} {ks : List Nat} {a1 : AoA Nat} {a2 : AoA V} (hn : n ≤ colMax + 1)
    (h : m.cols.resizeFromCapacities c.ix ks = .ok a1) (h' : m.ents.resizeFromCapacities c ks = .ok a2) :
    m.resizeFromRowCapacities c colMax n ks = .ok ⟨n, a2.shape, a1.values, a2.values⟩ := by
  unfold AoA.resizeFromCapacities at h h'
  unfold Crs.resizeFromRowCapacities
  rw [decide_eq_false (by omega), errorIf_false, bind_ok]
  simp only [Crs.cols, Crs.ents] at h h' ⊢
  rw [bind_eq_ok] at h h'
  obtain ⟨b1, h1, h⟩ := h
  rw [bind_eq_ok] at h
  obtain ⟨s1, h2, h⟩ := h
  rw [bind_eq_ok] at h
  obtain ⟨b2, h3, h⟩ := h
  cases h
  obtain ⟨d1, k1, h'⟩ := h'
  rw [bind_eq_ok] at h'
  obtain ⟨s1', k2, h'⟩ := h'
  rw [bind_eq_ok] at h'
  obtain ⟨d2, k3, h'⟩ := h'
  cases h'
  have h2' : m.shape.fromCapacities c ks = .ok s1 := h2
  rw [h2'] at k2
  cases k2
  simp only [h1, k1, h2', h3, k3, bind_ok]

theorem copyAssign_pair {src : Crs V} {a1 : AoA Nat} {a2 : AoA V} (h : m.cols.copyAssign c.ix src.cols = .ok a1)
    (h' : m.ents.copyAssign c src.ents = .ok a2) :
    m.copyAssign c src = .ok ⟨src.numCols, a2.shape, a1.values, a2.values⟩ := by
  unfold AoA.copyAssign at h h'
  unfold Crs.copyAssign
  simp only [Crs.cols, Crs.ents] at h h' ⊢
  rw [bind_eq_ok] at h h'
  obtain ⟨o, h1, h⟩ := h
  rw [bind_eq_ok] at h
  obtain ⟨b1, h2, h⟩ := h
  rw [bind_eq_ok] at h
  obtain ⟨⟨k, s1⟩, h3, h⟩ := h
  rw [bind_eq_ok] at h
  obtain ⟨b2, h4, h⟩ := h
  rw [bind_eq_ok] at h
  obtain ⟨b3, h5, h⟩ := h
  cases h
  obtain ⟨o', k1, h'⟩ := h'
  rw [bind_eq_ok] at h'
  obtain ⟨d1, k2, h'⟩ := h'
  rw [bind_eq_ok] at h'
  obtain ⟨⟨k', s1'⟩, k3, h'⟩ := h'
  rw [bind_eq_ok] at h'
  obtain ⟨d2, k4, h'⟩ := h'
  rw [bind_eq_ok] at h'
  obtain ⟨d3, k5, h'⟩ := h'
  cases h'
  rw [h1] at k1
  cases k1
  have h3' : m.shape.copyShape c src.shape = .ok (k, s1) := h3
  rw [h3'] at k3
  cases k3
  simp only [h1, h2, k2, h3', h4, k4, h5, k5, bind_ok]

end Crs

/-! ## Operations on well-formed matrices -/

/-- A matrix with this layout, or, for entries that are not trivially copyable, a relocation of memory without objects. -/
def CrsOut (c : Cfg) (r : R (Crs V)) (n : Nat) (L : Layout (Nat × V)) : Prop :=
  (∃ m, r = .ok m ∧ m.numCols = n ∧ CGood m L) ∨ (c.trivial = false ∧ r = .error (.ub .rawRead))

/-- Combine the two parts. -/
theorem CrsOut.ofParts {c : Cfg} {r : R (Crs V)} {r1 : R (AoA Nat)} {r2 : R (AoA V)} {n cap1 cap2 : Nat} {P1 P2 : Prop}
    {L : Layout (Nat × V)} {L1 : Layout Nat} {L2 : Layout V} (e1 : L1 = mapL Prod.fst L) (e2 : L2 = mapL Prod.snd L)
    (h1 : Out cap1 P1 r1 L1) (hp1 : P1) (h2 : Out cap2 P2 r2 L2) (hp2 : c.trivial = true → P2)
    (h : ∀ a1, r1 = .ok a1 → r = (r2 >>= fun a2 => .ok ⟨n, a2.shape, a1.values, a2.values⟩)) : CrsOut c r n L := by
  subst e1 e2
  rcases h1 with ⟨_, a1, h1, g1, _⟩ | ⟨h1, _⟩
  · rw [h a1 h1]
    rcases h2 with ⟨_, a2, h2, g2, _⟩ | ⟨h2, h3⟩
    · rw [h2, bind_ok]
      exact .inl ⟨_, rfl, rfl, CGood.ofParts g1 g2⟩
    · rw [h3, bind_err]
      refine .inr ⟨?_, rfl⟩
      cases hc : c.trivial
      · rfl
      · exact absurd (hp2 hc) h2
  · exact absurd hp1 h1

namespace CGood

variable {c : Cfg} {m : Crs V} {L A B : Layout (Nat × V)} {xs : List (Nat × V)} {cap : Nat}

theorem setCapacity (h : CGood m (A ++ (xs, cap) :: B)) (n : Nat) :
    CrsOut c (m.setCapacityOfArray c A.length n) m.numCols (A ++ (xs.take n, n) :: B) := by
  have h1 := h.cols
  have h2 := h.ents
  rw [mapL_append, mapL_cons] at h1 h2
  have o1 := h1.setCapacity (c := c.ix) n
  have o2 := h2.setCapacity (c := c) n
  rw [mapL_length] at o1 o2
  exact CrsOut.ofParts (by simp) (by simp) o1 (.inr (.inl rfl)) o2 (fun ht => .inr (.inl ht))
    (fun _ ha => Crs.setCapacity_pair ha)

theorem reserveValues (h : CGood m L) (n : Nat) : CrsOut c (m.reserveValues c n) m.numCols L :=
  CrsOut.ofParts rfl rfl (h.cols.reserveValues (c := c.ix) n).1 (.inr (.inl rfl)) (h.ents.reserveValues (c := c) n).1
    (fun ht => .inr (.inl ht)) (fun _ ha => Crs.reserveValues_pair ha)

theorem compress (h : CGood m L) :
    ∃ m', m.compress c = .ok m' ∧ m'.numCols = m.numCols ∧ CGood m' (L.map LShape.tight) := by
  obtain ⟨a1, h1, g1, _⟩ := h.cols.compress (c := c.ix)
  obtain ⟨a2, h2, g2, _⟩ := h.ents.compress (c := c)
  rw [Crs.compress_pair h1, h2, bind_ok]
  refine ⟨_, rfl, rfl, CGood.ofParts ?_ ?_⟩
  · convert g1 using 1
    simp [mapL, LShape.tight, Function.comp_def]
  · convert g2 using 1
    simp [mapL, LShape.tight, Function.comp_def]

end CGood

namespace CWeak

variable {c : Cfg} {m : Crs V} {L A B : Layout (Nat × V)}

theorem fresh : CWeak (⟨0, { numArrays := 0, offsets := .empty, sizes := .empty }, .empty, .empty⟩ : Crs V) [] :=
  ⟨(AWeak.fresh (T := V)).shape, (AWeak.fresh (T := Nat)).lay, (AWeak.fresh (T := V)).lay⟩

theorem resizeShrink (h : CWeak m (A ++ B)) (hB : B ≠ []) {colMax n : Nat} (hn : n ≤ colMax + 1) (d : Nat) :
    ∃ m', m.resize c colMax A.length n d = .ok m' ∧ m'.numCols = n ∧ CGood m' A := by
  have h1 := h.cols
  have h2 := h.ents
  rw [mapL_append] at h1 h2
  obtain ⟨a1, h1, g1, _⟩ := h1.resizeShrink (c := c.ix) (by simpa [mapL] using hB) d
  obtain ⟨a2, h2, g2, _⟩ := h2.resizeShrink (c := c) (by simpa [mapL] using hB) d
  rw [mapL_length] at h1 h2
  rw [Crs.resize_pair hn h1, h2, bind_ok]
  exact ⟨_, rfl, rfl, CGood.ofParts g1 g2⟩

theorem resizeGrow (h : CWeak m L) {colMax n : Nat} (hn : n ≤ colMax + 1) (r d : Nat) (hr : L.length ≤ r) :
    CrsOut c (m.resize c colMax r n d) n (L ++ List.replicate (r - L.length) ([], d)) := by
  have o1 := h.cols.resizeGrow (c := c.ix) r d (by simpa using hr)
  have o2 := h.ents.resizeGrow (c := c) r d (by simpa using hr)
  exact CrsOut.ofParts (by simp [mapL]) (by simp [mapL]) o1 (.inr (.inl rfl)) o2 (fun ht => .inr (.inl ht))
    (fun _ ha => Crs.resize_pair hn ha)

theorem resizeFrom (h : CWeak m L) {colMax n : Nat} (hn : n ≤ colMax + 1) (ks : List Nat) :
    ∃ m', m.resizeFromRowCapacities c colMax n ks = .ok m' ∧ m'.numCols = n ∧ CGood m' (ks.map fun k => ([], k)) := by
  obtain ⟨a1, h1, g1, _⟩ := h.cols.resizeFromCapacities (c := c.ix) ks
  obtain ⟨a2, h2, g2, _⟩ := h.ents.resizeFromCapacities (c := c) ks
  rw [Crs.resizeFrom_pair hn h1 h2]
  refine ⟨_, rfl, rfl, CGood.ofParts ?_ ?_⟩
  · simpa [mapL, Function.comp_def] using g1
  · simpa [mapL, Function.comp_def] using g2

end CWeak

theorem fresh_resize (T : Type) (c : Cfg) (r k : Nat) :
    ∃ a, AoA.resize c ({ shape := { numArrays := 0, offsets := .empty, sizes := .empty }, values := .empty } : AoA T) r k = .ok a ∧
      AGood a (List.replicate r ([], k)) := by
  rcases (AWeak.fresh (T := T)).resizeGrow (c := c) r k (by simp) with ⟨_, a, h1, h2, _⟩ | ⟨h1, _⟩
  · exact ⟨a, h1, by simpa using h2⟩
  · exact absurd (.inr (.inr (by intro r hr; simp at hr))) h1

theorem Crs.mk_good (c : Cfg) (colMax r n k : Nat) (hn : n ≤ colMax + 1) :
    ∃ m, (Crs.mk' c colMax r n k : R (Crs V)) = .ok m ∧ m.numCols = n ∧ CGood m (List.replicate r ([], k)) := by
  obtain ⟨a1, h1, g1⟩ := fresh_resize Nat c.ix r k
  obtain ⟨a2, h2, g2⟩ := fresh_resize V c r k
  unfold Crs.mk'
  rw [Crs.resize_pair (a1 := a1) hn h1]
  simp only [Crs.ents]
  rw [h2, bind_ok]
  refine ⟨_, rfl, rfl, CGood.ofParts ?_ ?_⟩
  · simpa [mapL] using g1
  · simpa [mapL] using g2

end LvArray

import Verif.CrsLemmas

/-!
# Lemmas about the operations on one row of a `CRSMatrix`
-/

namespace LvArray

open Layout sortedArrayManipulation Spec

set_option linter.unusedSectionVars false

variable {V : Type}

theorem CGood.rowPtr {m : Crs V} {A B : Layout (Nat × V)} (h : CGood m (A ++ B)) : m.rowPtr A.length = total A := by
  have h1 := h.cols
  rw [mapL_append] at h1
  have := h1.rowPtr
  rw [mapL_length, mapL_total] at this
  exact this

theorem CGood.readOff {m : Crs V} {A B : Layout (Nat × V)} (h : CGood m (A ++ B)) :
    m.shape.offsets.read A.length = .ok (total A) := h.shape.readOffAt rfl

namespace Crs

variable {ci c : Cfg} {own : Bool} {m : Crs V} {A B : Layout (Nat × V)} {xs : List (Nat × V)} {cap nnz n0 : Nat} {es : List V}

/-- A state reached while a row is modified. -/
def Mid (Q Q' : ∀ {T : Type}, Cell T → Prop) (n0 : Nat) (A B : Layout (Nat × V)) (xs : List (Nat × V)) (m : Crs V)
    (f : List (Nat × V)) (g : Nat) (bk : List (Nat × V)) : Prop :=
  ∃ m0 cap, CGood m0 (A ++ (xs, cap) :: B) ∧ m.shape = m0.shape ∧ m.numCols = n0 ∧
    Win Q m0.columns m.columns (total A) cap (f.map (·.1)) g (bk.map (·.1)) ∧
    Win Q' m0.entries m.entries (total A) cap (f.map (·.2)) g (bk.map (·.2))

variable {Q Q' : ∀ {T : Type}, Cell T → Prop}

theorem Mid.rowPtr {f bk : List (Nat × V)} {g : Nat} (h : Mid @Q @Q' n0 A B xs m f g bk) :
    m.rowPtr A.length = total A := by
  obtain ⟨m0, cap, hg, hs, _⟩ := h
  have := hg.rowPtr
  unfold Crs.rowPtr at this ⊢
  rw [hs]; exact this

theorem winC (h : CGood m (A ++ (xs, cap) :: B)) (Q : Cell Nat → Prop) :
    Win Q m.columns m.columns (total A) cap (xs.map (·.1)) 0 [] := by
  have := h.layC
  rw [mapL_append, mapL_cons] at this
  have := this.toWin Q
  rwa [mapL_total] at this

theorem winE (h : CGood m (A ++ (xs, cap) :: B)) (Q : Cell V → Prop) :
    Win Q m.entries m.entries (total A) cap (xs.map (·.2)) 0 [] := by
  have := h.layE
  rw [mapL_append, mapL_cons] at this
  have := this.toWin Q
  rwa [mapL_total] at this

theorem Mid.start (h : CGood m (A ++ (xs, cap) :: B)) : Mid @Q @Q' m.numCols A B xs m xs 0 [] :=
  ⟨m, cap, h, rfl, rfl, winC h _, winE h _⟩

theorem Mid.open (h : CGood m (A ++ (xs, cap) :: B)) (n : Nat) (hn : xs.length + n ≤ cap) :
    Mid @IsRaw @IsRaw m.numCols A B xs m xs n [] :=
  ⟨m, cap, h, rfl, rfl, (winC h IsRaw).openGap n (by simpa using hn), (winE h IsRaw).openGap n (by simpa using hn)⟩

theorem modify_ok {i : Nat} {f : Buf Nat → Nat → R (Buf Nat)} {p : Nat} {b : Buf Nat} (hp : m.rowPtr i = p)
    (h : f m.columns p = .ok b) : (target c own i nnz cap es).modify m f = .ok { m with columns := b } := by
  show (f m.columns (m.rowPtr i) >>= fun b => Except.ok { m with columns := b }) = _
  rw [hp, h]; rfl

theorem insertSound (vs : List (Nat × V)) :
    InsertSound ci (target c own A.length nnz cap (vs.map (·.2))) Prod.fst vs (Mid @IsRaw @IsRaw n0 A B xs) where
  read := fun s f g b h i hi => by
    show s.columns.read (s.rowPtr A.length + i) = _
    rw [h.rowPtr]
    obtain ⟨m0, cap, _, _, _, w, _⟩ := h
    rw [w.read_front i (by simpa using hi)]
    simp
  step := fun s f1 f2 g b i hi h => by
    have hp := h.rowPtr
    obtain ⟨m0, cap, hg, hs, hn, w, w'⟩ := h
    rw [List.map_append] at w w'
    obtain ⟨b1, b2, e1, e2, e3⟩ := w.insertStep ci vs[i].1
    obtain ⟨d1, d2, k1, k2, k3⟩ := w'.insertStep c vs[i].2
    rw [← List.map_append, List.length_map, List.length_map] at e1 k1
    rw [List.length_map] at e2 k2
    refine ⟨_, _, { s with columns := b2, entries := d2 }, modify_ok hp e1, modify_ok (m := { s with columns := b1 }) hp e2, ?_,
      m0, cap, hg, hs, hn, ?_, ?_⟩
    · have hx : (vs.map (·.2))[i]? = some vs[i].2 := by simp [hi]
      show (match (vs.map (·.2))[i]? with | some e => _ | none => _) = _
      rw [hx]
      show (arrayManipulation.shiftUp c s.entries (s.rowPtr A.length) _ _ _ >>= fun entries =>
        entries.construct c (s.rowPtr A.length + (f1.length + (g + 1) - 1)) _ >>= fun entries => _) = _
      rw [hp, k1, bind_ok, show f1.length + (g + 1) - 1 = f1.length + g by omega, k2, bind_ok]
    · simpa using e3
    · simpa using k3
  set := fun s f g hi h => by
    have hp := h.rowPtr
    obtain ⟨m0, cap, hg, hs, hn, w, w'⟩ := h
    rw [List.map_nil] at w w'
    obtain ⟨b1, e1, e2⟩ := w.setStep ci vs[f.length].1
    obtain ⟨d1, k1, k2⟩ := w'.setStep c vs[f.length].2
    rw [List.length_map] at e1 k1
    refine ⟨_, { s with columns := b1, entries := d1 }, modify_ok hp e1, ?_, m0, cap, hg, hs, hn, ?_, ?_⟩
    · have hx : (vs.map (·.2))[f.length]? = some vs[f.length].2 := by simp [hi]
      show (match (vs.map (·.2))[f.length]? with | some e => _ | none => _) = _
      rw [hx]
      show (s.entries.construct c (s.rowPtr A.length + f.length) _ >>= fun entries => _) = _
      rw [hp, k1, bind_ok]
    · simpa using e2
    · simpa using k2

theorem removeSound : RemoveSound ci (target c own A.length nnz cap es) Prod.fst (Mid @NotRaw @NotRaw n0 A B xs) where
  read := fun s kept d rest h i hi => by
    show s.columns.read (s.rowPtr A.length + (kept.length + d + i)) = _
    rw [h.rowPtr]
    obtain ⟨m0, cap, _, _, _, w, _⟩ := h
    have := w.read_back i (by simpa using hi)
    rw [List.length_map] at this
    rw [this]
    simp
  split := fun s f1 f2 h => by
    obtain ⟨m0, cap, hg, hs, hn, w, w'⟩ := h
    rw [List.map_append] at w w'
    exact ⟨m0, cap, hg, hs, hn, w.split _, w'.split _⟩
  step := fun s kept d x f rest h => by
    have hp := h.rowPtr
    obtain ⟨m0, cap, hg, hs, hn, w, w'⟩ := h
    rw [List.map_append, List.map_cons] at w w'
    obtain ⟨b1, e1, e2⟩ := w.removeStep ci
    obtain ⟨d1, k1, k2⟩ := w'.removeStep c
    simp only [List.length_map] at e1 k1
    refine ⟨_, { s with columns := b1, entries := d1 }, modify_ok hp e1, ?_, m0, cap, hg, hs, hn, ?_, ?_⟩
    · show (arrayManipulation.shiftDown c s.entries (s.rowPtr A.length) _ _ _ >>= fun entries => _) = _
      rw [hp, k1, bind_ok]
    · simpa using e2
    · simpa using k2

/-- Writing the size ends the modification. -/
theorem Mid.finish {f bk : List (Nat × V)} (h : Mid @Q @Q' n0 A B xs m f 0 bk) :
    ∃ s' cap', m.shape.setSize c A.length (f ++ bk).length = .ok s' ∧
      CGood { m with shape := s' } (A ++ (f ++ bk, cap') :: B) := by
  obtain ⟨m0, cap, hg, hs, hn, w, w'⟩ := h
  have v := w.join IsRaw [] ((f ++ bk).map (·.1)) (by simp)
  have v' := w'.join IsRaw [] ((f ++ bk).map (·.2)) (by simp)
  obtain ⟨s', h1, h2⟩ := AGood.setSizeAt (c := c) hg.shape (f ++ bk)
  refine ⟨s', cap, by rw [hs]; exact h1, h2, ?_, ?_⟩
  · have := hg.layC
    rw [mapL_append, mapL_cons] at this
    have := this.ofWin (b' := m.columns) (Q := IsRaw) (ys := (f ++ bk).map (·.1)) (by rw [mapL_total]; exact v)
    simpa using this
  · have := hg.layE
    rw [mapL_append, mapL_cons] at this
    have := this.ofWin (b' := m.entries) (Q := IsRaw) (ys := (f ++ bk).map (·.2)) (by rw [mapL_total]; exact v')
    simpa using this

theorem readRow (h : CGood m (A ++ (xs, cap) :: B)) (i : Nat) (hi : i < xs.length) :
    (m.columns.read (m.rowPtr A.length + i)) = .ok xs[i].1 := by
  rw [h.rowPtr, (winC h IsRaw).read_front i (by simpa using hi)]
  simp

/-- `incrementSize` of the call backs of a row. -/
def inc (c : Cfg) (own : Bool) (row nnz cap : Nat) (m : Crs V) (n : Nat) : R (Crs V) :=
  (target c own row nnz cap []).incrementSize m n

theorem insert_ok (h : CGood m (A ++ (xs, cap) :: B)) (hx : Increasing Prod.fst xs) (k : Nat) (v : V)
    (hinc : ∀ n, (if (∀ x ∈ xs, x.1 ≠ k) then n ≤ 1 else n = 0) → ∃ m1 cap1, inc c own A.length xs.length cap m n = .ok m1 ∧
      m1.numCols = m.numCols ∧ CGood m1 (A ++ (xs, cap1) :: B) ∧ xs.length + n ≤ cap1) :
    ∃ m' ys cap', insertNonZeroIn ci c own m A.length k v = .ok (m', decide (∀ x ∈ xs, x.1 ≠ k)) ∧ m'.numCols = m.numCols ∧
      CGood m' (A ++ (ys, cap') :: B) ∧ Increasing Prod.fst ys ∧
      ∀ x, x ∈ ys ↔ x ∈ xs ∨ (x = (k, v) ∧ ∀ y ∈ xs, y.1 ≠ k) := by
  obtain ⟨s', ys, e1, hm, hys, hmem⟩ := insertOne_spec ci (target c own A.length xs.length cap [v]) Prod.fst xs (k, v) m
    (fun i hi => readRow h i hi) hx (fun s ys => Mid @IsRaw @IsRaw m.numCols A B xs s ys 0 [])
    (fun hp => by
      obtain ⟨m1, cap1, q1, q2, q3, q4⟩ := hinc 0 (by split <;> omega)
      exact ⟨m1, q1, by rw [← q2]; exact Mid.start q3⟩)
    (fun habs f1 f2 hf => by
      obtain ⟨m1, cap1, q1, q2, q3, q4⟩ := hinc 1 (by rw [if_pos habs])
      have w := winC q3 IsRaw
      have w' := winE q3 IsRaw
      have hp := q3.rowPtr
      rw [hf, List.map_append] at w w'
      obtain ⟨b1, e1, e2⟩ := w.emplace ci k (by rw [← List.map_append, ← hf]; simpa using q4)
      obtain ⟨d1, k1, k2⟩ := w'.emplace c v (by rw [← List.map_append, ← hf]; simpa using q4)
      rw [← List.map_append, List.length_map, List.length_map, ← hf] at e1 k1
      refine ⟨m1, _, { m1 with columns := b1, entries := d1 }, q1, modify_ok hp e1, ?_, m1, cap1, q3, rfl, q2, ?_, ?_⟩
      · show (arrayManipulation.emplace c m1.entries (m1.rowPtr A.length) _ _ _ >>= fun entries => _) = _
        rw [hp, k1, bind_ok]
      · simpa using e2
      · simpa using k2)
  have hn : s'.numCols = m.numCols := by obtain ⟨_, _, _, _, q, _⟩ := hm; exact q
  obtain ⟨s2, cap', e2, hg⟩ := hm.finish (c := c)
  rw [List.append_nil] at e2 hg
  have hlen : xs.length + (if decide (∀ x ∈ xs, x.1 ≠ k) = true then 1 else 0) = ys.length := by
    have hnd : ∀ {l : List (Nat × V)}, Increasing Prod.fst l → l.Nodup :=
      fun hl => hl.imp (fun {a b} hab e => by rw [e] at hab; exact absurd hab (Nat.lt_irrefl _))
    by_cases ha : ∀ x ∈ xs, x.1 ≠ k
    · have : ys.Perm ((k, v) :: xs) := by
        rw [List.perm_ext_iff_of_nodup (hnd hys) (List.nodup_cons.2 ⟨fun hh => ha _ hh rfl, hnd hx⟩)]
        intro x
        rw [hmem x, List.mem_cons]
        constructor
        · rintro (h | h)
          · exact .inr h
          · exact .inl h.1
        · rintro (h | h)
          · exact .inr ⟨h, ha⟩
          · exact .inl h
      rw [this.length_eq, decide_eq_true ha, if_pos rfl, List.length_cons]
    · have : ys.Perm xs := by
        rw [List.perm_ext_iff_of_nodup (hnd hys) (hnd hx)]
        intro x
        rw [hmem x]
        constructor
        · rintro (h | h)
          · exact h
          · exact absurd h.2 ha
        · exact .inl
      rw [this.length_eq]
      simp only [ha, decide_true, decide_false, if_true, if_false, Bool.false_eq_true, List.length_cons, Nat.add_zero]
  unfold insertNonZeroIn
  rw [h.shape.sizeOfAt rfl, bind_ok, h.shape.capacityOfAt rfl, bind_ok, h.readOff, bind_ok]
  simp only
  simp only at e1
  rw [e1, bind_ok]
  simp only
  rw [hlen, e2, bind_ok]
  exact ⟨_, ys, cap', rfl, hn, hg, hys, hmem⟩

theorem insert_err (h : CGood m (A ++ (xs, cap) :: B)) (hx : Increasing Prod.fst xs) (k : Nat) (v : V)
    (habs : ∀ x ∈ xs, x.1 ≠ k) (e : Err) (hinc : inc c own A.length xs.length cap m 1 = .error e) :
    insertNonZeroIn ci c own m A.length k v = .error e := by
  have := insertOne_abort ci (target c own A.length xs.length cap [v]) Prod.fst xs (k, v) m
    (fun i hi => readRow h i hi) hx habs e hinc
  unfold insertNonZeroIn
  rw [h.shape.sizeOfAt rfl, bind_ok, h.shape.capacityOfAt rfl, bind_ok, h.readOff, bind_ok]
  simp only at this ⊢
  rw [this, bind_err]

theorem nodup_of_increasing {l : List (Nat × V)} (h : Increasing Prod.fst l) : l.Nodup :=
  h.imp (fun {a b} hab e => by rw [e] at hab; exact absurd hab (Nat.lt_irrefl _))

theorem insertMany_ok (h : CGood m (A ++ (xs, cap) :: B)) (hx : Increasing Prod.fst xs) (vs : List (Nat × V))
    (hv : Increasing Prod.fst vs)
    (hinc : ∃ m1 cap1, inc c own A.length xs.length cap m (newCount Prod.fst xs vs) = .ok m1 ∧
      m1.numCols = m.numCols ∧ CGood m1 (A ++ (xs, cap1) :: B) ∧ xs.length + newCount Prod.fst xs vs ≤ cap1) :
    ∃ m' ys cap', insertNonZerosIn ci c own m A.length (vs.map (·.1)) (vs.map (·.2)) = .ok (m', newCount Prod.fst xs vs) ∧
      m'.numCols = m.numCols ∧ CGood m' (A ++ (ys, cap') :: B) ∧ Increasing Prod.fst ys ∧
      ∀ x, x ∈ ys ↔ x ∈ xs ∨ (x ∈ vs ∧ ∀ y ∈ xs, y.1 ≠ x.1) := by
  obtain ⟨m1, cap1, q1, q2, q3, q4⟩ := hinc
  obtain ⟨s', f, bk, e1, e2, e3, e4⟩ := insertRange_spec ci (target c own A.length xs.length cap (vs.map (·.2))) Prod.fst vs xs
    _ (insertSound (n0 := m.numCols) (B := B) (xs := xs) vs) hx hv m m1 (Mid.start h) q1 (by rw [← q2]; exact Mid.open q3 _ q4)
  have hn : s'.numCols = m.numCols := by obtain ⟨_, _, _, _, q, _⟩ := e2; exact q
  obtain ⟨s2, cap', e5, hg⟩ := e2.finish (c := c)
  have hlen : xs.length + newCount Prod.fst xs vs = (f ++ bk).length := by
    have : (f ++ bk).Perm (xs ++ vs.filter (fun v => decide (∀ x ∈ xs, x.1 ≠ v.1))) := by
      rw [List.perm_ext_iff_of_nodup (nodup_of_increasing e3) ?_]
      · intro x
        rw [e4 x]
        simp
      · rw [List.nodup_append]
        refine ⟨nodup_of_increasing hx, (nodup_of_increasing hv).filter _, ?_⟩
        intro a ha b hb e
        subst e
        simp only [List.mem_filter, decide_eq_true_eq] at hb
        exact hb.2 a ha rfl
    rw [this.length_eq, List.length_append]
    rfl
  unfold insertNonZerosIn
  rw [h.shape.sizeOfAt rfl, bind_ok, h.shape.capacityOfAt rfl, bind_ok, h.readOff, bind_ok]
  simp only at e1 ⊢
  rw [e1, bind_ok]
  simp only
  rw [hlen, e5, bind_ok]
  exact ⟨_, _, cap', rfl, hn, hg, e3, e4⟩

theorem insertMany_err (h : CGood m (A ++ (xs, cap) :: B)) (hx : Increasing Prod.fst xs) (vs : List (Nat × V))
    (hv : Increasing Prod.fst vs) (e : Err) (hinc : inc c own A.length xs.length cap m (newCount Prod.fst xs vs) = .error e) :
    insertNonZerosIn ci c own m A.length (vs.map (·.1)) (vs.map (·.2)) = .error e := by
  have := insertRange_abort ci (target c own A.length xs.length cap (vs.map (·.2))) Prod.fst vs xs m
    (fun i hi => readRow h i hi) hx hv e hinc
  unfold insertNonZerosIn
  rw [h.shape.sizeOfAt rfl, bind_ok, h.shape.capacityOfAt rfl, bind_ok, h.readOff, bind_ok]
  simp only at this ⊢
  rw [this, bind_err]

theorem remove_ok (h : CGood m (A ++ (xs, cap) :: B)) (hx : Increasing Prod.fst xs) (k : Nat) :
    ∃ m' cap', removeNonZeroIn ci c m A.length k = .ok (m', decide (∃ x ∈ xs, x.1 = k)) ∧ m'.numCols = m.numCols ∧
      CGood m' (A ++ (xs.filter (fun x => decide (x.1 ≠ k)), cap') :: B) := by
  obtain ⟨s', e1, hm⟩ := removeOne_spec ci (target c false A.length xs.length cap []) Prod.fst xs k m
    (fun i hi => readRow h i hi) hx (fun s ys => Mid @IsRaw @IsRaw m.numCols A B xs s ys 0 []) (Mid.start h)
    (fun f1 x f2 hf => by
      have w := winC h IsRaw
      have w' := winE h IsRaw
      have hp := h.rowPtr
      rw [hf, List.map_append, List.map_cons] at w w'
      obtain ⟨b1, e1, e2⟩ := w.eraseOne ci
      obtain ⟨d1, k1, k2⟩ := w'.eraseOne c
      rw [← List.map_cons, ← List.map_append, List.length_map, List.length_map, ← hf] at e1 k1
      refine ⟨_, { m with columns := b1, entries := d1 }, modify_ok hp e1, ?_, m, cap, h, rfl, rfl, ?_, ?_⟩
      · show (arrayManipulation.erase c m.entries (m.rowPtr A.length) _ _ _ >>= fun entries => _) = _
        rw [hp, k1, bind_ok]
      · simpa using e2
      · simpa using k2)
  have hn : s'.numCols = m.numCols := by obtain ⟨_, _, _, _, q, _⟩ := hm; exact q
  obtain ⟨s2, cap', e2, hg⟩ := hm.finish (c := c)
  rw [List.append_nil] at e2 hg
  have hlen : xs.length - (if decide (∃ x ∈ xs, x.1 = k) = true then 1 else 0) =
      (xs.filter (fun x => decide (x.1 ≠ k))).length := by
    clear e1 e2 hg hm h
    induction xs with
    | nil => simp
    | cons x xs ih =>
      have hx' := List.pairwise_cons.1 hx
      have ih := ih hx'.2
      by_cases hk : x.1 = k
      · have hno : ∀ y ∈ xs, y.1 ≠ k := fun y hy e => by have := hx'.1 y hy; rw [hk, e] at this; omega
        have : xs.filter (fun x => decide (x.1 ≠ k)) = xs := List.filter_eq_self.2 (fun y hy => by simpa using hno y hy)
        rw [List.filter_cons_of_neg (by simpa using hk), this]
        simp [hk]
      · rw [List.filter_cons_of_pos (by simpa using hk)]
        simp only [List.length_cons, List.mem_cons, exists_eq_or_imp, hk, false_or]
        rw [← ih]
        split
        · rename_i hex
          obtain ⟨y, hy, _⟩ := of_decide_eq_true hex
          have := List.length_pos_of_mem hy
          omega
        · omega
  unfold removeNonZeroIn
  rw [h.shape.sizeOfAt rfl, bind_ok, h.shape.capacityOfAt rfl, bind_ok, h.readOff, bind_ok]
  simp only at e1 ⊢
  rw [e1, bind_ok]
  simp only
  rw [hlen, e2, bind_ok]
  exact ⟨_, cap', rfl, hn, hg⟩

theorem removeMany_ok (h : CGood m (A ++ (xs, cap) :: B)) (hx : Increasing Prod.fst xs) (ks : List Nat)
    (hk : ks.Pairwise (· < ·)) :
    ∃ m' cap', removeNonZerosIn ci c m A.length ks = .ok (m', (xs.filter (fun x => decide (x.1 ∈ ks))).length) ∧
      m'.numCols = m.numCols ∧ CGood m' (A ++ (xs.filter (fun x => decide (x.1 ∉ ks)), cap') :: B) := by
  obtain ⟨s', e1, hm⟩ := removeRange_spec ci (target c false A.length xs.length cap []) Prod.fst _
    (removeSound (n0 := m.numCols) (B := B) (xs := xs)) xs ks m hx hk
    (by
      obtain ⟨m0, cap, hg, hs, hn, w, w'⟩ := Mid.start (Q := @NotRaw) (Q' := @NotRaw) h
      exact ⟨m0, cap, hg, hs, hn, w.join NotRaw (xs.map Prod.fst) [] (by simp), w'.join NotRaw (xs.map Prod.snd) [] (by simp)⟩)
    (fun s kept => ∃ m0 cap, CGood m0 (A ++ (xs, cap) :: B) ∧ s.shape = m0.shape ∧ s.numCols = m.numCols ∧
      Win IsRaw m0.columns s.columns (total A) cap (kept.map (·.1)) 0 [] ∧
      ∃ d, kept.length + d = xs.length ∧ Win NotRaw m0.entries s.entries (total A) cap (kept.map (·.2)) d [])
    ⟨m, cap, h, rfl, rfl, winC h _, 0, by simp, winE h _⟩
    (fun s kept d hkd hkk => by
      have hp := hkk.rowPtr
      obtain ⟨m0, cap, hg, hs, hn, w, w'⟩ := hkk
      rw [List.map_nil] at w w'
      obtain ⟨b1, q1, q2⟩ := w.destroyTail ci xs.length (by simpa using hkd) IsRaw
      exact ⟨_, modify_ok hp q1, m0, cap, hg, hs, hn, q2, d, hkd, w'⟩)
  obtain ⟨m0, cap', hg, hs, hn, w, d, hd, w'⟩ := hm
  have hsum : (xs.filter (fun x => decide (x.1 ∈ ks))).length + (xs.filter (fun x => decide (x.1 ∉ ks))).length = xs.length := by
    have := List.length_eq_length_filter_add (l := xs) (fun x => decide (x.1 ∈ ks))
    rw [this]
    congr 2
    exact List.filter_congr (fun x _ => by simp)
  have hd' : d = (xs.filter (fun x => decide (x.1 ∈ ks))).length := by omega
  subst hd'
  obtain ⟨d1, k1, k2⟩ := w'.destroyTail c xs.length (by simpa using hd) IsRaw
  have hmid : Mid @IsRaw @IsRaw m.numCols A B xs { s' with entries := d1 } (xs.filter (fun x => decide (x.1 ∉ ks))) 0 [] :=
    ⟨m0, cap', hg, hs, hn, w, k2⟩
  obtain ⟨s2, cap2, e2, hg2⟩ := hmid.finish (c := c)
  rw [List.append_nil] at e2 hg2
  unfold removeNonZerosIn
  rw [h.shape.sizeOfAt rfl, bind_ok, h.shape.capacityOfAt rfl, bind_ok, h.readOff, bind_ok]
  simp only at e1 ⊢
  rw [e1, bind_ok]
  simp only
  rw [show xs.length - (xs.filter (fun x => decide (x.1 ∈ ks))).length = (xs.filter (fun x => decide (x.1 ∉ ks))).length by omega]
  have e2' : s'.shape.setSize c A.length (xs.filter (fun x => decide (x.1 ∉ ks))).length = .ok s2 := e2
  rw [e2', bind_ok, k1, bind_ok]
  exact ⟨_, cap2, rfl, hn, hg2⟩

theorem isEmpty_ok (h : CGood m (A ++ (xs, cap) :: B)) (hx : Increasing Prod.fst xs) (k : Nat) :
    isEmpty c m A.length k = .ok (!decide (∃ x ∈ xs, x.1 = k)) := by
  unfold Crs.isEmpty sortedArrayManipulation.contains
  rw [ShGood.checkBounds h.shape (by simp), bind_ok, h.shape.sizeOfAt rfl, bind_ok, h.readOff, bind_ok]
  have hread : ∀ i (hi : i < xs.length), m.columns.read (total A + i) = .ok xs[i].1 := fun i hi => by
    rw [← h.rowPtr]; exact readRow h i hi
  obtain ⟨f1, f2, hf, hfind, h1, h2⟩ := find_split c Prod.fst (fun k => m.columns.read (total A + k)) xs k hx hread
  simp only
  rw [hfind, bind_ok]
  have := present_eq Prod.fst (fun k => m.columns.read (total A + k)) f1 f2 k (by rw [← hf]; exact hread) h2 (hf ▸ hx)
  rw [← hf] at this
  rw [this, bind_ok]
  have hiff : (∃ x ∈ f2, x.1 = k) ↔ ∃ x ∈ xs, x.1 = k := by
    rw [hf]
    simp only [List.mem_append]
    constructor
    · rintro ⟨x, hx, e⟩; exact ⟨x, .inr hx, e⟩
    · rintro ⟨x, hx | hx, e⟩
      · have := h1 x hx; omega
      · exact ⟨x, hx, e⟩
  rw [decide_eq_decide.2 hiff]

theorem getColumn_ok (h : CGood m (A ++ (xs, cap) :: B)) (k : Nat) (hk : k < xs.length) :
    getColumn c m A.length k = .ok xs[k].1 := by
  unfold getColumn
  rw [ShGood.checkBounds2 h.shape (by simp) (by simpa [szs] using hk), bind_ok, h.readOff, bind_ok,
    (winC h IsRaw).read_front k (by simpa using hk)]
  simp

theorem getEntry_ok (h : CGood m (A ++ (xs, cap) :: B)) (k : Nat) (hk : k < xs.length) :
    getEntry c m A.length k = .ok xs[k].2 := by
  unfold getEntry
  rw [ShGood.checkBounds2 h.shape (by simp) (by simpa [szs] using hk), bind_ok, h.readOff, bind_ok,
    (winE h IsRaw).read_front k (by simpa using hk)]
  simp

/-- Replace the entries of a row in place. -/
theorem setEntries (h : CGood m (A ++ (xs, cap) :: B)) {ys : List (Nat × V)} (hy : ys.map (·.1) = xs.map (·.1)) {b : Buf V}
    {Q : Cell V → Prop} (w : Win Q m.entries b (total A) cap (ys.map (·.2)) 0 []) :
    CGood { m with entries := b } (A ++ (ys, cap) :: B) := by
  have hl : ys.length = xs.length := by simpa using congrArg List.length hy
  refine ⟨?_, ?_, ?_⟩
  · have := h.shape
    unfold LShape at this ⊢
    simpa [hl] using this
  · have := h.layC
    simp only [mapL_append, mapL_cons] at this ⊢
    rw [hy]; exact this
  · have := h.layE
    rw [mapL_append, mapL_cons] at this
    have := this.ofWin (b' := b) (Q := Q) (ys := ys.map (·.2)) (by rw [mapL_total]; exact w)
    simpa using this

/-! ## Adding to a row -/

variable [Add V]

/-- Add to the entry in column `a.1`. -/
def addTo (xs : List (Nat × V)) (a : Nat × V) : List (Nat × V) := xs.map fun x => if x.1 = a.1 then (x.1, x.2 + a.2) else x

theorem addTo_split {f g : List (Nat × V)} {k : Nat} {x v : V} (h : Increasing Prod.fst (f ++ (k, x) :: g)) :
    addTo (f ++ (k, x) :: g) (k, v) = f ++ (k, x + v) :: g := by
  unfold addTo
  rw [List.map_append, List.map_cons, if_pos rfl]
  have h' := List.pairwise_append.1 h
  have e1 : f.map (fun x => if x.1 = k then (x.1, x.2 + v) else x) = f := by
    conv => rhs; rw [← List.map_id f]
    apply List.map_congr_left
    intro y hy
    have : y.1 < k := h'.2.2 y hy (k, x) (by simp)
    rw [if_neg (by omega)]; rfl
  have e2 : g.map (fun x => if x.1 = k then (x.1, x.2 + v) else x) = g := by
    conv => rhs; rw [← List.map_id g]
    apply List.map_congr_left
    intro y hy
    have : k < y.1 := (List.pairwise_cons.1 h'.2.1).1 y hy
    rw [if_neg (by omega)]; rfl
  rw [e1, e2]

theorem addTo_keys (xs : List (Nat × V)) (a : Nat × V) : (addTo xs a).map (·.1) = xs.map (·.1) := by
  unfold addTo
  rw [List.map_map]
  apply List.map_congr_left
  intro x _
  simp only [Function.comp]
  split <;> rfl

theorem addTo_length (xs : List (Nat × V)) (a : Nat × V) : (addTo xs a).length = xs.length := by simp [addTo]

omit [Add V] in
theorem increasing_of_keys {xs ys : List (Nat × V)} (h : Increasing Prod.fst xs) (hk : ys.map (·.1) = xs.map (·.1)) :
    Increasing Prod.fst ys := by
  unfold Increasing at h ⊢
  rw [← List.pairwise_map] at h ⊢
  rw [hk]; exact h

theorem addAt_ok {f g : List (Nat × V)} {k : Nat} {x : V} (h : CGood m (A ++ (f ++ (k, x) :: g, cap) :: B)) (v : V) :
    ∃ m', addAt c m A.length f.length v = .ok m' ∧ m'.numCols = m.numCols ∧
      CGood m' (A ++ (f ++ (k, x + v) :: g, cap) :: B) := by
  unfold addAt
  have w := winE h IsRaw
  have hr := w.read_front f.length (by simp)
  obtain ⟨b1, h1, w1⟩ := w.writeAt (c := c) f.length (by simp) (x + v)
  have e : ((f ++ (k, x) :: g).map (·.2)).set f.length (x + v) = (f ++ (k, x + v) :: g).map (·.2) := by simp
  rw [e] at w1
  rw [h.rowPtr, hr, bind_ok]
  have hx : ((f ++ (k, x) :: g).map (·.2))[f.length]'(by simp) = x := by simp
  rw [hx, h1, bind_ok]
  exact ⟨_, rfl, rfl, setEntries h (by simp) w1⟩

theorem column_ok (h : CGood m (A ++ (xs, cap) :: B)) (i : Nat) (hi : i < xs.length) :
    column m A.length i = .ok xs[i].1 := readRow h i hi

theorem assertColumn_ok {f g : List (Nat × V)} {k : Nat} {x : V} (h : CGood m (A ++ (f ++ (k, x) :: g, cap) :: B)) :
    assertColumn c m A.length (f ++ (k, x) :: g).length f.length k = .ok () := by
  unfold assertColumn
  rw [column_ok h f.length (by simp)]
  split
  · rw [decide_eq_false (by simp), errorIf_false, bind_ok, bind_ok]
    simp [errorIf]
  · rfl

theorem binaryLoop_ok (args : List (Nat × V)) : ∀ (m : Crs V) (f g : List (Nat × V)), CGood m (A ++ (f ++ g, cap) :: B) →
    Increasing Prod.fst (f ++ g) → Increasing Prod.fst args → (∀ a ∈ args, ∃ x ∈ g, x.1 = a.1) →
    ∃ m', binaryLoop c A.length (f ++ g).length m f.length args = .ok m' ∧ m'.numCols = m.numCols ∧
      CGood m' (A ++ (args.foldl addTo (f ++ g), cap) :: B) := by
  induction args with
  | nil => intro m f g h _ _ _; exact ⟨m, rfl, rfl, h⟩
  | cons a args ih =>
    intro m f g h hi ha hp
    obtain ⟨k, v⟩ := a
    have hg : Increasing Prod.fst g := (List.pairwise_append.1 hi).2.1
    obtain ⟨g1, g2, hgs, hf, h1, h2⟩ := find_split c Prod.fst (fun k => column m A.length (f.length + k)) g k hg
      (fun i hi' => by
        rw [column_ok h (f.length + i) (by simp; omega)]
        rw [List.getElem_append_right (by omega)]
        simp)
    -- the column is at the found position
    obtain ⟨y, hy, hyk⟩ := hp (k, v) (by simp)
    simp only at hyk
    have hy2 : y ∈ g2 := by
      rw [hgs, List.mem_append] at hy
      rcases hy with hy | hy
      · have := h1 y hy; omega
      · exact hy
    obtain ⟨x, g3, hx⟩ : ∃ x g3, g2 = (k, x) :: g3 := by
      cases g2 with
      | nil => cases hy2
      | cons z g3 =>
        refine ⟨z.2, g3, ?_⟩
        have hz := h2 z (by simp)
        have hzy : z.1 ≤ y.1 := by
          rcases List.mem_cons.1 hy2 with rfl | hy3
          · exact Nat.le_refl _
          · have := (List.pairwise_cons.1 (List.pairwise_append.1 (hgs ▸ hg)).2.1).1 y hy3
            exact Nat.le_of_lt this
        have : z.1 = k := by omega
        rw [← this]
    subst hx
    subst hgs
    have hre : f ++ (g1 ++ (k, x) :: g3) = (f ++ g1) ++ (k, x) :: g3 := by simp
    unfold binaryLoop
    rw [if_neg (by simp)]
    have hlen : (f ++ (g1 ++ (k, x) :: g3)).length - f.length = (g1 ++ (k, x) :: g3).length := by simp
    rw [hlen, hf, bind_ok]
    simp only
    rw [show g1.length + f.length = (f ++ g1).length by simp; omega]
    rw [hre] at h hi ⊢
    rw [assertColumn_ok h, bind_ok]
    obtain ⟨m1, e1, n1, c1⟩ := addAt_ok (c := c) h v
    rw [e1, bind_ok]
    have hre2 : (f ++ g1) ++ (k, x + v) :: g3 = (f ++ g1 ++ [(k, x + v)]) ++ g3 := by simp
    rw [hre2] at c1
    have hk2 : (f ++ g1 ++ [(k, x + v)] ++ g3).map (·.1) = ((f ++ g1) ++ (k, x) :: g3).map (·.1) := by simp
    obtain ⟨m2, e2, n2, c2⟩ := ih m1 (f ++ g1 ++ [(k, x + v)]) g3 c1 (increasing_of_keys hi hk2) (List.pairwise_cons.1 ha).2
      (by
        intro b hb
        obtain ⟨z, hz, hzb⟩ := hp b (by simp [hb])
        refine ⟨z, ?_, hzb⟩
        have hkb : k < b.1 := (List.pairwise_cons.1 ha).1 b hb
        simp only [List.mem_append, List.mem_cons] at hz
        rcases hz with hz | rfl | hz
        · have := h1 z hz; omega
        · simp only at hzb; omega
        · exact hz)
    have hl2 : (f ++ g1 ++ [(k, x + v)] ++ g3).length = ((f ++ g1) ++ (k, x) :: g3).length := by
      simpa using congrArg List.length hk2
    rw [hl2, List.length_append (bs := [(k, x + v)]), List.length_singleton] at e2
    rw [e2]
    refine ⟨m2, rfl, by rw [n2, n1], ?_⟩
    rw [List.foldl_cons, addTo_split hi, hre2]
    exact c2

theorem linearScan_ok (h : CGood m (A ++ (xs, cap) :: B)) (curPos k : Nat) : ∀ (g : List (Nat × V)) (f g2 : List (Nat × V)) (x : V),
    xs = f ++ g ++ (k, x) :: g2 → (∀ y ∈ g, y.1 ≠ k) → ∀ fuel, g.length < fuel →
    linearScan m A.length curPos k fuel f.length = .ok (f ++ g).length := by
  intro g
  induction g with
  | nil =>
    intro f g2 x hx _ fuel hfu
    obtain ⟨fuel, rfl⟩ : ∃ q, fuel = q + 1 := ⟨fuel - 1, by omega⟩
    unfold linearScan
    rw [column_ok h f.length (by rw [hx]; simp), bind_ok]
    simp [hx]
  | cons y g ih =>
    intro f g2 x hx hno fuel hfu
    obtain ⟨fuel, rfl⟩ : ∃ q, fuel = q + 1 := ⟨fuel - 1, by omega⟩
    unfold linearScan
    rw [column_ok h f.length (by rw [hx]; simp), bind_ok]
    have hy : (xs[f.length]'(by rw [hx]; simp)) = y := by simp [hx]
    rw [hy, if_neg (hno y (by simp))]
    have := ih (f ++ [y]) g2 x (by rw [hx]; simp) (fun z hz => hno z (by simp [hz])) fuel (by simp at hfu; omega)
    rw [List.length_append, List.length_singleton] at this
    rw [this]
    simp

theorem assertFound_ok {f g : List (Nat × V)} {k : Nat} {x : V} (h : CGood m (A ++ (f ++ (k, x) :: g, cap) :: B)) :
    assertFound c m A.length f.length k = .ok () := by
  unfold assertFound
  rw [column_ok h f.length (by simp)]
  split
  · simp [errorIf]
  · rfl

/-- Where a column of a row is. -/
theorem split_at {g : List (Nat × V)} {k : Nat} (hg : Increasing Prod.fst g) (hp : ∃ x ∈ g, x.1 = k) :
    ∃ g1 x g2, g = g1 ++ (k, x) :: g2 ∧ (∀ y ∈ g1, y.1 < k) ∧ ∀ y ∈ g2, k < y.1 := by
  obtain ⟨y, hy, hyk⟩ := hp
  obtain ⟨g1, g2, rfl⟩ := List.append_of_mem hy
  have h' := List.pairwise_append.1 hg
  refine ⟨g1, y.2, g2, by rw [← hyk], ?_, ?_⟩
  · intro z hz
    have := h'.2.2 z hz y (by simp)
    omega
  · intro z hz
    have := (List.pairwise_cons.1 h'.2.1).1 z hz
    omega

theorem linearLoop_ok (args : List (Nat × V)) : ∀ (m : Crs V) (f g : List (Nat × V)), CGood m (A ++ (f ++ g, cap) :: B) →
    Increasing Prod.fst (f ++ g) → Increasing Prod.fst args → (∀ a ∈ args, ∃ x ∈ g, x.1 = a.1) →
    ∃ m', linearLoop c A.length (f ++ g).length m f.length args = .ok m' ∧ m'.numCols = m.numCols ∧
      CGood m' (A ++ (args.foldl addTo (f ++ g), cap) :: B) := by
  induction args with
  | nil => intro m f g h _ _ _; exact ⟨m, rfl, rfl, h⟩
  | cons a args ih =>
    intro m f g h hi ha hp
    obtain ⟨k, v⟩ := a
    have hg : Increasing Prod.fst g := (List.pairwise_append.1 hi).2.1
    obtain ⟨g1, x, g3, rfl, h1, h2⟩ := split_at hg (hp (k, v) (by simp))
    have hre : f ++ (g1 ++ (k, x) :: g3) = (f ++ g1) ++ (k, x) :: g3 := by simp
    unfold linearLoop
    have hlen : (f ++ (g1 ++ (k, x) :: g3)).length - f.length = (g1 ++ (k, x) :: g3).length := by simp
    have hscan := linearScan_ok (m := m) h f.length k g1 f g3 x hre (fun y hy => by have := h1 y hy; omega)
      (g1 ++ (k, x) :: g3).length (by simp)
    rw [hlen, hscan, bind_ok]
    rw [hre] at h hi ⊢
    rw [assertFound_ok h, bind_ok]
    obtain ⟨m1, e1, n1, c1⟩ := addAt_ok (c := c) h v
    rw [e1, bind_ok]
    have hre2 : (f ++ g1) ++ (k, x + v) :: g3 = (f ++ g1 ++ [(k, x + v)]) ++ g3 := by simp
    rw [hre2] at c1
    have hk2 : (f ++ g1 ++ [(k, x + v)] ++ g3).map (·.1) = ((f ++ g1) ++ (k, x) :: g3).map (·.1) := by simp
    obtain ⟨m2, e2, n2, c2⟩ := ih m1 (f ++ g1 ++ [(k, x + v)]) g3 c1 (increasing_of_keys hi hk2) (List.pairwise_cons.1 ha).2
      (by
        intro b hb
        obtain ⟨z, hz, hzb⟩ := hp b (by simp [hb])
        refine ⟨z, ?_, hzb⟩
        have hkb : k < b.1 := (List.pairwise_cons.1 ha).1 b hb
        simp only [List.mem_append, List.mem_cons] at hz
        rcases hz with hz | rfl | hz
        · have := h1 z hz; omega
        · simp only at hzb; omega
        · exact hz)
    have hl2 : (f ++ g1 ++ [(k, x + v)] ++ g3).length = ((f ++ g1) ++ (k, x) :: g3).length := by
      simpa using congrArg List.length hk2
    rw [hl2, List.length_append (bs := [(k, x + v)]), List.length_singleton] at e2
    rw [e2]
    refine ⟨m2, rfl, by rw [n2, n1], ?_⟩
    rw [List.foldl_cons, addTo_split hi, hre2]
    exact c2

theorem unsortedLoop_ok (args : List (Nat × V)) : ∀ (m : Crs V) (xs : List (Nat × V)), CGood m (A ++ (xs, cap) :: B) →
    Increasing Prod.fst xs → (∀ a ∈ args, ∃ x ∈ xs, x.1 = a.1) →
    ∃ m', unsortedLoop c A.length xs.length m args = .ok m' ∧ m'.numCols = m.numCols ∧
      CGood m' (A ++ (args.foldl addTo xs, cap) :: B) := by
  induction args with
  | nil => intro m xs h _ _; exact ⟨m, rfl, rfl, h⟩
  | cons a args ih =>
    intro m xs h hi hp
    obtain ⟨k, v⟩ := a
    obtain ⟨g1, x, g3, rfl, k1, k2⟩ := split_at hi (hp (k, v) (by simp))
    obtain ⟨f1, f2, hgs, hf, h1, h2⟩ := find_split c Prod.fst (column m A.length) _ k hi (fun i hi' => column_ok h i hi')
    have hlen : f1.length = g1.length := by
      apply Nat.le_antisymm
      · by_contra hlt
        have : (k, x) ∈ f1 := by
          have hm : g1.length < f1.length := by omega
          have : (f1 ++ f2)[g1.length]? = some (k, x) := by rw [← hgs]; simp
          rw [List.getElem?_append_left hm] at this
          exact List.mem_of_getElem? this
        exact absurd (h1 _ this) (by simp)
      · by_contra hlt
        have hm : f1.length < g1.length := by omega
        have hget : (g1 ++ (k, x) :: g3)[f1.length]? = some g1[f1.length] := by
          rw [List.getElem?_append_left hm]; simp [hm]
        rw [hgs, List.getElem?_append_right (Nat.le_refl _), Nat.sub_self] at hget
        have := h2 _ (List.mem_of_getElem? hget)
        have := k1 g1[f1.length] (List.getElem_mem _)
        omega
    unfold unsortedLoop
    rw [hf, bind_ok, hlen, assertColumn_ok h, bind_ok]
    obtain ⟨m1, e1, n1, c1⟩ := addAt_ok (c := c) h v
    rw [e1, bind_ok]
    have hk2 : (g1 ++ (k, x + v) :: g3).map (·.1) = (g1 ++ (k, x) :: g3).map (·.1) := by simp
    obtain ⟨m2, e2, n2, c2⟩ := ih m1 _ c1 (increasing_of_keys hi hk2) (by
      intro b hb
      obtain ⟨z, hz, hzb⟩ := hp b (by simp [hb])
      have : b.1 ∈ (g1 ++ (k, x + v) :: g3).map (·.1) := by rw [hk2]; exact List.mem_map.2 ⟨z, hz, hzb⟩
      obtain ⟨w, hw, e⟩ := List.mem_map.1 this
      exact ⟨w, hw, e⟩)
    have hl2 : (g1 ++ (k, x + v) :: g3).length = (g1 ++ (k, x) :: g3).length := by simp
    rw [hl2] at e2
    rw [e2]
    refine ⟨m2, rfl, by rw [n2, n1], ?_⟩
    rw [List.foldl_cons, addTo_split hi]
    exact c2

end Crs

end LvArray

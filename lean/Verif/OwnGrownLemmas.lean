import Verif.OwnEntriesLemmas
import Verif.CrsStep

/-!
# Inserting an entry of the matrix itself into a row that has to be given a larger capacity
-/

namespace LvArray.OwnEntries

open Layout arrayManipulation sortedArrayManipulation OwnSets

variable {V : Type} {c : Cfg} {own : Bool} {m m1 : Crs V} {A B : Layout (Nat × V)} {xs : List (Nat × V)} {cap cap1 q : Nat}

/-- The position of a column that is not in the row. -/
theorem grown_position (h : CGood m (A ++ (xs, cap) :: B)) (hx : Increasing Prod.fst xs) {col pos : Nat}
    (hpos : pos = (xs.filter fun x => decide (x.1 < col)).length) :
    insertPosition c.ix (fun i => m.columns.read (m.rowPtr A.length + i)) xs.length col = .ok pos ∧ pos ≤ xs.length := by
  obtain ⟨f1, f2, hf, hp, h1, h2⟩ := insertPosition_split c.ix Prod.fst (fun i => m.columns.read (m.rowPtr A.length + i)) xs col hx
    (fun i hi => Crs.readRow h i hi)
  have hpf : pos = f1.length := by
    rw [hpos, hf, List.filter_append, List.filter_eq_self.2 (fun x hx => decide_eq_true (h1 x hx)),
      List.filter_eq_nil_iff.2 (fun x hx => by simpa using h2 x hx), List.append_nil]
  exact ⟨by rw [hp, hpf], by rw [hpf, hf]; simp⟩

/-- Inserting through a reference that reads `r` once the entries have been shifted. -/
theorem insertNonZeroOwn_reads (h : CGood m (A ++ (xs, cap) :: B)) (hx : Increasing Prod.fst xs) {col j k pos : Nat}
    (hit : m.elementAt c j k = .ok q) (habs : ∀ x ∈ xs, x.1 ≠ col)
    (hpos : pos = (xs.filter fun x => decide (x.1 < col)).length)
    (hinc : Crs.inc c own A.length xs.length cap m 1 = .ok m1) (hnum : m1.numCols = m.numCols)
    (hg : CGood m1 (A ++ (xs, cap1) :: B)) (hroom : xs.length + 1 ≤ cap1) (v0 : V) (r : R V)
    (hr : ∀ (s : Crs V) b, arrayManipulation.shiftUp c m1.entries (total A) xs.length pos 1 = .ok b →
      m.readOwnEntry c { s with entries := b } q = r) :
    m.insertNonZeroOwn c own A.length col j k =
      match (generalizing := false) r with
      | .ok e => m.insertNonZero c own A.length col e
      | .error err => .error err := by
  obtain ⟨hp, -⟩ := grown_position (c := c) h hx hpos
  have href := insertOne_ref (c := c) (own := own) m A.length xs.length cap col
    (fun s i => m.readOwnEntry c s (q + i)) r (by
    intro pos' m2 s2 b hp' _ hi _ _ hb
    rw [show (Crs.target c own A.length xs.length cap ([] : List V)).incrementSize m 1 = .ok m1 from hinc] at hi
    have hi : m1 = m2 := by injection hi
    subst hi
    rw [hp] at hp'
    injection hp' with hp'
    subst hp'
    rw [hg.rowPtr] at hb
    exact hr s2 b hb)
  cases r with
  | ok e =>
    simp only at href ⊢
    unfold Crs.insertNonZeroOwn Crs.insertNonZero Crs.insertNonZeroIn
    simp only [hit, h.shape.sizeOfAt (i := A.length) rfl, h.shape.capacityOfAt (i := A.length) rfl, h.readOff, bind_ok]
    rw [href]
  | error err =>
    simp only at href ⊢
    have hfit := h.layC.fits (xs.map (·.1), cap) (by simp [mapL])
    simp only [List.length_map] at hfit
    obtain ⟨m', ys, cap', q1, -⟩ := Crs.insert_ok (ci := c.ix) (c := c) (own := own) h hx col v0 (fun n hn => by
      rw [if_pos habs] at hn
      rcases Nat.lt_or_ge n 1 with h0 | h0
      · exact ⟨m, cap, inc_room _ _ _ (by omega) _, rfl, h, by omega⟩
      · have : n = 1 := by omega
        subst this
        exact ⟨m1, cap1, hinc, hnum, hg, hroom⟩)
    unfold Crs.insertNonZeroIn at q1
    unfold Crs.insertNonZeroOwn
    simp only [h.shape.sizeOfAt (i := A.length) rfl, h.shape.capacityOfAt (i := A.length) rfl, h.readOff, bind_ok] at q1
    simp only [hit, h.shape.sizeOfAt (i := A.length) rfl, h.shape.capacityOfAt (i := A.length) rfl, h.readOff, bind_ok]
    obtain ⟨⟨r1, r2⟩, q2, q1⟩ := LvArray.bind_eq_ok.1 q1
    obtain ⟨sh, -, q1⟩ := LvArray.bind_eq_ok.1 q1
    have hr : r2 = true := by
      injection q1 with q1
      injection q1 with _ q1
      simp only at q1
      rw [q1, decide_eq_true_iff]; exact habs
    subst hr
    rw [href, insertOne_unreadable m _ _ _ _ _ _ _ q2, bind_err]

/-- The entries have been allocated anew: the reference dangles. -/
theorem grown_dangling {pos n : Nat} (hle : pos ≤ n) (hcap : m.entries.cap < m1.entries.cap) (s : Crs V) (p k : Nat) (b : Buf V)
    (hb : arrayManipulation.shiftUp c m1.entries p n pos 1 = .ok b) :
    m.readOwnEntry c { s with entries := b } k = .error (.ub .dangling) := by
  have k0 : Keeps 0 m1.entries.cap ([] : List V) m1.entries := ⟨rfl, fun k hk => absurd hk (by simp)⟩
  have := (k0.shiftUp hle (.inl (by simp)) hb).1
  unfold Crs.readOwnEntry
  exact if_pos (by show _ < b.cap; omega)

/-- The entries have stayed where they are, and the reference is to a row in front. -/
theorem grown_front {pos n : Nat} (hle : pos ≤ n) (hcap : m1.entries.cap = m.entries.cap) {e : V} (ke : Keeps q m1.entries.cap [e] m1.entries)
    (hq : q + 1 ≤ m.entries.cap) (s : Crs V) (p : Nat) (hqp : q + 1 ≤ p) (b : Buf V)
    (hb : arrayManipulation.shiftUp c m1.entries p n pos 1 = .ok b) :
    m.readOwnEntry c { s with entries := b } q = .ok e := by
  rw [hcap] at ke
  have := ke.shiftUp hle (.inl (by simpa using hqp)) hb
  have := readOwnEntry_keeps c (m := m) (s := { s with entries := b }) this (by simpa using hq) 0 (by simp)
  simpa using this

/-- The entries have stayed where they are, and the reference is to the row itself. -/
theorem grown_self (h : CGood m1 (A ++ (xs, cap1) :: B)) (hcap : m1.entries.cap = m.entries.cap) {k pos : Nat}
    (hk : k < xs.length) (hroom : xs.length + 1 ≤ cap1) (hle : pos ≤ xs.length) (s2 : Crs V) (b : Buf V)
    (hb : arrayManipulation.shiftUp c m1.entries (total A) xs.length pos 1 = .ok b)
    (hst : pos < xs.length → m.entries.cell (total A + pos) = m1.entries.cell (total A + pos)) :
    m.readOwnEntry c { s2 with entries := b } (total A + k) =
      match shifted c.trivial (xs.map (·.2)) pos k with
      | some e => .ok e
      | none => .error (.ub .rawRead) := by
  have w := Crs.winE h IsRaw
  have hcell : ∀ i (hi : i < xs.length), m1.entries.cell (total A + i) = .live xs[i].2 := fun i hi => by
    have := w.front i (by simpa using hi)
    simpa using this
  have hfit := w.inside
  have hraw : ∀ i, xs.length ≤ i → i < cap1 → m1.entries.cell (total A + i) = .raw := fun i h1 h2 => by
    rw [h.layE.cell, mapL_append, mapL_cons, ← mapL_total Prod.snd A, cells_row _ _ _ _ _ h2]
    exact cellsOf_ge (by simpa using h1)
  rw [arrayManipulation.shiftUp_eq c m1.entries (total A) xs.length pos 1 hle (by omega)
      (fun i hi1 hi2 => by
        have := hcell (i - total A) (by omega)
        rw [show total A + (i - total A) = i by omega] at this
        rw [this]; rfl)
      (fun i hi1 hi2 => by
        have := hraw (i - total A) (by omega) (by omega)
        rwa [show total A + (i - total A) = i by omega] at this)] at hb
  injection hb with hb
  subst hb
  unfold Crs.readOwnEntry Buf.readStale Buf.read shifted
  simp only [hcap, Nat.lt_irrefl, if_false, Nat.add_lt_add_iff_left, Nat.add_assoc]
  by_cases hk1 : k < pos
  · simp only [hk1, if_true]
    rw [hcell k hk]
    simp only [List.getElem?_map, List.getElem?_eq_getElem hk, Option.map_some]
    rw [if_pos (by omega)]
  · by_cases hk2 : k = pos
    · subst hk2
      simp only [Nat.lt_irrefl, if_false, if_true, Nat.lt_succ_self]
      split
      · rw [hst hk, hcell k hk]
        simp only [List.getElem?_map, List.getElem?_eq_getElem hk, Option.map_some]
        rw [if_pos (by omega)]
      · rw [if_pos (by omega)]
    · simp only [hk1, hk2, if_false, show ¬ k < pos + 1 by omega, show k < xs.length + 1 by omega, if_true]
      rw [show total A + k - 1 = total A + (k - 1) by omega, hcell (k - 1) (by omega)]
      simp only [List.getElem?_map, List.getElem?_eq_getElem (show k - 1 < xs.length by omega), Option.map_some]
      rw [if_pos (by omega)]

/-- Inserting a part of another row that stays where it is although the row has to be given a larger capacity. -/
theorem insertNonZerosOwn_grown {args : List (Nat × V)} (h : CGood m (A ++ (xs, cap) :: B)) (hx : Increasing Prod.fst xs)
    (hv : Increasing Prod.fst args) {j lo : Nat} (hit : m.iteratorAt c j lo = .ok q)
    (kc : Keeps q m.columns.cap (args.map (·.1)) m.columns) (ke : Keeps q m.entries.cap (args.map (·.2)) m.entries)
    (hqc : q + args.length ≤ m.columns.cap) (hqe : q + args.length ≤ m.entries.cap)
    (hinc : Crs.inc c own A.length xs.length cap m (newCount Prod.fst xs args) = .ok m1) (hg : CGood m1 (A ++ (xs, cap1) :: B))
    (kc1 : Keeps q m.columns.cap (args.map (·.1)) m1.columns) (ke1 : Keeps q m.entries.cap (args.map (·.2)) m1.entries)
    (hroom : xs.length + newCount Prod.fst xs args ≤ cap1) (hd : q + args.length ≤ total A ∨ total A + cap1 ≤ q) :
    m.insertNonZerosOwn c own A.length j lo args.length =
      m.insertNonZeros c own A.length (args.map (·.1)) (args.map (·.2)) := by
  unfold Crs.insertNonZerosOwn Crs.insertNonZeros Crs.insertNonZerosIn
  simp only [hit, h.shape.sizeOfAt (i := A.length) rfl, h.shape.capacityOfAt (i := A.length) rfl, h.readOff, bind_ok]
  have hc : ∀ s : Crs V, Keeps q m.columns.cap (args.map (·.1)) s.columns → ∀ k (hk : k < (args.map (·.1)).length),
      m.readOwnColumn c s (q + k) = .ok (args.map (·.1))[k] := fun s hs k hk =>
    readOwnColumn_keeps c hs (by simpa using hqc) k hk
  have he : ∀ s : Crs V, Keeps q m.entries.cap (args.map (·.2)) s.entries → ∀ k (hk : k < (args.map (·.2)).length),
      m.readOwnEntry c s (q + k) = .ok (args.map (·.2))[k] := fun s hs k hk =>
    readOwnEntry_keeps c hs (by simpa using hqe) k hk
  have key := insertRangeRef_alike c.ix
    (Crs.targetRef c own A.length xs.length cap (fun s i => m.readOwnEntry c s (q + i)))
    (Crs.target c own A.length xs.length cap (args.map (·.2))) (alike _ _ _ _ _) (fun s i => m.readOwnColumn c s (q + i))
    (args.map (·.1)) xs.length m cap1
    (fun s => s.rowPtr A.length = total A ∧ Keeps q m.columns.cap (args.map (·.1)) s.columns ∧
      Keeps q m.entries.cap (args.map (·.2)) s.entries ∧ (q + args.length ≤ total A ∨ total A + cap1 ≤ q))
    (hc m kc) ?_ (fun s hs => hc s hs.2.1) ?_ ?_ ?_ ?_
  · rw [List.length_map] at key
    rw [key]
  · intro n s1 hz hnz hn hi
    have hcount := counted_row (c := c) h hx hv hz hnz
    subst hcount
    rw [← (alike (c := c) (own := own) A.length xs.length cap (fun s i => m.readOwnEntry c s (q + i)) (args.map (·.2))).inc,
      show (Crs.target c own A.length xs.length cap (args.map (·.2))).incrementSize m _ = .ok m1 from hinc] at hi
    have hi : m1 = s1 := by injection hi
    subst hi
    exact ⟨⟨hg.rowPtr, kc1, ke1, hd⟩, hroom⟩
  · rintro s ub pos nL s1 ⟨h1, h2, h3, h4⟩ hpos hM hm
    obtain ⟨b, hb, rfl⟩ := modify_ref hm
    rw [h1] at hb
    exact ⟨h1, h2.shiftUp hpos (by simp only [List.length_map]; omega) hb, h3, h4⟩
  · rintro s k v s1 ⟨h1, h2, h3, h4⟩ hk hm
    obtain ⟨b, hb, rfl⟩ := modify_ref hm
    rw [h1] at hb
    exact ⟨h1, h2.construct (by simp only [List.length_map]; omega) hb, h3, h4⟩
  · rintro s k ⟨h1, h2, h3, h4⟩ hk hkM
    have hk' : k < (args.map (·.2)).length := by simpa using hk
    constructor
    · unfold Crs.target Crs.targetRef
      simp only
      rw [List.getElem?_eq_getElem hk', he s h3 k hk']
      rfl
    · intro s1 hs
      change (m.readOwnEntry c s (q + k) >>= fun e => s.entries.construct c (s.rowPtr A.length + k) e >>= fun entries =>
        Except.ok { s with entries := entries }) = _ at hs
      rw [he s h3 k hk', bind_ok, h1] at hs
      obtain ⟨b, hb, hs⟩ := LvArray.bind_eq_ok.1 hs
      cases hs
      exact ⟨h1, h2, h3.construct (by simp only [List.length_map]; omega) hb, h4⟩
  · rintro s n vp pos pp ⟨h1, h2, h3, h4⟩ hvp hpos hM hne
    have hk' : vp < (args.map (·.2)).length := by simpa using hvp
    have hsh : ∀ b, arrayManipulation.shiftUp c s.entries (total A) pp pos n = .ok b → Keeps q m.entries.cap (args.map (·.2)) b :=
      fun b hb => h3.shiftUp hpos (by simp only [List.length_map]; omega) hb
    constructor
    · unfold Crs.target Crs.targetRef
      simp only
      rw [List.getElem?_eq_getElem hk', h1]
      cases hb : arrayManipulation.shiftUp c s.entries (total A) pp pos n with
      | error e => rfl
      | ok b =>
        simp only [bind_ok]
        rw [he { s with entries := b } (hsh b hb) vp hk', bind_ok]
    · intro s1 hs
      change (arrayManipulation.shiftUp c s.entries (s.rowPtr A.length) pp pos n >>= fun b =>
        m.readOwnEntry c { s with entries := b } (q + vp) >>= fun e =>
          b.construct c (s.rowPtr A.length + (pos + n - 1)) e >>= fun entries => Except.ok { s with entries := entries }) = _ at hs
      rw [h1] at hs
      obtain ⟨b, hb, hs⟩ := LvArray.bind_eq_ok.1 hs
      rw [he { s with entries := b } (hsh b hb) vp hk', bind_ok] at hs
      obtain ⟨b', hb', hs⟩ := LvArray.bind_eq_ok.1 hs
      cases hs
      exact ⟨h1, h2, (hsh b hb).construct (by simp only [List.length_map]; omega) hb', h4⟩

/-- Inserting a range whose values can no longer be read once there is room for them. -/
theorem insertRangeRef_gone {σ T : Type} [LinearOrder T] [Inhabited T] (c : Cfg) (t t' : Target σ T) (ha : Alike t t')
    (val : σ → Nat → R T) (vs : List T) (size : Nat) (s s' : σ) {n : Nat} (hn : n ≠ 0) (err : Err)
    (h0 : ∀ k (hk : k < vs.length), val s k = .ok vs[k]) (hok : insertRange c t' s size vs = .ok (s', n))
    (hgone : ∀ s1, t.incrementSize s n = .ok s1 → ∀ k, val s1 k = .error err) :
    insertRangeRef c t val s size vs.length = .error err := by
  unfold insertRange at hok
  obtain ⟨_, e1, hok⟩ := LvArray.bind_eq_ok.1 hok
  obtain ⟨_, e2, hok⟩ := LvArray.bind_eq_ok.1 hok
  rw [ha.read] at e1
  unfold insertRangeRef
  rw [e1, bind_ok, assertSource_eq c h0, e2, bind_ok]
  by_cases hz : size = 0
  · rw [if_pos hz] at hok ⊢
    obtain ⟨s1, e3, hok⟩ := LvArray.bind_eq_ok.1 hok
    obtain ⟨s2, -, hok⟩ := LvArray.bind_eq_ok.1 hok
    injection hok with hok
    injection hok with _ hl
    rw [ha.inc, hl] at e3
    rw [hl, e3, bind_ok]
    cases n with
    | zero => exact absurd rfl hn
    | succ n => rw [forUp, hgone s1 e3, bind_err, bind_err, bind_err]
  · rw [if_neg hz] at hok ⊢
    have hc := countLoopRef_eq c (t.read s) size h0 vs.length size 0 (Nat.le_refl _)
    rw [List.take_length] at hc
    rw [hc]
    obtain ⟨k, e3, hok⟩ := LvArray.bind_eq_ok.1 hok
    rw [ha.read] at e3
    obtain ⟨s1, e4, hok⟩ := LvArray.bind_eq_ok.1 hok
    have hk : k = n := by
      split at hok
      · rename_i hk
        injection hok with hok
        injection hok with _ hok
        omega
      · obtain ⟨_, -, hok⟩ := LvArray.bind_eq_ok.1 hok
        injection hok with hok
        injection hok with _ hok
    subst hk
    rw [ha.inc] at e4
    rw [e3, bind_ok, e4, bind_ok, if_neg hn]
    cases vs with
    | nil =>
      cases e3
      exact absurd rfl hn
    | cons v vs => rw [List.length_cons, insertLoopRef, hgone s1 e4, bind_err, bind_err]

/-- Inserting a part of any row when the columns are allocated anew. -/
theorem insertNonZerosOwn_gone {args : List (Nat × V)} (h : CGood m (A ++ (xs, cap) :: B)) (hx : Increasing Prod.fst xs)
    (hv : Increasing Prod.fst args) {j lo : Nat} (hit : m.iteratorAt c j lo = .ok q)
    (kc : Keeps q m.columns.cap (args.map (·.1)) m.columns) (hqc : q + args.length ≤ m.columns.cap)
    (hinc : Crs.inc c own A.length xs.length cap m (newCount Prod.fst xs args) = .ok m1) (hnum : m1.numCols = m.numCols)
    (hg : CGood m1 (A ++ (xs, cap1) :: B)) (hroom : xs.length + newCount Prod.fst xs args ≤ cap1)
    (hn : newCount Prod.fst xs args ≠ 0) (hcap : m.columns.cap < m1.columns.cap) :
    m.insertNonZerosOwn c own A.length j lo args.length = .error (.ub .dangling) := by
  obtain ⟨m', ys, cap', q1, -⟩ := Crs.insertMany_ok (ci := c.ix) (c := c) (own := own) h hx args hv ⟨m1, cap1, hinc, hnum, hg, hroom⟩
  unfold Crs.insertNonZerosIn at q1
  unfold Crs.insertNonZerosOwn
  simp only [h.shape.sizeOfAt (i := A.length) rfl, h.shape.capacityOfAt (i := A.length) rfl, h.readOff, bind_ok] at q1
  simp only [hit, h.shape.sizeOfAt (i := A.length) rfl, h.shape.capacityOfAt (i := A.length) rfl, h.readOff, bind_ok]
  obtain ⟨⟨r1, r2⟩, q2, q1⟩ := LvArray.bind_eq_ok.1 q1
  obtain ⟨sh, -, q1⟩ := LvArray.bind_eq_ok.1 q1
  have hr : r2 = newCount Prod.fst xs args := by
    injection q1 with q1
    injection q1 with _ q1
  subst hr
  have hc : ∀ k (hk : k < (args.map (·.1)).length), m.readOwnColumn c m (q + k) = .ok (args.map (·.1))[k] := fun k hk =>
    readOwnColumn_keeps c kc (by simpa using hqc) k hk
  have key := insertRangeRef_gone c.ix
    (Crs.targetRef c own A.length xs.length cap (fun s i => m.readOwnEntry c s (q + i)))
    (Crs.target c own A.length xs.length cap (args.map (·.2))) (alike _ _ _ _ _) (fun s i => m.readOwnColumn c s (q + i))
    (args.map (·.1)) xs.length m r1 hn (.ub .dangling) hc q2 (fun s1 hi k => by
      rw [← (alike (c := c) (own := own) A.length xs.length cap (fun s i => m.readOwnEntry c s (q + i)) (args.map (·.2))).inc,
        show (Crs.target c own A.length xs.length cap (args.map (·.2))).incrementSize m _ = .ok m1 from hinc] at hi
      have hi : m1 = s1 := by injection hi
      subst hi
      unfold Crs.readOwnColumn
      exact if_pos hcap)
  rw [List.length_map] at key
  rw [key, bind_err]

end LvArray.OwnEntries

import Verif.LayoutLemmas

/-!
# Lemmas about offsets and sizes
-/

namespace LvArray

variable {T : Type}

/-- A heap buffer holding exactly `xs`. -/
def RepM (b : Buf T) (xs : List T) : Prop := Rep b xs ∧ b.kind = .malloc

namespace RepM

open bufferManipulation

variable {b : Buf T} {xs : List T}

theorem room (h : RepM b xs) (n : Nat) : b.room n := .inl h.2

theorem read (h : RepM b xs) {i : Nat} {v : T} (hv : xs[i]? = some v) : b.read i = .ok v := by
  obtain ⟨hi, rfl⟩ := List.getElem?_eq_some_iff.1 hv
  exact read_rep h.1 i hi

theorem write (h : RepM b xs) (c : Cfg) {i : Nat} (hi : i < xs.length) (v : T) :
    ∃ b', b.write c i v = .ok b' ∧ RepM b' (xs.set i v) :=
  ⟨_, write_rep c h.1 i v hi, ⟨rfl, by simpa using h.1.2⟩, h.2⟩

theorem emplaceBack (h : RepM b xs) (c : Cfg) {n : Nat} (hn : n = xs.length) (v : T) :
    ∃ b', bufferManipulation.emplaceBack c b n v = .ok b' ∧ RepM b' (xs ++ [v]) := by
  subst hn
  exact ⟨_, emplaceBack_rep c h.1 v (h.room _), ⟨rfl, by simpa using b.le_grownCap _⟩, h.2⟩

theorem emplace (h : RepM b xs) (c : Cfg) {n pos : Nat} (hn : n = xs.length) (hp : pos ≤ xs.length) (v : T) :
    ∃ b', bufferManipulation.emplace c b n pos v = .ok b' ∧ RepM b' (xs.take pos ++ v :: xs.drop pos) := by
  subst hn
  refine ⟨_, emplace_rep c h.1 pos v hp (h.room _), ⟨rfl, ?_⟩, h.2⟩
  have := b.le_grownCap (xs.length + 1)
  simp; omega

theorem erase (h : RepM b xs) (c : Cfg) {n pos : Nat} (hn : n = xs.length) (hp : pos < xs.length) :
    ∃ b', bufferManipulation.erase c b n pos = .ok b' ∧ RepM b' (xs.eraseIdx pos) := by
  subst hn
  refine ⟨_, erase_rep c h.1 pos hp, ⟨rfl, ?_⟩, h.2⟩
  have := h.1.2
  simp only [List.length_eraseIdx]
  split <;> omega

theorem reserve (h : RepM b xs) (c : Cfg) {n : Nat} (hn : n = xs.length) (m : Nat) :
    ∃ b', bufferManipulation.reserve c b n m = .ok b' ∧ RepM b' xs ∧ m ≤ b'.cap := by
  subst hn
  refine ⟨_, reserve_rep c h.1 m (h.room _), ⟨⟨h.1.1, ?_⟩, h.2⟩, ?_⟩
  · have := h.1.2; simp only; omega
  · simp only; omega

theorem resize (h : RepM b xs) (c : Cfg) {n : Nat} (hn : n = xs.length) (m : Nat) (v : T) :
    ∃ b', bufferManipulation.resize c b n m v = .ok b' ∧ RepM b' (xs.take m ++ List.replicate (m - xs.length) v) := by
  subst hn
  refine ⟨_, resize_rep c h.1 m v (h.room _), ⟨rfl, ?_⟩, h.2⟩
  simp; omega

theorem copyInto (h : RepM b xs) (c : Cfg) {n m : Nat} {src : Buf T} {ys : List T} (hn : n = xs.length) (hs : Rep src ys)
    (hm : m = ys.length) (v : T) :
    ∃ b', bufferManipulation.copyInto c b n src m v = .ok b' ∧ RepM b' ys := by
  subst hn hm
  refine ⟨_, copyInto_rep c h.1 hs v (h.room _), ⟨rfl, ?_⟩, h.2⟩
  simp; omega

end RepM

/-! ### Buffers of integers that are treated as empty although they still hold something -/

/-- A heap buffer whose slots from `n` on are unused. -/
def Short (b : Buf T) (n : Nat) : Prop := b.kind = .malloc ∧ ∀ k, n ≤ k → b.cell k = .raw

theorem RepM.short {b : Buf T} {xs : List T} (h : RepM b xs) {n : Nat} (hn : xs.length ≤ n) : Short b n :=
  ⟨h.2, fun k hk => by rw [h.1.1]; exact cellsOf_ge (by omega)⟩

theorem short_empty (n : Nat) : Short (Buf.empty : Buf T) n := ⟨rfl, fun _ _ => rfl⟩

namespace Short

variable {b : Buf T} {n : Nat}

theorem reserve (h : Short b n) {c : Cfg} (ht : c.trivial = true) (m : Nat) :
    ∃ b', bufferManipulation.reserve c b 0 m = .ok b' ∧ Short b' n ∧ m ≤ b'.cap := by
  unfold bufferManipulation.reserve
  rw [bufferManipulation.check_ok c b 0 (by omega), bind_ok]
  by_cases hm : b.cap < m
  · rw [if_pos hm]
    unfold bufferManipulation.setCapacity
    rw [bufferManipulation.check_ok c b 0 (by omega), bind_ok, reallocate_eq c b 0 m h.1 (by omega) (.inl ht)]
    refine ⟨_, rfl, ⟨h.1, fun k hk => ?_⟩, by simp⟩
    simp
  · rw [if_neg hm]
    exact ⟨b, rfl, h, by omega⟩

theorem resize (h : Short b n) {c : Cfg} (ht : c.trivial = true) (m : Nat) (hm : n ≤ m) (v : T) :
    ∃ b', bufferManipulation.resize c b 0 m v = .ok b' ∧ RepM b' (List.replicate m v) := by
  unfold bufferManipulation.resize
  obtain ⟨b1, h1, ⟨hk, hs⟩, hcap⟩ := h.reserve ht m
  rw [bufferManipulation.check_ok c b 0 (by omega), bind_ok, h1, bind_ok]
  unfold arrayManipulation.resize arrayManipulation.destroy
  simp only [Nat.zero_sub, forUp, bind_ok, Nat.sub_zero]
  unfold arrayManipulation.constructRange
  let g : Nat → Buf T := fun i => { b1 with cell := fun k => if k < i then .live v else b1.cell k }
  have hl := forUp_eq (f := fun i (b : Buf T) => b.construct c i v) g m 0 (s := b1) ?_ ?_
  · refine ⟨_, hl, ⟨?_, ?_⟩, hk⟩
    · apply cellsOf_eq
      · intro k hk'
        simp only [List.length_replicate] at hk'
        simp only [g]
        rw [if_pos (by omega)]
        simp
      · intro k hk'
        simp only [List.length_replicate] at hk'
        simp only [g]
        rw [if_neg (by omega)]
        exact hs k (by omega)
    · simpa [g] using hcap
  · simp [g]
  · intro i _ hi
    unfold Buf.construct
    rw [if_pos (show i < b1.cap by omega)]
    simp only [Buf.place, ht, Cell.lostL_triv, Cell.lostM_triv, Nat.add_zero, g, Except.ok.injEq, Buf.mk.injEq, true_and,
      and_true]
    funext k; grind [upd]

theorem copyInto (h : Short b n) {c : Cfg} (ht : c.trivial = true) {src : Buf T} {ys : List T} (hs : Rep src ys)
    {m : Nat} (hm : m = ys.length) (hn : n ≤ m) (v : T) :
    ∃ b', bufferManipulation.copyInto c b 0 src m v = .ok b' ∧ RepM b' ys := by
  subst hm
  unfold bufferManipulation.copyInto
  obtain ⟨b1, h1, hr⟩ := h.resize ht ys.length hn v
  rw [bufferManipulation.check_ok c b 0 (by omega), bind_ok, bufferManipulation.check_ok c src _ hs.2, bind_ok, h1, bind_ok]
  have := forUp_inv (f := fun i (dst : Buf T) => do
      let x ← src.read i
      dst.write c i x)
    (fun i b => RepM b (ys.take i ++ List.replicate (ys.length - i) v)) ys.length 0 b1 (by simpa using hr) ?_
  · obtain ⟨b2, h2, hr2⟩ := this
    exact ⟨b2, h2, by simpa using hr2⟩
  · intro i s _ hi hp
    obtain ⟨b', hw, hr'⟩ := hp.write c (i := i) (by simp; omega) (ys[i]'(by omega))
    refine ⟨b', ?_, ?_⟩
    · show (src.read i >>= fun x => s.write c i x) = _
      rw [bufferManipulation.read_rep hs i (by omega), bind_ok, hw]
    · refine cast (congrArg _ ?_) hr'
      apply List.ext_getElem
      · simp; omega
      · intro k h1 h2
        simp only [List.getElem_set, List.getElem_append, List.length_take, List.getElem_take, List.getElem_replicate]
        grind

/-- Forgetting integers. -/
theorem forget {c : Cfg} (ht : c.trivial = true) (hk : b.kind = .malloc) (hr : ∀ k, n ≤ k → b.cell k = .raw) :
    ∃ b', arrayManipulation.destroy c b 0 n = .ok b' ∧ Short b' 0 ∧ b'.cap = b.cap := by
  refine ⟨_, arrayManipulation.destroy_eq c b 0 n (.inl ht), ⟨hk, fun k _ => ?_⟩, rfl⟩
  simp only [Nat.zero_le, true_and, Nat.zero_add]
  split
  · rfl
  · exact hr k (by omega)

/-- Writing integers into unused slots one after another. -/
theorem fill (h : Short b 0) {c : Cfg} (ht : c.trivial = true) (ys : List T) (f : Nat → Buf T → R (Buf T))
    (hf : ∀ i (_ : i < ys.length) (b : Buf T), f i b = b.write c i ys[i]) (hcap : ys.length ≤ b.cap) :
    ∃ b', forUp ys.length 0 f b = .ok b' ∧ RepM b' ys ∧ b'.cap = b.cap := by
  have := forUp_inv (f := f) (fun i b' => RepM b' (ys.take i) ∧ b'.cap = b.cap) ys.length 0 b ?_ ?_
  · obtain ⟨b2, h2, hr2⟩ := this
    exact ⟨b2, h2, by simpa using hr2⟩
  · refine ⟨⟨⟨?_, by simp⟩, h.1⟩, rfl⟩
    funext k
    rw [h.2 k (by omega)]
    simp [cellsOf]
  · rintro i s _ hi ⟨⟨hp, hk⟩, hc⟩
    rw [hf i (by omega)]
    unfold Buf.write
    rw [if_pos (by omega), if_neg (by simp [ht])]
    refine ⟨_, rfl, ⟨⟨?_, ?_⟩, hk⟩, hc⟩
    · apply cellsOf_eq
      · intro k hk'
        simp only [List.length_take] at hk'
        simp only [upd, hp.1]
        by_cases he : k = i
        · subst he; simp
        · rw [if_neg he, cellsOf_lt (by simp; omega)]
          simp
      · intro k hk'
        simp only [List.length_take] at hk'
        simp only [upd, hp.1]
        rw [if_neg (by omega), cellsOf_ge (by simp; omega)]
    · simp; omega

end Short

/-! ## Offsets as prefix sums of capacities -/

/-- The offsets that belong to a list of capacities: 0 and all partial sums. -/
def offs (caps : List Nat) : List Nat := (List.range (caps.length + 1)).map fun i => (caps.take i).sum

@[simp] theorem offs_length (caps : List Nat) : (offs caps).length = caps.length + 1 := by simp [offs]

theorem offs_get (caps : List Nat) {i : Nat} (h : i ≤ caps.length) : (offs caps)[i]? = some (caps.take i).sum := by
  have : i < caps.length + 1 := by omega
  simp [offs, this]

theorem offs_eq {caps xs : List Nat} (hl : xs.length = caps.length + 1)
    (h : ∀ i, i ≤ caps.length → xs[i]? = some (caps.take i).sum) : xs = offs caps := by
  apply List.ext_getElem?
  intro i
  by_cases hi : i ≤ caps.length
  · rw [h i hi, offs_get _ hi]
  · rw [List.getElem?_eq_none (by omega), List.getElem?_eq_none (by simp; omega)]

theorem take_sum_succ (caps : List Nat) {i : Nat} (h : i < caps.length) :
    (caps.take (i + 1)).sum = (caps.take i).sum + caps[i] := by
  rw [List.take_succ, List.getElem?_eq_getElem h, List.sum_append]
  simp only [Option.toList, List.sum_cons, List.sum_nil, Nat.add_zero]

theorem take_sum_le (caps : List Nat) {i j : Nat} (h : i ≤ j) : (caps.take i).sum ≤ (caps.take j).sum := by
  have : caps.take j = caps.take i ++ (caps.take j).drop i := by
    have := List.take_append_drop i (caps.take j)
    rw [List.take_take, Nat.min_eq_left h] at this
    exact this.symm
  rw [this]; simp

theorem take_set_sum (caps : List Nat) {i : Nat} (h : i < caps.length) (v k : Nat) (hk : k ≤ caps.length) :
    ((caps.set i v).take k).sum + (if i < k then caps[i] else 0) = (caps.take k).sum + if i < k then v else 0 := by
  induction caps generalizing i k with
  | nil => simp at h
  | cons a caps ih =>
    cases k with
    | zero => simp
    | succ k =>
      cases i with
      | zero => simp; omega
      | succ i =>
        have := ih (i := i) (by simpa using h) k (by simpa using hk)
        simp only [List.set_cons_succ, List.take_succ_cons, List.sum_cons, List.getElem_cons_succ,
          Nat.add_lt_add_iff_right]
        omega

/-! ## Well-formed shapes -/

/-- The offsets and sizes in memory are those of rows with the given sizes and capacities. -/
structure ShGood (s : Shape) (szs caps : List Nat) : Prop where
  num : s.numArrays = caps.length
  len : szs.length = caps.length
  off : RepM s.offsets (offs caps)
  siz : RepM s.sizes szs

namespace ShGood

variable {s : Shape} {szs caps : List Nat} {c : Cfg} {i : Nat}

theorem readOff (h : ShGood s szs caps) (hi : i ≤ caps.length) : s.offsets.read i = .ok (caps.take i).sum :=
  h.off.read (offs_get caps hi)

theorem readLast (h : ShGood s szs caps) : s.offsets.read s.numArrays = .ok caps.sum := by
  rw [h.num, h.readOff (Nat.le_refl _), List.take_length]

theorem checkBounds (h : ShGood s szs caps) (hi : i < caps.length) : s.checkBounds c i = .ok () := by
  simp [Shape.checkBounds, errorIf, h.num]; omega

theorem checkBounds_abort (h : ShGood s szs caps) (hb : c.boundsCheck = true) (hi : caps.length ≤ i) :
    s.checkBounds c i = .error .abort := by
  simp [Shape.checkBounds, errorIf, h.num, hb, hi]

theorem checkInsertBounds (h : ShGood s szs caps) (hi : i ≤ caps.length) : s.checkInsertBounds c i = .ok () := by
  simp [Shape.checkInsertBounds, errorIf, h.num]; omega

theorem checkInsertBounds_abort (h : ShGood s szs caps) (hb : c.boundsCheck = true) (hi : caps.length < i) :
    s.checkInsertBounds c i = .error .abort := by
  simp [Shape.checkInsertBounds, errorIf, h.num, hb, hi]

theorem sizeOf (h : ShGood s szs caps) (hi : i < caps.length) :
    s.sizeOfArray c i = .ok (szs[i]'(by rw [h.len]; exact hi)) := by
  unfold Shape.sizeOfArray
  rw [h.checkBounds hi, bind_ok]
  exact h.siz.read (by simp [h.len, hi])

theorem sizeOf_abort (h : ShGood s szs caps) (hb : c.boundsCheck = true) (hi : caps.length ≤ i) :
    s.sizeOfArray c i = .error .abort := by
  unfold Shape.sizeOfArray
  rw [h.checkBounds_abort hb hi, bind_err]

theorem capacityOf (h : ShGood s szs caps) (hi : i < caps.length) : s.capacityOfArray c i = .ok caps[i] := by
  unfold Shape.capacityOfArray
  rw [h.checkBounds hi, bind_ok, h.readOff (by omega), bind_ok, h.readOff (by omega), bind_ok, take_sum_succ caps hi,
    Nat.add_sub_cancel_left]

theorem checkBounds2 (h : ShGood s szs caps) (hi : i < caps.length) {j : Nat} (hj : j < szs[i]'(by rw [h.len]; exact hi)) :
    s.checkBounds2 c i j = .ok () := by
  unfold Shape.checkBounds2
  split
  · rw [if_neg (by rw [h.num]; omega), h.siz.read (i := i) (v := szs[i]'(by rw [h.len]; exact hi)) (by simp [h.len, hi]),
      bind_ok]
    simp [errorIf]; omega
  · rfl

theorem checkBounds2_abort (h : ShGood s szs caps) (hb : c.boundsCheck = true) {j : Nat}
    (hj : ∀ n, szs[i]? = some n → n ≤ j) : s.checkBounds2 c i j = .error .abort := by
  unfold Shape.checkBounds2
  rw [if_pos hb]
  by_cases hi : i < caps.length
  · rw [if_neg (by rw [h.num]; omega), h.siz.read (i := i) (v := szs[i]'(by rw [h.len]; exact hi)) (by simp [h.len, hi]),
      bind_ok]
    have := hj (szs[i]'(by rw [h.len]; exact hi)) (by simp [h.len, hi])
    simp [errorIf, this]
  · rw [if_pos (by rw [h.num]; omega)]

theorem checkInsertBounds2 (h : ShGood s szs caps) (hi : i < caps.length) {j : Nat}
    (hj : j ≤ szs[i]'(by rw [h.len]; exact hi)) : s.checkInsertBounds2 c i j = .ok () := by
  unfold Shape.checkInsertBounds2
  split
  · rw [if_neg (by rw [h.num]; omega), h.siz.read (i := i) (v := szs[i]'(by rw [h.len]; exact hi)) (by simp [h.len, hi]),
      bind_ok]
    simp [errorIf]; omega
  · rfl

theorem checkInsertBounds2_abort (h : ShGood s szs caps) (hb : c.boundsCheck = true) {j : Nat}
    (hj : ∀ n, szs[i]? = some n → n < j) : s.checkInsertBounds2 c i j = .error .abort := by
  unfold Shape.checkInsertBounds2
  rw [if_pos hb]
  by_cases hi : i < caps.length
  · rw [if_neg (by rw [h.num]; omega), h.siz.read (i := i) (v := szs[i]'(by rw [h.len]; exact hi)) (by simp [h.len, hi]),
      bind_ok]
    have := hj (szs[i]'(by rw [h.len]; exact hi)) (by simp [h.len, hi])
    simp [errorIf, this]
  · rw [if_pos (by rw [h.num]; omega)]

theorem capacityCheck (h : ShGood s szs caps) (hi : i < caps.length) {n : Nat}
    (hn : szs[i]'(by rw [h.len]; exact hi) + n ≤ caps[i]) : s.capacityCheck c i n = .ok () := by
  unfold Shape.capacityCheck
  split
  · rw [h.sizeOf hi, bind_ok, h.capacityOf hi, bind_ok]
    simp [errorIf]; omega
  · rfl

theorem capacityCheck_abort (h : ShGood s szs caps) (hb : c.boundsCheck = true) (hi : i < caps.length) {n : Nat}
    (hn : caps[i] < szs[i]'(by rw [h.len]; exact hi) + n) : s.capacityCheck c i n = .error .abort := by
  unfold Shape.capacityCheck
  rw [if_pos hb, h.sizeOf hi, bind_ok, h.capacityOf hi, bind_ok]
  simp [errorIf, hn]

theorem setSize (h : ShGood s szs caps) (hi : i < caps.length) (n : Nat) :
    ∃ s', s.setSize c i n = .ok s' ∧ ShGood s' (szs.set i n) caps := by
  unfold Shape.setSize
  obtain ⟨b', hw, hr⟩ := h.siz.write c.ix (i := i) (by rw [h.len]; exact hi) n
  rw [hw, bind_ok]
  exact ⟨_, rfl, h.num, by simp [h.len], h.off, hr⟩

theorem updateOffsets (h : ShGood s szs caps) (f : Nat → Nat) (hi : i < caps.length) (n : Nat)
    (hf : ∀ k, i < k → k ≤ caps.length → f (caps.take k).sum = ((caps.set i n).take k).sum) :
    ∃ s', s.updateOffsets c i f = .ok s' ∧ ShGood s' szs (caps.set i n) := by
  unfold Shape.updateOffsets
  have hloop := forUp_inv (f := fun array (o : Buf Nat) => do
      let x ← Buf.read o array
      o.write c.ix array (f x))
    (fun m b => ∃ xs : List Nat, RepM b xs ∧ xs.length = caps.length + 1 ∧
      ∀ k, k ≤ caps.length → xs[k]? = some (if k < m then ((caps.set i n).take k).sum else (caps.take k).sum))
    (s.numArrays + 1 - (i + 1)) (i + 1) s.offsets ?_ ?_
  · obtain ⟨o', ho, xs, hr, hl, hx⟩ := hloop
    rw [ho, bind_ok]
    refine ⟨_, rfl, by simpa using h.num, by simpa using h.len, ?_, h.siz⟩
    have : xs = offs (caps.set i n) := by
      apply offs_eq (by simpa using hl)
      intro k hk
      simp only [List.length_set] at hk
      rw [hx k hk, if_pos (by rw [h.num]; omega)]
    rw [← this]; exact hr
  · refine ⟨_, h.off, by simp, fun k hk => ?_⟩
    rw [offs_get _ hk]
    split
    · have := take_set_sum caps hi n k hk
      rw [if_neg (by omega), if_neg (by omega)] at this
      simp only [Option.some.injEq]; omega
    · rfl
  · rintro m o hm1 hm2 ⟨xs, hr, hl, hx⟩
    have hmlt : m ≤ caps.length := by rw [h.num] at hm2; omega
    have hread := hx m hmlt
    rw [if_neg (by omega)] at hread
    obtain ⟨o', hw, hr'⟩ := hr.write c.ix (i := m) (by omega) (f (caps.take m).sum)
    refine ⟨o', ?_, _, hr', by simpa using hl, ?_⟩
    · show (o.read m >>= fun x => o.write c.ix m (f x)) = _
      rw [hr.read hread, bind_ok, hw]
    · intro k hk
      rw [List.getElem?_set]
      by_cases hkm : m = k
      · subst hkm
        rw [if_pos rfl, if_pos (by omega), if_pos (by omega), hf m (by omega) hmlt]
      · rw [if_neg hkm, hx k hk]
        by_cases h3 : k < m
        · rw [if_pos h3, if_pos (by omega)]
        · rw [if_neg h3, if_neg (by omega)]

theorem appendRow (h : ShGood s szs caps) : ∃ s', s.appendRow c = .ok s' ∧ ShGood s' (szs ++ [0]) (caps ++ [0]) := by
  unfold Shape.appendRow
  obtain ⟨o, ho, hro⟩ := h.off.emplaceBack c.ix (n := s.numArrays + 1) (by simp [h.num]) caps.sum
  obtain ⟨z, hz, hrz⟩ := h.siz.emplaceBack c.ix (n := s.numArrays) (by rw [h.len, h.num]) 0
  rw [h.readLast, bind_ok, ho, bind_ok, hz, bind_ok]
  refine ⟨_, rfl, by simp [h.num], by simp [h.len], ?_, hrz⟩
  have : offs caps ++ [caps.sum] = offs (caps ++ [0]) := by
    apply offs_eq (by simp)
    intro k hk
    simp only [List.length_append, List.length_singleton] at hk
    rw [List.getElem?_append]
    by_cases h1 : k ≤ caps.length
    · rw [if_pos (by simp; omega), offs_get _ h1, List.take_append_of_le_length h1]
    · rw [if_neg (by simp; omega), show k = caps.length + 1 by omega, List.take_of_length_le (by simp)]
      simp
  rw [← this]; exact hro

theorem insertRow (h : ShGood s szs caps) (hi : i ≤ caps.length) :
    ∃ s', s.insertRow c i = .ok s' ∧ ShGood s' (szs.take i ++ 0 :: szs.drop i) (caps.take i ++ 0 :: caps.drop i) := by
  unfold Shape.insertRow
  obtain ⟨o, ho, hro⟩ := h.off.emplace c.ix (n := s.numArrays + 1) (pos := i + 1) (by simp [h.num]) (by simp; omega)
    (caps.take i).sum
  obtain ⟨z, hz, hrz⟩ := h.siz.emplace c.ix (n := s.numArrays) (pos := i) (by rw [h.len, h.num]) (by rw [h.len]; omega) 0
  rw [h.checkInsertBounds hi, bind_ok, h.readOff hi, bind_ok, ho, bind_ok, hz, bind_ok]
  refine ⟨_, rfl, by simp [h.num]; omega, by simp [h.len], ?_, hrz⟩
  have : (offs caps).take (i + 1) ++ (caps.take i).sum :: (offs caps).drop (i + 1) =
      offs (caps.take i ++ 0 :: caps.drop i) := by
    apply offs_eq
    · simp; omega
    intro k hk
    simp only [List.length_append, List.length_cons, List.length_take, List.length_drop] at hk
    rw [List.getElem?_append]
    simp only [List.length_take, offs_length]
    by_cases h1 : k ≤ i
    · rw [if_pos (by omega), List.getElem?_take, if_pos (by omega), offs_get _ (by omega), List.take_append,
        List.take_take, show min k i = k by omega]
      simp only [List.length_take]
      rw [show k - min i caps.length = 0 by omega]
      simp
    · rw [if_neg (by omega), show k - min (i + 1) (caps.length + 1) = k - (i + 1) by omega, List.take_append,
        List.take_take, show min k i = i by omega]
      simp only [List.length_take]
      rw [show k - min i caps.length = k - (i + 1) + 1 by omega]
      cases hk' : k - (i + 1) with
      | zero => simp
      | succ m =>
        simp only [List.getElem?_cons_succ, List.getElem?_drop]
        rw [offs_get _ (by omega), show i + 1 + m = k - 1 by omega]
        simp only [List.take_succ_cons, List.sum_append, List.sum_cons, Option.some.injEq]
        have : caps.take (k - 1) = caps.take i ++ (caps.drop i).take (m + 1) := by
          rw [show k - 1 = i + (m + 1) by omega, List.take_add]
        rw [this]; simp
  rw [← this]; exact hro

theorem eraseRow (h : ShGood s szs caps) (hi : i < caps.length) (h0 : caps[i] = 0) :
    ∃ s', s.eraseRow c i = .ok s' ∧ ShGood s' (szs.eraseIdx i) (caps.eraseIdx i) := by
  unfold Shape.eraseRow
  obtain ⟨o, ho, hro⟩ := h.off.erase c.ix (n := s.numArrays + 1) (pos := i + 1) (by simp [h.num]) (by simp; omega)
  obtain ⟨z, hz, hrz⟩ := h.siz.erase c.ix (n := s.numArrays) (pos := i) (by rw [h.len, h.num]) (by rw [h.len]; omega)
  rw [ho, bind_ok, hz, bind_ok]
  refine ⟨_, rfl, ?_, ?_, ?_, hrz⟩
  · simp [List.length_eraseIdx, hi, h.num]
  · simp [List.length_eraseIdx, hi, h.len]
  have : (offs caps).eraseIdx (i + 1) = offs (caps.eraseIdx i) := by
    apply offs_eq
    · simp [List.length_eraseIdx, hi]; omega
    intro k hk
    simp only [List.length_eraseIdx, hi, if_true] at hk
    rw [List.getElem?_eraseIdx]
    by_cases h1 : k < i + 1
    · have e1 : caps.eraseIdx i = caps.take i ++ caps.drop (i + 1) := List.eraseIdx_eq_take_drop_succ _ _
      rw [if_pos h1, offs_get _ (by omega), e1, List.take_append_of_le_length (by simp; omega), List.take_take,
        show min k i = k by omega]
    · rw [if_neg h1, offs_get _ (by omega)]
      have e1 : caps.eraseIdx i = caps.take i ++ caps.drop (i + 1) := List.eraseIdx_eq_take_drop_succ _ _
      have e2 : caps.take (k + 1) = caps.take i ++ caps[i] :: (caps.drop (i + 1)).take (k - i) := by
        rw [show k + 1 = i + (k - i + 1) by omega, List.take_add, List.drop_eq_getElem_cons hi, List.take_succ_cons]
      rw [e1, e2, List.take_append, List.take_take, show min k i = i by omega]
      simp only [List.length_take]
      rw [show k - min i caps.length = k - i by omega]
      simp [h0]
  rw [← this]; exact hro

theorem reserve (h : ShGood s szs caps) (n : Nat) : ∃ s', s.reserve c n = .ok s' ∧ ShGood s' szs caps := by
  unfold Shape.reserve
  obtain ⟨o, ho, hro, _⟩ := h.off.reserve c.ix (n := s.numArrays + 1) (by simp [h.num]) (n + 1)
  obtain ⟨z, hz, hrz, _⟩ := h.siz.reserve c.ix (n := s.numArrays) (by rw [h.len, h.num]) n
  rw [ho, bind_ok, hz, bind_ok]
  exact ⟨_, rfl, h.num, h.len, hro, hrz⟩

theorem dropRows (h : ShGood s szs caps) {n : Nat} (hn : n < caps.length) :
    ∃ s', s.dropRows c n = .ok s' ∧ ShGood { s' with numArrays := n } (szs.take n) (caps.take n) := by
  unfold Shape.dropRows
  have hos : s.offsetsSize = (offs caps).length := by
    unfold Shape.offsetsSize
    rw [if_neg (by rw [h.num]; omega), h.num]; simp
  obtain ⟨o, ho, hro⟩ := h.off.resize c.ix (n := s.offsetsSize) hos (n + 1) 0
  obtain ⟨z, hz, hrz⟩ := h.siz.resize c.ix (n := s.numArrays) (by rw [h.len, h.num]) n 0
  rw [ho, bind_ok, hz, bind_ok]
  refine ⟨_, rfl, by simp; omega, by simp [h.len], ?_, ?_⟩
  · have : (offs caps).take (n + 1) ++ List.replicate (n + 1 - (offs caps).length) 0 = offs (caps.take n) := by
      apply offs_eq
      · simp; omega
      intro k hk
      simp only [List.length_take] at hk
      rw [show n + 1 - (offs caps).length = 0 by simp; omega, List.replicate_zero, List.append_nil, List.getElem?_take,
        if_pos (by omega), offs_get _ (by omega), List.take_take, show min k n = k by omega]
    rw [← this]; exact hro
  · rw [show n - szs.length = 0 by rw [h.len]; omega] at hrz
    simpa using hrz

end ShGood

/-- No arrays; the offsets may be unallocated (before the first `resize`, after `free`, after being moved from). -/
def ShInit (s : Shape) : Prop := s.numArrays = 0 ∧ Short s.offsets 1 ∧ RepM s.sizes []

theorem ShGood.init {s : Shape} (h : ShGood s [] []) : ShInit s :=
  ⟨by simpa using h.num, h.off.short (by simp), h.siz⟩

/-- A well-formed shape, or one without arrays whose offsets may be unallocated. -/
def ShWeak (s : Shape) (szs caps : List Nat) : Prop := ShGood s szs caps ∨ (ShInit s ∧ szs = [] ∧ caps = [])

theorem ShGood.weak {s : Shape} {szs caps : List Nat} (h : ShGood s szs caps) : ShWeak s szs caps := .inl h

namespace ShWeak

variable {s : Shape} {szs caps : List Nat} {c : Cfg} {i : Nat}

theorem num (h : ShWeak s szs caps) : s.numArrays = caps.length := by
  rcases h with h | ⟨h, _, rfl⟩
  · exact h.num
  · simpa using h.1

theorem len (h : ShWeak s szs caps) : szs.length = caps.length := by
  rcases h with h | ⟨h, rfl, rfl⟩
  · exact h.len
  · rfl

theorem siz (h : ShWeak s szs caps) : RepM s.sizes szs := by
  rcases h with h | ⟨h, rfl, rfl⟩
  · exact h.siz
  · exact h.2.2

/-- Without arrays, `m_offsets` counts as empty. -/
theorem cases (h : ShWeak s szs caps) :
    (caps = [] ∧ szs = [] ∧ s.offsetsSize = 0 ∧ s.numArrays = 0 ∧ Short s.offsets 1) ∨
    (caps ≠ [] ∧ s.offsetsSize = caps.length + 1 ∧ ShGood s szs caps) := by
  rcases h with h | ⟨h, rfl, rfl⟩
  · by_cases hc : caps = []
    · subst hc
      have hz : szs = [] := List.eq_nil_of_length_eq_zero (by simpa using h.len)
      subst hz
      exact .inl ⟨rfl, rfl, by simp [Shape.offsetsSize, h.num], by simpa using h.num, h.init.2.1⟩
    · have : caps.length ≠ 0 := by simpa using hc
      exact .inr ⟨hc, by simp [Shape.offsetsSize, h.num, hc], h⟩
  · exact .inl ⟨rfl, rfl, by simp [Shape.offsetsSize, h.1], h.1, h.2.1⟩

theorem spread (h : RepM s.offsets (offs caps ++ List.replicate (n - caps.length) caps.sum)) (hn : s.numArrays = caps.length)
    (hle : caps.length ≤ n) (d : Nat) :
    ∃ s', Shape.spreadOffsets c s n caps.sum d = .ok s' ∧ s'.numArrays = s.numArrays ∧ s'.sizes = s.sizes ∧
      RepM s'.offsets (offs (caps ++ List.replicate (n - caps.length) d)) := by
  have hoff : ∀ k, k ≤ n - caps.length →
      ((caps ++ List.replicate (n - caps.length) d).take (caps.length + k)).sum = caps.sum + k * d := by
    intro k hk
    rw [List.take_append, List.take_of_length_le (by omega)]
    simp [Nat.min_eq_left hk]
  unfold Shape.spreadOffsets
  have := forUp_inv (f := fun i (o : Buf Nat) => Buf.write c.ix o (s.numArrays + i) (caps.sum + i * d))
    (fun m b => ∃ xs : List Nat, RepM b xs ∧ xs.length = n + 1 ∧
      (∀ k, k ≤ caps.length → xs[k]? = some (caps.take k).sum) ∧
      ∀ k, k < m → k ≤ n - caps.length → xs[caps.length + k]? = some (caps.sum + k * d))
    (n + 1 - s.numArrays - 1) 1 s.offsets ?_ ?_
  · obtain ⟨o, ho, xs, hr, hl, hx, hy⟩ := this
    rw [ho, bind_ok]
    refine ⟨_, rfl, rfl, rfl, ?_⟩
    have : xs = offs (caps ++ List.replicate (n - caps.length) d) := by
      apply offs_eq
      · simp; omega
      intro k hk
      simp only [List.length_append, List.length_replicate] at hk
      by_cases h1 : k ≤ caps.length
      · rw [hx k h1, List.take_append_of_le_length h1]
      · have := hy (k - caps.length) (by omega) (by omega)
        rw [show caps.length + (k - caps.length) = k by omega] at this
        rw [this]
        have := hoff (k - caps.length) (by omega)
        rw [show caps.length + (k - caps.length) = k by omega] at this
        rw [this]
    rw [← this]; exact hr
  · refine ⟨_, h, by simp; omega, fun k hk => ?_, fun k hk _ => ?_⟩
    · rw [List.getElem?_append_left (by simp; omega), offs_get _ hk]
    · have : k = 0 := by omega
      subst this
      rw [List.getElem?_append_left (by simp), offs_get _ (by omega)]
      simp
  · rintro m o hm1 hm2 ⟨xs, hr, hl, hx, hy⟩
    obtain ⟨o', hw, hr'⟩ := hr.write c.ix (i := s.numArrays + m) (by omega) (caps.sum + m * d)
    refine ⟨o', hw, _, hr', by simpa using hl, fun k hk => ?_, fun k hk1 hk2 => ?_⟩
    · rw [List.getElem?_set, if_neg (by omega), hx k hk]
    · rw [List.getElem?_set]
      by_cases hkm : k = m
      · subst hkm
        rw [hn, if_pos rfl, if_pos (by omega)]
      · rw [if_neg (by omega), hy k (by omega) hk2]

theorem addRows (h : ShWeak s szs caps) {n : Nat} (hn : caps.length ≤ n) (d : Nat) :
    ∃ s', s.addRows c n d = .ok s' ∧ s'.numArrays = caps.length ∧
      ShGood { s' with numArrays := n } (szs ++ List.replicate (n - caps.length) 0)
        (caps ++ List.replicate (n - caps.length) d) := by
  have hlast : s.lastOffset = .ok caps.sum := by
    unfold Shape.lastOffset
    rcases h.cases with ⟨rfl, _, _, h0, _⟩ | ⟨hc, _, hg⟩
    · rw [if_pos h0]; rfl
    · rw [if_neg (by rw [hg.num]; simpa using hc), hg.readLast]
  have hres : ∃ o, bufferManipulation.resize c.ix s.offsets s.offsetsSize (n + 1) caps.sum = .ok o ∧
      RepM o (offs caps ++ List.replicate (n - caps.length) caps.sum) := by
    rcases h.cases with ⟨rfl, _, ho, h0, hs⟩ | ⟨hc, ho, hg⟩
    · rw [ho]
      obtain ⟨o, ho, hr⟩ := hs.resize (c := c.ix) rfl (n + 1) (by omega) ([] : List Nat).sum
      refine ⟨o, ho, ?_⟩
      refine cast (congrArg _ ?_) hr
      simp [offs, List.replicate_succ]
    · obtain ⟨o, ho', hr⟩ := hg.off.resize c.ix (n := s.offsetsSize) (by simp [ho]) (n + 1) caps.sum
      refine ⟨o, ho', ?_⟩
      refine cast (congrArg _ ?_) hr
      rw [List.take_of_length_le (by simp; omega)]
      simp
  obtain ⟨o, ho, hr⟩ := hres
  obtain ⟨z, hz, hrz⟩ := h.siz.resize c.ix (n := s.numArrays) (by rw [h.len, h.num]) n 0
  rw [List.take_of_length_le (by rw [h.len]; omega), h.len] at hrz
  unfold Shape.addRows
  rw [hlast, bind_ok, ho, bind_ok, hz, bind_ok]
  by_cases hd : 0 < d
  · simp only [hd, if_true]
    obtain ⟨s', hs', hnum, hsz, hro⟩ := spread (c := c) (s := { s with offsets := o, sizes := z }) hr h.num hn d
    refine ⟨s', hs', by rw [hnum]; exact h.num, by simp; omega, by simp [h.len], hro, ?_⟩
    show RepM s'.sizes _
    rw [hsz]; exact hrz
  · simp only [hd, if_false]
    have h0 : d = 0 := by omega
    subst h0
    refine ⟨_, rfl, h.num, by simp; omega, by simp [h.len], ?_, hrz⟩
    have : offs caps ++ List.replicate (n - caps.length) caps.sum = offs (caps ++ List.replicate (n - caps.length) 0) := by
      apply offs_eq
      · simp; omega
      intro k hk
      simp only [List.length_append, List.length_replicate] at hk
      by_cases h1 : k ≤ caps.length
      · rw [List.getElem?_append_left (by simp; omega), offs_get _ h1, List.take_append_of_le_length h1]
      · rw [List.getElem?_append_right (by simp; omega), List.take_append, List.take_of_length_le (by omega),
          List.getElem?_replicate, if_pos (by simp; omega)]
        simp
    rw [← this]; exact hr

theorem scan (o : Buf Nat) (ho : Short o 0) (hcap : caps.length + 1 ≤ o.cap) :
    ∃ o', Shape.scanOffsets c caps o = .ok o' ∧ RepM o' (offs caps) := by
  unfold Shape.scanOffsets
  have hw0 : ∃ o1, o.write c.ix 0 0 = .ok o1 ∧ RepM o1 [0] ∧ o1.cap = o.cap := by
    have := ho.fill (c := c.ix) rfl [0] (fun i b => b.write c.ix i 0) (by simp) (by simp; omega)
    obtain ⟨o1, h1, h2, h3⟩ := this
    refine ⟨o1, ?_, h2, h3⟩
    simp only [List.length_singleton, forUp] at h1
    cases hw : o.write c.ix 0 0 with
    | error e => rw [hw] at h1; simp at h1
    | ok o2 => rw [hw] at h1; simpa using h1
  obtain ⟨o1, h1, hr1, hc1⟩ := hw0
  rw [h1, bind_ok]
  have := forUp_inv (f := fun i (o : Buf Nat) => Buf.write c.ix o (i + 1) (caps.take (i + 1)).sum)
    (fun m b => RepM b ((offs caps).take (m + 1)) ∧ b.cap = o.cap) caps.length 0 o1 ?_ ?_
  · obtain ⟨o2, h2, hr2, _⟩ := this
    refine ⟨o2, h2, ?_⟩
    rw [List.take_of_length_le (by simp)] at hr2
    exact hr2
  · refine ⟨?_, hc1⟩
    refine cast (congrArg _ ?_) hr1
    simp [offs, List.range_succ_eq_map]
  · rintro m b _ hm ⟨⟨hb, hk⟩, hc⟩
    unfold Buf.write
    rw [if_pos (by omega), if_neg (by simp [Cfg.ix])]
    refine ⟨_, rfl, ⟨⟨?_, ?_⟩, hk⟩, hc⟩
    · apply cellsOf_eq
      · intro k hk'
        simp only [List.length_take, offs_length] at hk'
        simp only [upd, hb.1]
        have hg := offs_get caps (i := k) (by omega)
        obtain ⟨_, hg⟩ := List.getElem?_eq_some_iff.1 hg
        by_cases he : k = m + 1
        · subst he
          simp only [if_true, List.getElem_take, hg]
        · rw [if_neg he, cellsOf_lt (by simp; omega)]
          simp
      · intro k hk'
        simp only [List.length_take, offs_length] at hk'
        simp only [upd, hb.1]
        rw [if_neg (by omega), cellsOf_ge (by simp; omega)]
    · simp; omega

theorem fromCapacities (h : ShWeak s szs caps) (new : List Nat) :
    ∃ s', s.fromCapacities c new = .ok s' ∧ ShGood s' (List.replicate new.length 0) new := by
  unfold Shape.fromCapacities
  obtain ⟨z, hz, hrz, hcz⟩ := h.siz.reserve c.ix (n := s.numArrays) (by rw [h.len, h.num]) new.length
  obtain ⟨z1, hz1, hsz1, hcz1⟩ := Short.forget (c := c.ix) (b := z) (n := s.numArrays) rfl hrz.2
    (hrz.short (Nat.le_of_eq (by rw [h.num, h.len]))).2
  obtain ⟨z2, hz2, hrz2, _⟩ := hsz1.fill (c := c.ix) rfl (List.replicate new.length 0) (fun i o => Buf.write c.ix o i 0)
    (by simp) (by simp; omega)
  simp only [List.length_replicate] at hz2
  have hoff : ∃ o, bufferManipulation.reserve c.ix s.offsets s.offsetsSize (new.length + 1) = .ok o ∧ o.kind = .malloc ∧
      (∀ k, s.numArrays + 1 ≤ k → o.cell k = .raw) ∧ new.length + 1 ≤ o.cap := by
    rcases h.cases with ⟨rfl, _, ho, h0, hs⟩ | ⟨hc, ho, hg⟩
    · rw [ho]
      obtain ⟨o, h1, h2, h3⟩ := hs.reserve (c := c.ix) rfl (new.length + 1)
      exact ⟨o, h1, h2.1, fun k hk => h2.2 k (by omega), h3⟩
    · obtain ⟨o, h1, h2, h3⟩ := hg.off.reserve c.ix (n := s.offsetsSize) (by simp [ho]) (new.length + 1)
      exact ⟨o, h1, h2.2, (h2.short (by simp [hg.num])).2, h3⟩
  obtain ⟨o, ho, hok, hor, hoc⟩ := hoff
  obtain ⟨o1, ho1, hso1, hoc1⟩ := Short.forget (c := c.ix) (b := o) (n := s.numArrays + 1) rfl hok hor
  obtain ⟨o2, ho2, hro2⟩ := scan (c := c) (caps := new) o1 hso1 (by omega)
  rw [hz, bind_ok, hz1, bind_ok, hz2, bind_ok, ho, bind_ok, ho1, bind_ok, ho2, bind_ok]
  exact ⟨_, rfl, rfl, by simp, hro2, hrz2⟩

/-- The value `setEqualTo` takes for the number of used slots of its destination. -/
def copiedMax (caps capsSrc : List Nat) : Nat :=
  if caps.length ≤ capsSrc.length then (capsSrc.take caps.length).sum else caps.sum

theorem copyShape (h : ShWeak s szs caps) {src : Shape} {szs' caps' : List Nat} (hs : ShGood src szs' caps') :
    ∃ s', s.copyShape c src = .ok (copiedMax caps caps', s') ∧ ShGood s' szs' caps' := by
  unfold Shape.copyShape
  have hoff : ∃ o, bufferManipulation.copyInto c.ix s.offsets s.offsetsSize src.offsets (src.numArrays + 1) 0 = .ok o ∧
      RepM o (offs caps') := by
    rcases h.cases with ⟨rfl, _, ho, h0, hsh⟩ | ⟨hc, ho, hg⟩
    · rw [ho]
      exact hsh.copyInto (c := c.ix) rfl hs.off.1 (by simp [hs.num]) (by omega) 0
    · exact hg.off.copyInto c.ix (by simp [ho]) hs.off.1 (by simp [hs.num]) 0
  obtain ⟨o, ho, hro⟩ := hoff
  obtain ⟨z, hz, hrz⟩ := h.siz.copyInto c.ix (n := s.numArrays) (m := src.numArrays) (by rw [h.len, h.num]) hs.siz.1
    (by rw [hs.num, hs.len]) 0
  rw [ho, bind_ok, hz, bind_ok]
  have hmax : (if s.numArrays ≤ src.numArrays then o else s.offsets).read s.numArrays = .ok (copiedMax caps caps') := by
    unfold copiedMax
    rw [h.num, hs.num]
    split
    · rename_i hle
      exact hro.read (offs_get _ hle)
    · rename_i hle
      rcases h.cases with ⟨rfl, _⟩ | ⟨hc, _, hg⟩
      · simp at hle
      · rw [← h.num]; exact hg.readLast
  rw [hmax, bind_ok]
  exact ⟨_, rfl, hs.num, hs.len, hro, hrz⟩

end ShWeak

end LvArray

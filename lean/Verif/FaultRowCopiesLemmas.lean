import Verif.FaultRowCopies
import Verif.AoAStep
import Verif.FaultsLemmas
/-!
# Lemmas about copies of inner arrays that are ended by an exception
-/

namespace LvArray.FaultyRows

open Layout

variable {T : Type} [Inhabited T]

/-- One inner array: the first `k` values are copied, all of them or up to the one that throws. -/
theorem copyUntil_row (c : Cfg) {throws : Nat → Bool} {src : Buf T} {A B A' B' : Layout T} {xs : List T} {cap : Nat}
    (hs : Lay src (A ++ (xs, cap) :: B)) (hA : total A' = total A) (k : Nat) (hk : k ≤ xs.length)
    (hq : ∀ j, j < k → throws j = false) (ht : k < xs.length → throws k = true) :
    ∀ (d j : Nat) (b : Buf T), j + d = k → Lay b (A' ++ (xs.take j, cap) :: B') →
      ∃ b', copyUntil c throws src (total A) (xs.length - j) j b = .ok (b', decide (k < xs.length)) ∧
        Lay b' (A' ++ (xs.take k, cap) :: B') ∧ b'.cap = b.cap
  | 0, j, b, hj, hb => by
    obtain rfl : j = k := by omega
    by_cases h : j < xs.length
    · rw [show xs.length - j = xs.length - j - 1 + 1 by omega]
      unfold copyUntil
      rw [if_pos (ht h)]
      exact ⟨b, by simp [h], hb, rfl⟩
    · rw [show xs.length - j = 0 by omega]
      unfold copyUntil
      exact ⟨b, by simp [h], hb, rfl⟩
  | d + 1, j, b, hj, hb => by
    have hfx := hs.fits (xs, cap) (by simp)
    simp only at hfx
    rw [show xs.length - j = xs.length - (j + 1) + 1 by omega]
    unfold copyUntil
    rw [if_neg (by rw [hq j (by omega)]; simp), (hs.toWin IsRaw).read_front j (by omega), bind_ok]
    have hlen : (xs.take j).length = j := by simp; omega
    obtain ⟨b1, h1, w⟩ := (hb.toWin IsRaw).appendMany (c := c) [xs[j]'(by omega)] (by simp; omega)
    unfold arrayManipulation.append arrayManipulation.constructRange at h1
    simp only [List.length_singleton, hlen, hA] at h1
    have h2 : b.construct c (total A + j) (xs[j]'(by omega)) = .ok b1 := by
      have h1' : (b.construct c (total A + j) ([xs[j]'(by omega)].getD (total A + j - (total A + j)) default) >>= fun b => .ok b) =
        .ok b1 := h1
      rw [Nat.sub_self] at h1'
      cases hx : b.construct c (total A + j) (xs[j]'(by omega)) with
      | error e => rw [show [xs[j]'(by omega)].getD 0 default = xs[j]'(by omega) from rfl, hx] at h1'; cases h1'
      | ok y => rw [show [xs[j]'(by omega)].getD 0 default = xs[j]'(by omega) from rfl, hx] at h1'; exact h1'
    rw [h2, bind_ok]
    have hb1 : Lay b1 (A' ++ (xs.take (j + 1), cap) :: B') := by
      rw [List.take_succ_eq_append_getElem (by omega)]
      exact hb.ofWin w
    obtain ⟨b', h3, h4, h5⟩ := copyUntil_row c hs hA k hk hq ht d (j + 1) b1 (by omega) hb1
    exact ⟨b', h3, h4, by rw [h5, w.capEq]⟩

/-- An inner array without values. -/
def clear (r : List T × Nat) : List T × Nat := ([], r.2)

omit [Inhabited T] in
theorem total_clear (L : Layout T) : total (L.map clear) = total L := by
  simp [total, clear, List.map_map, Function.comp_def]

/-- The copy is ended by value `k` of inner array `A.length`. -/
theorem copyRowsUntil_threw (c : Cfg) {throws : Nat → Nat → Bool} {s : Shape} {src : Buf T} {xs : List T} {cap : Nat} {B : Layout T}
    (k : Nat) (hk : k < xs.length) : ∀ (R A : Layout T), LShape s (A ++ R ++ (xs, cap) :: B) →
      Lay src (A ++ R ++ (xs, cap) :: B) →
      (∀ i (_ : i < R.length) j, j < R[i].1.length → throws (A.length + i) j = false) →
      (∀ j, j < k → throws (A.length + R.length) j = false) → throws (A.length + R.length) k = true →
      ∀ b : Buf T, Lay b (A ++ R.map clear ++ ([], cap) :: B.map clear) →
      ∃ b', copyRowsUntil c throws s src (R.length + 1 + B.length) A.length b = .ok (b', true) ∧
        Lay b' (A ++ R ++ (xs.take k, cap) :: B.map clear) ∧ b'.cap = b.cap
  | [], A, h, hs, _, hq, ht, b, hb => by
    simp only [List.append_nil, List.length_nil, Nat.add_zero, List.map_nil] at *
    rw [show 0 + 1 + B.length = B.length + 1 by omega]
    unfold copyRowsUntil
    rw [h.readOffAt rfl, bind_ok, h.sizeOfAt rfl, bind_ok]
    obtain ⟨b', h1, h2, h3⟩ := copyUntil_row c (throws := throws A.length) hs rfl k (by omega) hq (fun _ => ht) k 0 b (by omega)
      (by simpa using hb)
    rw [Nat.sub_zero] at h1
    rw [h1, bind_ok]
    simp only [hk, decide_true, if_true]
    exact ⟨b', rfl, h2, h3⟩
  | (ys, q) :: R, A, h, hs, hr, hq, ht, b, hb => by
    have e : A ++ (ys, q) :: R ++ (xs, cap) :: B = A ++ (ys, q) :: (R ++ (xs, cap) :: B) := by simp
    rw [show ((ys, q) :: R).length + 1 + B.length = (R.length + 1 + B.length) + 1 by simp; omega]
    unfold copyRowsUntil
    have h' : LShape s (A ++ (ys, q) :: (R ++ (xs, cap) :: B)) := by rw [← e]; exact h
    have hs' : Lay src (A ++ (ys, q) :: (R ++ (xs, cap) :: B)) := by rw [← e]; exact hs
    rw [h'.readOffAt rfl, bind_ok, h'.sizeOfAt rfl, bind_ok]
    have e' : A ++ ((ys, q) :: R).map clear ++ ([], cap) :: B.map clear =
      A ++ ([], q) :: (R.map clear ++ ([], cap) :: B.map clear) := by simp [clear]
    obtain ⟨b1, h1, h2, h3⟩ := copyUntil_row c (throws := throws A.length) hs' rfl ys.length (Nat.le_refl _)
      (fun j hj => by simpa using hr 0 (by simp) j (by simpa using hj)) (fun h => by omega) ys.length 0 b (by omega)
      (by rw [e'] at hb; simpa using hb)
    rw [Nat.sub_zero] at h1
    rw [h1, bind_ok]
    simp only [Nat.lt_irrefl, decide_false, Bool.false_eq_true, if_false]
    obtain ⟨b', h4, h5, h6⟩ := copyRowsUntil_threw c k hk R (A ++ [(ys, q)]) (by simpa using h) (by simpa using hs)
      (fun i hi j hj => by
        have := hr (i + 1) (by simp; omega) j (by simpa using hj)
        rw [← this]; congr 1; simp; omega)
      (fun j hj => by rw [← hq j hj]; congr 1; simp; omega) (by rw [← ht]; congr 1; simp; omega) b1
      (by simpa using h2)
    exact ⟨b', by simpa using h4, by simpa using h5, by rw [h6, h3]⟩

omit [Inhabited T] in
theorem copyUntil_none (c : Cfg) (throws : Nat → Bool) (src : Buf T) (off : Nat) (h : ∀ j, throws j = false) :
    ∀ (n j : Nat) (b : Buf T), copyUntil c throws src off n j b =
      forUp n (off + j) (fun k dst => do
        let v ← src.read k
        dst.construct c k v) b >>= fun b => .ok (b, false)
  | 0, _, _ => rfl
  | n + 1, j, b => by
    unfold copyUntil forUp
    rw [if_neg (by rw [h j]; simp)]
    simp only
    cases src.read (off + j) with
    | error e => rfl
    | ok v =>
      simp only [bind_ok]
      cases b.construct c (off + j) v with
      | error e => rfl
      | ok b1 =>
        simp only [bind_ok]
        exact copyUntil_none c throws src off h n (j + 1) b1

omit [Inhabited T] in
theorem copyRowsUntil_none (c : Cfg) (throws : Nat → Nat → Bool) (s : Shape) (src : Buf T) (h : ∀ i j, throws i j = false) :
    ∀ (n i : Nat) (b : Buf T), copyRowsUntil c throws s src n i b =
      forUp n i (fun i dst => do
        let off ← s.offsets.read i
        let n ← s.sizeOfArray c i
        Shape.copyRange c src off n dst) b >>= fun b => .ok (b, false)
  | 0, _, _ => rfl
  | n + 1, i, b => by
    unfold copyRowsUntil forUp
    simp only
    cases s.offsets.read i with
    | error e => rfl
    | ok off =>
      simp only [bind_ok]
      cases s.sizeOfArray c i with
      | error e => rfl
      | ok m =>
        simp only [bind_ok]
        rw [copyUntil_none c (throws i) src off (h i), Nat.add_zero]
        unfold Shape.copyRange
        cases forUp m off (fun k dst => src.read k >>= fun v => Buf.construct c dst k v) b with
        | error e => rfl
        | ok b1 =>
          simp only [bind_ok, Bool.false_eq_true, if_false]
          exact copyRowsUntil_none c throws s src h n (i + 1) b1

theorem forUp_prefix {σ : Type} (f : Nat → σ → R σ) : ∀ (m n lo : Nat) (s : σ),
    forUp (m + n) lo f s = forUp m lo f s >>= forUp n (lo + m) f
  | 0, n, lo, s => by simp [forUp, bind_ok]
  | m + 1, n, lo, s => by
    rw [show m + 1 + n = m + n + 1 by omega]
    unfold forUp
    cases f lo s with
    | error e => rfl
    | ok s1 =>
      simp only [bind_ok]
      rw [forUp_prefix f m n (lo + 1) s1, show lo + 1 + m = lo + (m + 1) by omega]

omit [Inhabited T] in
/-- Destroying values that are not there. -/
theorem destroy_missing (c : Cfg) (hc : c.trivial = false) (b : Buf T) (p j n : Nat) (hj : j < n) (hcap : p + n ≤ b.cap)
    (hl : ∀ k, p ≤ k → k < p + j → (b.cell k).isRaw = false) (hr : b.cell (p + j) = .raw) :
    arrayManipulation.destroy c b p n = .error (.ub .rawDestroy) := by
  have h1 := arrayManipulation.destroy_eq c b p j (.inr fun k h1 h2 => ⟨by omega, hl k h1 h2⟩)
  unfold arrayManipulation.destroy at h1 ⊢
  rw [show n = j + (n - j - 1 + 1) by omega, forUp_prefix, h1, bind_ok]
  unfold forUp
  simp only [Buf.destroyAt, hc, Bool.false_eq_true, if_false]
  rw [if_pos (by omega), if_neg (by omega), hr]
  rfl

omit [Inhabited T] in
/-- Destroying all inner arrays if one of them has fewer values in memory than it counts. -/
theorem destroyValues_missing (c : Cfg) (hc : c.trivial = false) {s : Shape} {b : Buf T} {A B B' : Layout T} {xs ys : List T}
    {cap : Nat} (hs : LShape s (A ++ (xs, cap) :: B)) (hb : Lay b (A ++ (ys, cap) :: B')) (hl : ys.length < xs.length)
    (hx : xs.length ≤ cap) : s.destroyValues c 0 s.numArrays b = .error (.ub .rawDestroy) := by
  unfold Shape.destroyValues
  rw [ShGood.checkInsertBounds hs (Nat.zero_le _), bind_ok, ShGood.checkInsertBounds hs (by rw [ShGood.num hs]; exact Nat.le_refl _),
    bind_ok]
  have hn : s.numArrays - 0 = A.length + (B.length + 1) := by rw [hs.num]; simp
  rw [hn, forUp_prefix]
  have hloop := forUp_inv (f := fun i (b : Buf T) => do
      let off ← s.offsets.read i
      let n ← s.sizeOfArray c i
      arrayManipulation.destroy c b off n)
    (fun m b' => Lay b' ((A.take m).map clear ++ A.drop m ++ (ys, cap) :: B') ∧ b'.cap = b.cap)
    A.length 0 b ⟨by simpa using hb, rfl⟩ ?_
  · obtain ⟨b1, h1, h2, h3⟩ := hloop
    simp only [Nat.zero_add, List.take_length, List.drop_length, List.append_nil] at h2
    rw [h1, bind_ok, Nat.zero_add]
    have hroom := h2.room
    simp only [total_append, total_cons, total_clear] at hroom
    have hw := h2.toWin IsRaw
    rw [total_clear] at hw
    unfold forUp
    simp only
    rw [hs.readOffAt rfl, bind_ok, hs.sizeOfAt rfl, bind_ok,
      destroy_missing c hc b1 (total A) ys.length xs.length hl (by omega) (fun k q1 q2 => by
        obtain ⟨v, hv⟩ := Cell.isLive_iff.1 (hw.isLive_front (k := k) (by omega) (by omega))
        rw [hv]; rfl)
      (hw.free _ (by simp) (by omega))]
    rfl
  · rintro m b1 - hm ⟨h2, h3⟩
    replace hm : m < A.length := by omega
    rw [List.drop_eq_getElem_cons hm] at h2
    have hlay : Lay b1 ((A.take m).map clear ++ (A[m].1, A[m].2) :: (A.drop (m + 1) ++ (ys, cap) :: B')) := by
      rw [List.append_assoc] at h2; exact h2
    obtain ⟨b2, hd, hw, hcap⟩ := (hlay.toWin IsRaw).truncate (c := c) 0 (by omega)
    refine ⟨b2, ?_, ?_, by omega⟩
    · rw [hs.readOff' (by simp; omega), bind_ok, hs.sizeOf' (by simp; omega), bind_ok,
        List.take_append_of_le_length (by omega), ← total_clear]
      rw [show (A ++ (xs, cap) :: B)[m]'(by simp; omega) = A[m] from List.getElem_append_left hm]
      simpa using hd
    · have := hlay.ofWin hw
      rw [List.take_succ_eq_append_getElem hm, List.map_append, List.append_assoc, List.append_assoc]
      exact this

/-- The state after a copy assignment in which value `j` of inner array `A.length` is the first that throws. -/
theorem copyAssign_threw_at (c : Cfg) {dst src : AoA T} {L A B : Layout T} {xs : List T} {cap : Nat} (hd : AWeak dst L)
    (hs : AGood src (A ++ (xs, cap) :: B)) (hroom : CopyRoom c dst.values.cap L (A ++ (xs, cap) :: B)) (j : Nat) (hj : j < xs.length)
    {throws : Nat → Nat → Bool} (hq : ∀ m (hm : m < A.length) k, k < A[m].1.length → throws m k = false)
    (hq' : ∀ k, k < j → throws A.length k = false) (ht : throws A.length j = true) :
    ∃ s' b3, copyAssign c throws dst src = .ok (⟨s', b3⟩, true) ∧ LShape s' (A ++ (xs, cap) :: B) ∧
      Lay b3 (A ++ (xs.take j, cap) :: B.map clear) := by
  have hread : src.shape.offsets.read src.shape.numArrays = .ok (total (A ++ (xs, cap) :: B)) := ShGood.readLast hs.shape
  obtain ⟨b1, h1, h2, h3⟩ := hd.destroyAll (c := c)
  obtain ⟨s', h4, h5⟩ := hd.shape.copyShape (c := c) hs.shape
  rw [copiedMax_eq] at h4
  have hk : staleOffset L (A ++ (xs, cap) :: B) ≤ b1.cap := by
    rw [h3]
    rcases hroom with hr | hr | ⟨_, hr⟩
    · exact staleOffset_le hd.lay.room hr
    · omega
    · exact hr
  obtain ⟨b2, h6, h7, h8⟩ := reserve_empty c h2 (k := staleOffset L (A ++ (xs, cap) :: B)) (n := total (A ++ (xs, cap) :: B)) hk (by
    rw [h3]
    rcases hroom with hr | hr | ⟨hr, _⟩
    · exact .inl hr
    · exact .inr (.inl hr)
    · exact .inr (.inr hr))
  have h0 : Lay b2 ((A ++ (xs, cap) :: B).map clear) := by
    have := h7.addEmpty (B := (A ++ (xs, cap) :: B).map clear) (fun r hr => by
      simp only [List.mem_map, clear] at hr
      obtain ⟨q, _, rfl⟩ := hr
      rfl) (by rw [total_clear]; simpa using h8)
    simpa using this
  have h5' : LShape s' (A ++ (xs, cap) :: B) := h5
  obtain ⟨b3, h9, h10, h11⟩ := copyRowsUntil_threw c (throws := throws) (s := s') (src := src.values) (B := B) j hj A []
    (by simpa using h5') (by simpa using hs.lay)
    (fun m hm k hk => by
      simpa using hq m hm k hk)
    (by simpa using hq') (by simpa using ht) b2 (by simpa [clear] using h0)
  simp only [List.nil_append, List.length_nil] at h9 h10
  have hnum : s'.numArrays = A.length + 1 + B.length := by rw [h5'.num]; simp; omega
  refine ⟨s', b3, ?_, h5', h10⟩
  unfold FaultyRows.copyAssign
  simp only [hread, h1, h4, h6, bind_ok, hnum, h9]

omit [Inhabited T] in
theorem countL_add (c : Cfg) (b b' : Buf T) (m : Nat) (h : ∀ k, b'.cell k = b.cell (m + k)) :
    ∀ n, b.countL c (m + n) = b.countL c m + b'.countL c n
  | 0 => rfl
  | n + 1 => by
    show b.countL c (m + n) + (b.cell (m + n)).lostL c.trivial = _ + (b'.countL c n + (b'.cell n).lostL c.trivial)
    rw [countL_add c b b' m h n, h n]
    omega

omit [Inhabited T] in
theorem countL_ext (c : Cfg) (b b' : Buf T) : ∀ n, (∀ k, k < n → b'.cell k = b.cell k) → b'.countL c n = b.countL c n
  | 0, _ => rfl
  | n + 1, h => by
    show b'.countL c n + _ = b.countL c n + _
    rw [countL_ext c b b' n (fun k hk => h k (by omega)), h n (by omega)]

omit [Inhabited T] in
/-- The number of values in a layout. -/
theorem countL_lay (c : Cfg) (hc : c.trivial = false) : ∀ (L : Layout T) (b : Buf T) (n : Nat), b.cell = cells L →
    (∀ r ∈ L, r.1.length ≤ r.2) → total L ≤ n → b.countL c n = (L.map (·.1.length)).sum
  | [], b, n, hb, _, _ => by
    rw [countL_zero c b n (.inr fun k _ => by rw [hb]; rfl)]
    rfl
  | (xs, cap) :: L, b, n, hb, hf, hn => by
    have hx := hf (xs, cap) (by simp)
    simp only [total_cons] at hn hx
    have ih := countL_lay c hc L { b with cell := cells L } (n - cap) rfl (fun r hr => hf r (by simp [hr])) (by omega)
    rw [show n = cap + (n - cap) by omega, countL_add c b { b with cell := cells L } cap (fun k => by
      rw [hb]; simp only [cells]; rw [if_neg (by omega), Nat.add_sub_cancel_left]), ih,
      ← countL_ext c b { b with cell := cellsOf xs } cap (fun k hk => by rw [hb]; simp only [cells]; rw [if_pos hk]),
      Faulty.countL_between c hc _ 0 xs.length (fun j => ⟨fun h => ⟨_, cellsOf_lt (by omega)⟩, fun h => cellsOf_ge (by omega)⟩)]
    simp only [List.map_cons, List.sum_cons]
    omega

end LvArray.FaultyRows

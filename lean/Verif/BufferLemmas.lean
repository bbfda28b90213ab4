import Verif.BufferManip
/-!
# `bufferManipulation` on a represented sequence: exact results
-/

namespace LvArray

variable {T : Type}

theorem cellsOf_eq {xs : List T} {f : Nat → Cell T}
    (h1 : ∀ k (h : k < xs.length), f k = .live xs[k]) (h2 : ∀ k, xs.length ≤ k → f k = .raw) :
    f = cellsOf xs := by
  funext k
  rcases Nat.lt_or_ge k xs.length with h | h
  · rw [h1 k h, cellsOf_lt h]
  · rw [h2 k h, cellsOf_ge h]

/-- A heap buffer, or a stack buffer that is large enough for `n` elements. -/
def Buf.room (b : Buf T) (n : Nat) : Prop := b.kind = .malloc ∨ n ≤ b.cap

instance (b : Buf T) (n : Nat) : Decidable (b.room n) := inferInstanceAs (Decidable (_ ∨ _))

/-- Capacity after `dynamicReserve`. -/
def Buf.grownCap (b : Buf T) (n : Nat) : Nat := if b.cap < n then 2 * n else b.cap

/-- Relocations done by growing a buffer holding `size` elements to hold `n`. -/
def Buf.growMoves (b : Buf T) (size n : Nat) : Nat := if b.cap < n then size else 0

theorem Buf.le_grownCap (b : Buf T) (n : Nat) : n ≤ b.grownCap n := by
  unfold Buf.grownCap; split <;> omega

namespace bufferManipulation

theorem check_ok (c : Cfg) (b : Buf T) (size : Nat) (h : size ≤ b.cap) : check c b size = .ok () := by
  simp [check, errorIf]; omega

theorem checkInsert_ok (c : Cfg) (b : Buf T) (size pos : Nat) (h : size ≤ b.cap) (hp : pos ≤ size) :
    checkInsert c b size pos = .ok () := by
  simp [checkInsert, check_ok c b size h, errorIf]; omega

theorem setCapacity_rep (c : Cfg) {b : Buf T} {xs : List T} (h : Rep b xs) (n : Nat)
    (hk : b.kind = .malloc) (hn : xs.length ≤ n) :
    setCapacity c b xs.length n = .ok { b with cap := n, moves := b.moves + xs.length } := by
  unfold setCapacity
  obtain ⟨hc, hle⟩ := h
  rw [check_ok c b _ hle, bind_ok, reallocate_eq c b _ n hk hle]
  · simp only [Except.ok.injEq, Buf.mk.injEq, true_and]
    refine ⟨?_, by omega⟩
    rw [hc]; apply cellsOf_eq
    · intro k hk; rw [if_pos (by omega), cellsOf_lt hk]
    · intro k hk; rw [if_neg (by omega)]
  · right
    rw [hc]
    exact ⟨fun k hk => cellsOf_notRaw hk, fun k hk _ => cellsOf_ge hk⟩

theorem reserve_rep (c : Cfg) {b : Buf T} {xs : List T} (h : Rep b xs) (n : Nat) (hr : b.room n) :
    reserve c b xs.length n =
      .ok { b with cap := max b.cap n, moves := b.moves + b.growMoves xs.length n } := by
  unfold reserve
  rw [check_ok c b _ h.2, bind_ok]
  by_cases hn : b.cap < n
  · rw [if_pos hn, setCapacity_rep c h n (hr.resolve_right (by omega)) (by have := h.2; omega)]
    simp only [Buf.growMoves, hn, if_true]
    rw [Nat.max_eq_right (by omega)]
  · rw [if_neg hn]
    simp only [Buf.growMoves, hn, if_false, Nat.add_zero, Nat.max_eq_left (Nat.le_of_not_lt hn)]

theorem dynamicReserve_rep (c : Cfg) {b : Buf T} {xs : List T} (h : Rep b xs) (n : Nat) (hr : b.room n) :
    dynamicReserve c b xs.length n =
      .ok { b with cap := b.grownCap n, moves := b.moves + b.growMoves xs.length n } := by
  unfold dynamicReserve
  rw [check_ok c b _ h.2, bind_ok]
  by_cases hn : b.cap < n
  · rw [if_pos hn, setCapacity_rep c h (2 * n) (hr.resolve_right (by omega)) (by have := h.2; omega)]
    simp only [Buf.growMoves, Buf.grownCap, hn, if_true]
  · rw [if_neg hn]
    simp only [Buf.growMoves, Buf.grownCap, hn, if_false, Nat.add_zero]

/-- A stack buffer that is too small makes growth abort, leaving nothing to observe. -/
theorem reserve_abort (c : Cfg) {b : Buf T} {size : Nat} (h : size ≤ b.cap) (n : Nat) (hr : ¬ b.room n) :
    reserve c b size n = .error .abort := by
  unfold Buf.room at hr
  unfold reserve
  rw [check_ok c b _ h, bind_ok, if_pos (by omega)]
  unfold setCapacity
  rw [check_ok c b _ h, bind_ok]
  unfold Buf.reallocate
  cases hk : b.kind
  · exact absurd (.inl hk) hr
  · simp [show b.cap < n by omega]

theorem dynamicReserve_abort (c : Cfg) {b : Buf T} {size : Nat} (h : size ≤ b.cap) (n : Nat)
    (hr : ¬ b.room n) : dynamicReserve c b size n = .error .abort := by
  unfold Buf.room at hr
  unfold dynamicReserve
  rw [check_ok c b _ h, bind_ok, if_pos (by omega)]
  unfold setCapacity
  rw [check_ok c b _ h, bind_ok]
  unfold Buf.reallocate
  cases hk : b.kind
  · exact absurd (.inl hk) hr
  · simp [show b.cap < 2 * n by omega]

theorem resize_rep (c : Cfg) {b : Buf T} {xs : List T} (h : Rep b xs) (n : Nat) (v : T) (hr : b.room n) :
    resize c b xs.length n v =
      .ok { b with cap := max b.cap n, moves := b.moves + b.growMoves xs.length n,
                   cell := cellsOf (xs.take n ++ List.replicate (n - xs.length) v) } := by
  unfold resize
  rw [check_ok c b _ h.2, bind_ok, reserve_rep c h n hr, bind_ok, arrayManipulation.resize_eq]
  · simp only [Except.ok.injEq, Buf.mk.injEq, true_and, and_true, Nat.zero_add]
    apply cellsOf_eq
    · intro k hk
      simp only [List.length_append, List.length_take, List.length_replicate] at hk
      rw [if_neg (by omega)]
      rcases Nat.lt_or_ge k xs.length with hlt | hge
      · rw [if_neg (by omega), h.1, cellsOf_lt hlt, List.getElem_append_left (by simp; omega)]
        simp
      · rw [if_pos (by omega), List.getElem_append_right (by simp; omega)]
        simp
    · intro k hk
      simp only [List.length_append, List.length_take, List.length_replicate] at hk
      split
      · rfl
      · rw [if_neg (by omega), h.1, cellsOf_ge (by omega)]
  · right; show 0 + n ≤ max b.cap n; omega
  · right
    intro k h1 h2
    have := h.2
    refine ⟨show k < max b.cap n by omega, ?_⟩
    show (b.cell k).isRaw = false
    rw [h.1]; exact cellsOf_notRaw (by omega)
  · intro k h1 h2
    show b.cell k = _
    rw [h.1]; exact cellsOf_ge (by omega)

theorem emplaceBack_rep (c : Cfg) {b : Buf T} {xs : List T} (h : Rep b xs) (v : T)
    (hr : b.room (xs.length + 1)) :
    emplaceBack c b xs.length v =
      .ok { b with cap := b.grownCap (xs.length + 1)
                   moves := b.moves + b.growMoves xs.length (xs.length + 1)
                   cell := cellsOf (xs ++ [v]) } := by
  unfold emplaceBack
  have := b.le_grownCap (xs.length + 1)
  rw [check_ok c b _ h.2, bind_ok, dynamicReserve_rep c h _ hr, bind_ok, arrayManipulation.emplaceBack_eq]
  · simp only [Except.ok.injEq, Buf.mk.injEq, true_and, and_true, Nat.zero_add]
    rw [h.1]
    apply cellsOf_eq
    · intro k hk
      simp only [List.length_append, List.length_singleton] at hk
      by_cases hkx : k = xs.length
      · subst hkx; simp [upd]
      · have : k < xs.length := by omega
        rw [upd_ne _ _ hkx, cellsOf_lt this, List.getElem_append_left this]
    · intro k hk
      simp only [List.length_append, List.length_singleton] at hk
      rw [upd_ne _ _ (by omega), cellsOf_ge (by omega)]
  · show 0 + xs.length < b.grownCap (xs.length + 1); omega
  · show b.cell _ = _
    rw [h.1]; exact cellsOf_ge (by omega)

theorem emplace_rep (c : Cfg) {b : Buf T} {xs : List T} (h : Rep b xs) (pos : Nat) (v : T)
    (hp : pos ≤ xs.length) (hr : b.room (xs.length + 1)) :
    emplace c b xs.length pos v =
      .ok { b with cap := b.grownCap (xs.length + 1)
                   lostMoved := b.lostMoved + arrayManipulation.shiftUpLost c xs.length pos 1
                   moves := b.moves + b.growMoves xs.length (xs.length + 1)
                     + arrayManipulation.shiftMoves xs.length pos 1
                   cell := cellsOf (xs.take pos ++ v :: xs.drop pos) } := by
  unfold emplace
  have := b.le_grownCap (xs.length + 1)
  rw [checkInsert_ok c b _ _ h.2 hp, bind_ok, dynamicReserve_rep c h _ hr, bind_ok,
    arrayManipulation.emplace_eq c _ 0 xs.length pos v hp]
  · simp only [Except.ok.injEq, Buf.mk.injEq, true_and, and_true, Nat.zero_add]
    rw [h.1]
    apply cellsOf_eq
    · intro k hk
      simp only [List.length_append, List.length_take, List.length_cons, List.length_drop] at hk
      by_cases h1 : k < pos
      · rw [if_pos h1, cellsOf_lt (by omega), List.getElem_append_left (by simp; omega)]; simp
      · rw [if_neg h1, List.getElem_append_right (by simp; omega)]
        simp only [List.length_take, Nat.min_eq_left hp]
        by_cases h2 : k = pos
        · subst h2; simp
        · rw [if_neg h2, if_pos (by omega), cellsOf_lt (by omega)]
          congr 1
          rw [List.getElem_cons, dif_neg (by omega), List.getElem_drop]
          congr 1; omega
    · intro k hk
      simp only [List.length_append, List.length_take, List.length_cons, List.length_drop] at hk
      rw [if_neg (by omega), if_neg (by omega), if_neg (by omega), cellsOf_ge (by omega)]
  · show 0 + xs.length + 1 ≤ b.grownCap (xs.length + 1); omega
  · intro k h1 h2
    show (b.cell k).isLive = true
    rw [h.1]; exact cellsOf_isLive (by omega)
  · show b.cell _ = _
    rw [h.1]; exact cellsOf_ge (by omega)

theorem insert_rep [Inhabited T] (c : Cfg) {b : Buf T} {xs : List T} (h : Rep b xs) (pos : Nat) (vs : List T)
    (hp : pos ≤ xs.length) (hr : b.room (xs.length + vs.length))
    (hd : c.debug = true → vs = [] → 0 < b.cap) :
    insert c b xs.length pos vs =
      .ok { b with cap := b.grownCap (xs.length + vs.length)
                   lostMoved := b.lostMoved + arrayManipulation.shiftUpLost c xs.length pos vs.length
                   moves := b.moves + b.growMoves xs.length (xs.length + vs.length)
                     + arrayManipulation.shiftMoves xs.length pos vs.length
                   cell := cellsOf (xs.take pos ++ vs ++ xs.drop pos) } := by
  unfold insert
  have hle := b.le_grownCap (xs.length + vs.length)
  rw [checkInsert_ok c b _ _ h.2 hp, bind_ok, dynamicReserve_rep c h _ hr, bind_ok,
    arrayManipulation.insert_eq c _ 0 xs.length pos vs hp]
  · simp only [Except.ok.injEq, Buf.mk.injEq, true_and, and_true, Nat.zero_add]
    rw [h.1]
    apply cellsOf_eq
    · intro k hk
      simp only [List.length_append, List.length_take, List.length_drop] at hk
      by_cases h1 : k < pos
      · rw [if_pos h1, cellsOf_lt (by omega), List.getElem_append_left (by simp; omega),
          List.getElem_append_left (by simp; omega)]; simp
      · rw [if_neg h1]
        by_cases h2 : k < pos + vs.length
        · rw [if_pos h2, List.getElem_append_left (by simp; omega),
            List.getElem_append_right (by simp; omega)]
          simp only [List.length_take, Nat.min_eq_left hp]
          rw [List.getD_eq_getElem?_getD, List.getElem?_eq_getElem (by omega), Option.getD_some]
        · rw [if_neg h2, if_pos (by omega), cellsOf_lt (by omega),
            List.getElem_append_right (by simp; omega)]
          congr 1
          simp only [List.length_append, List.length_take, Nat.min_eq_left hp, List.getElem_drop]
          congr 1; omega
    · intro k hk
      simp only [List.length_append, List.length_take, List.length_drop] at hk
      rw [if_neg (by omega), if_neg (by omega), if_neg (by omega), cellsOf_ge (by omega)]
  · intro hdb
    show 0 < b.grownCap (xs.length + vs.length)
    by_cases hv : vs = []
    · have := hd hdb hv
      unfold Buf.grownCap; split <;> omega
    · have : 0 < vs.length := List.length_pos_iff.2 hv
      omega
  · show 0 + xs.length + vs.length ≤ b.grownCap (xs.length + vs.length); omega
  · intro k h1 h2
    show (b.cell k).isLive = true
    rw [h.1]; exact cellsOf_isLive (by omega)
  · intro k h1 h2
    show b.cell _ = _
    rw [h.1]; exact cellsOf_ge (by omega)

theorem popBack_rep (c : Cfg) {b : Buf T} {xs : List T} (h : Rep b xs) (hne : xs ≠ []) :
    popBack c b xs.length = .ok { b with cell := cellsOf xs.dropLast } := by
  have hpos := List.length_pos_iff.2 hne
  unfold popBack
  rw [check_ok c b _ h.2, bind_ok, arrayManipulation.popBack_eq c b 0 xs.length hpos (by have := h.2; omega)]
  · simp only [Except.ok.injEq, Buf.mk.injEq, true_and, and_true, Nat.zero_add]
    rw [h.1]
    apply cellsOf_eq
    · intro k hk
      simp only [List.length_dropLast] at hk
      rw [upd_ne _ _ (by omega), cellsOf_lt (by omega), List.getElem_dropLast]
    · intro k hk
      simp only [List.length_dropLast] at hk
      by_cases hk2 : k = xs.length - 1
      · rw [hk2, upd_same]
      · rw [upd_ne _ _ hk2, cellsOf_ge (by omega)]
  · rw [h.1]; exact cellsOf_notRaw (by omega)

theorem erase_rep (c : Cfg) {b : Buf T} {xs : List T} (h : Rep b xs) (pos : Nat) (hp : pos < xs.length) :
    erase c b xs.length pos = .ok { b with cell := cellsOf (xs.eraseIdx pos) } := by
  unfold erase
  rw [check_ok c b _ h.2, bind_ok, show decide (xs.length ≤ pos) = false by simpa using hp, errorIf_false,
    bind_ok, arrayManipulation.erase_eq c b 0 xs.length pos 1 (by omega) (by have := h.2; omega)]
  · simp only [Except.ok.injEq, Buf.mk.injEq, true_and, and_true, Nat.zero_add]
    rw [h.1]
    apply cellsOf_eq
    · intro k hk
      rw [List.length_eraseIdx_of_lt hp] at hk
      rw [List.getElem_eraseIdx]
      split
      · rw [cellsOf_lt (by omega)]
      · rw [cellsOf_lt (by omega)]
    · intro k hk
      rw [List.length_eraseIdx_of_lt hp] at hk
      rw [if_neg (by omega), if_neg (by omega)]
      split
      · rfl
      · exact cellsOf_ge (by omega)
  · intro k h1 h2
    rw [h.1]; exact cellsOf_isLive (by omega)

theorem read_rep {b : Buf T} {xs : List T} (h : Rep b xs) (i : Nat) (hi : i < xs.length) :
    b.read i = .ok xs[i] := by
  unfold Buf.read
  rw [if_pos (by have := h.2; omega), h.1, cellsOf_lt hi]

theorem write_rep (c : Cfg) {b : Buf T} {xs : List T} (h : Rep b xs) (i : Nat) (v : T) (hi : i < xs.length) :
    b.write c i v = .ok { b with cell := cellsOf (xs.set i v) } := by
  unfold Buf.write
  rw [if_pos (by have := h.2; omega), h.1, cellsOf_notRaw hi]
  simp only [Bool.false_and, Bool.false_eq_true, if_false, Except.ok.injEq, Buf.mk.injEq, true_and, and_true]
  apply cellsOf_eq
  · intro k hk
    simp only [List.length_set] at hk
    by_cases hki : k = i
    · subst hki; simp [upd]
    · rw [upd_ne _ _ hki, cellsOf_lt hk, List.getElem_set_ne (by omega)]
  · intro k hk
    simp only [List.length_set] at hk
    rw [upd_ne _ _ (by omega), cellsOf_ge hk]

theorem copyInto_rep (c : Cfg) {b : Buf T} {xs ys : List T} {src : Buf T} (h : Rep b xs) (hs : Rep src ys)
    (v : T) (hr : b.room ys.length) :
    copyInto c b xs.length src ys.length v =
      .ok { b with cap := max b.cap ys.length, moves := b.moves + b.growMoves xs.length ys.length,
                   cell := cellsOf ys } := by
  unfold copyInto
  rw [check_ok c b _ h.2, bind_ok, check_ok c src _ hs.2, bind_ok, resize_rep c h _ v hr, bind_ok]
  let base : List T := xs.take ys.length ++ List.replicate (ys.length - xs.length) v
  have hbl : base.length = ys.length := by simp [base]; omega
  let g : Nat → Buf T := fun i =>
    { b with cap := max b.cap ys.length, moves := b.moves + b.growMoves xs.length ys.length,
             cell := cellsOf (ys.take i ++ base.drop i) }
  have h := forUp_eq (f := fun i (dst : Buf T) => do
    let x ← src.read i
    dst.write c i x) g ys.length 0 (s := { b with
      cap := max b.cap ys.length, moves := b.moves + b.growMoves xs.length ys.length,
      cell := cellsOf base }) ?_ ?_
  · rw [h]; simp only [g, Nat.zero_add, List.take_length]
    rw [List.drop_eq_nil_of_le (by omega), List.append_nil]
  · simp [g]
  · intro i _ hi
    have hi : i < ys.length := by omega
    have hrep : Rep (g i) (ys.take i ++ base.drop i) := ⟨rfl, by
      simp only [g, List.length_append, List.length_take, List.length_drop, hbl]; omega⟩
    show (src.read i >>= fun x => (g i).write c i x) = _
    rw [read_rep hs i hi, bind_ok, write_rep c hrep i _ (by simp [hbl]; omega)]
    simp only [g, Except.ok.injEq, Buf.mk.injEq, true_and, and_true]
    congr 1
    apply List.ext_getElem
    · simp [hbl]; omega
    · intro k h1 h2
      simp only [List.getElem_set, List.getElem_append, List.length_take, List.getElem_take,
        List.getElem_drop]
      grind

theorem free_rep (c : Cfg) {b : Buf T} {xs : List T} (h : Rep b xs) (hk : b.kind = .malloc) :
    free c b xs.length = .ok { b with cap := 0, cell := fun _ => .raw } := by
  unfold free
  rw [check_ok c b _ h.2, bind_ok]
  by_cases ht : c.trivial = true
  · rw [if_pos ht, bind_ok]
    simp [Buf.release, hk, countL_zero c b _ (.inl ht), countM_zero c b _ (.inl ht)]
  · rw [if_neg ht, arrayManipulation.destroy_eq, bind_ok]
    · simp only [Buf.release, hk]
      rw [countL_zero, countM_zero]
      · rfl
      all_goals
        right
        intro k hk
        simp only [Nat.zero_le, true_and, Nat.zero_add]
        split
        · rfl
        · rw [h.1]; exact cellsOf_ge (by omega)
    · right
      intro k _ hk
      have := h.2
      refine ⟨by omega, ?_⟩
      rw [h.1]; exact cellsOf_notRaw (by omega)

end bufferManipulation

end LvArray

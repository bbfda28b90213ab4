import Verif.ScarceLemmas
import Verif.Spec.Scarce
import Verif.Props.Vector

/-!
# C85: arrays when memory runs out
-/

namespace LvArray.Props

open LvArray Spec Held

variable {T : Type} {c : Cfg} {s : Supply}

/-- There is memory for `N` elements, whenever it is asked for, and the number of bytes can be written down. -/
structure Plenty (s : Supply) (N : Nat) : Prop where
  elem : 0 < s.elem
  word : N * s.elem < s.word
  grants : ∀ k bytes, bytes ≤ N * s.elem → s.grants k bytes = true

/-- The array holds `xs`, in a block that is as large as it says. -/
structure HGood (N : Nat) (a : Held1 T) (xs : List T) : Prop where
  size : a.size = xs.length
  holds : a.held.Holds xs
  whole : a.held.claimed = a.held.buf.cap
  null : a.held.null = (a.held.buf.cap == 0)
  small : a.held.claimed ≤ N

theorem HGood.start (N : Nat) : HGood N (Held1.init T) [] :=
  ⟨rfl, ⟨⟨rfl, by simp⟩, rfl, fun _ => rfl, by simp⟩, rfl, rfl, Nat.zero_le _⟩

theorem Plenty.block {N n : Nat} (P : Plenty s N) (hn : n ≤ N) : n * s.elem % s.word / s.elem = n ∧ ∀ k, s.grants k (n * s.elem % s.word) = true := by
  have h1 : n * s.elem ≤ N * s.elem := Nat.mul_le_mul_right _ hn
  have h2 := P.word
  rw [Nat.mod_eq_of_lt (by omega)]
  exact ⟨Nat.mul_div_cancel _ P.elem, fun k => P.grants k _ h1⟩

/-- Room is made. -/
theorem grow {N n : Nat} (P : Plenty s N) {a : Held1 T} {xs : List T} (g : HGood N a xs) (h0 : a.held.claimed < n) (h1 : n ≤ N) :
    ∃ h', a.held.reallocate c s xs.length n = .ok h' ∧ HGood N { held := h', size := xs.length } xs ∧ h'.claimed = n ∧
      h'.buf.lostLive = a.held.buf.lostLive := by
  obtain ⟨e1, e2⟩ := P.block h1
  have hle := g.holds.le
  refine ⟨_, reallocate_got g.holds (by omega) (e2 _) (by omega), ⟨rfl, ⟨⟨g.holds.rep.1, ?_⟩, g.holds.kind, fun h => by simp at h, ?_⟩, ?_, ?_, ?_⟩,
    rfl, rfl⟩
  · simp only [e1]; omega
  · simp only; omega
  · simp only [e1]
  · simp only [e1]
    have : n ≠ 0 := by omega
    simp [this]
  · exact h1

theorem reserve_enough {N n : Nat} (P : Plenty s N) {a : Held1 T} {xs : List T} (g : HGood N a xs) (h1 : n ≤ N) :
    ∃ h', a.held.reserve c s xs.length n = .ok h' ∧ HGood N { held := h', size := xs.length } xs ∧ n ≤ h'.buf.cap := by
  unfold Held.reserve
  rw [Held.check_ok g.holds, bind_ok]
  by_cases h : a.held.claimed < n
  · obtain ⟨h', e, g', e2, _⟩ := grow (c := c) P g h h1
    rw [if_pos h]
    exact ⟨h', e, g', by have := g'.whole; simp only at this; omega⟩
  · rw [if_neg h]
    exact ⟨_, rfl, ⟨rfl, g.holds, g.whole, g.null, g.small⟩, by have := g.whole; omega⟩

theorem dynamicReserve_enough {N n : Nat} (P : Plenty s N) {a : Held1 T} {xs : List T} (g : HGood N a xs) (h1 : 2 * n ≤ N) :
    ∃ h', a.held.dynamicReserve c s xs.length n = .ok h' ∧ HGood N { held := h', size := xs.length } xs ∧ n ≤ h'.buf.cap := by
  unfold Held.dynamicReserve
  rw [Held.check_ok g.holds, bind_ok]
  by_cases h : a.held.claimed < n
  · obtain ⟨h', e, g', e2, _⟩ := grow (c := c) P g (n := 2 * n) (by omega) h1
    rw [if_pos h]
    exact ⟨h', e, g', by have := g'.whole; simp only at this; omega⟩
  · rw [if_neg h]
    exact ⟨_, rfl, ⟨rfl, g.holds, g.whole, g.null, g.small⟩, by have := g.whole; omega⟩

/-- The elements changed inside the block. -/
theorem HGood.put {N : Nat} {h : Held T} {n m : Nat} {xs ys : List T} (g : HGood N { held := h, size := n } xs) {b : Buf T} (hc : b.cell = cellsOf ys)
    (hcap : b.cap = h.buf.cap) (hk : b.kind = h.buf.kind) (hl : ys.length ≤ h.buf.cap) (hm : m = ys.length) :
    HGood N { held := { h with buf := b }, size := m } ys := by
  refine ⟨hm, ⟨⟨hc, by simp only; omega⟩, by simp only; rw [hk]; exact g.holds.kind, fun hn => ?_, ?_⟩, ?_, ?_, g.small⟩
  · have e := g.null
    simp only at hn e
    rw [hn] at e
    have : h.buf.cap = 0 := by simpa using e.symm
    exact List.length_eq_zero_iff.1 (by omega)
  · have := g.whole; simp only at this ⊢; omega
  · have := g.whole; simp only at this ⊢; omega
  · have := g.null; simp only at this ⊢; rw [this, hcap]

variable [Inhabited T]

theorem resize_enough {N : Nat} (P : Plenty s N) {a : Held1 T} {xs : List T} (g : HGood N a xs) (n : Nat) (v : T) (hn : n ≤ N) :
    ∃ h', a.held.resize c s xs.length n v = .ok h' ∧
      HGood N { held := h', size := n } (xs.take n ++ List.replicate (n - xs.length) v) := by
  obtain ⟨h1, e1, g1, hc⟩ := reserve_enough (c := c) P g hn
  have hle := g1.holds.rep.2
  simp only at hle
  have e2 := bufferManipulation.resize_rep c g1.holds.rep n v (.inr hc)
  simp only at e2
  unfold bufferManipulation.resize bufferManipulation.reserve at e2
  rw [bufferManipulation.check_ok c _ _ hle, bind_ok, bind_ok, if_neg (by omega), bind_ok] at e2
  have e3 : assertPtr c h1.null (xs.length == 0 && n == 0) = .ok () := by
    have := g1.null
    simp only at this
    by_cases hz : h1.buf.cap = 0
    · have : xs.length = 0 := by omega
      have : n = 0 := by omega
      simp [*]
    · have : h1.null = false := by rw [this]; simpa using hz
      simp [this]
  unfold Held.resize
  rw [Held.check_ok g.holds, bind_ok, e1, bind_ok, e3, bind_ok, e2, bind_ok]
  refine ⟨_, rfl, g1.put rfl ?_ rfl ?_ ?_⟩
  · simp only; omega
  · simp; omega
  · simp; omega

theorem HGood.nonnull {N : Nat} {h : Held T} {n : Nat} {xs : List T} (g : HGood N { held := h, size := n } xs) (hc : 0 < h.buf.cap) : h.null = false := by
  have := g.null
  simp only at this
  rw [this]
  simp; omega

/-- A legal call when there is enough memory. -/
theorem HGood.step {N : Nat} (P : Plenty s N) {a : Held1 T} {xs ys : List T} (g : HGood N a xs) (op : VecOp T)
    (h : vecStep none xs op = some ys) (hd : c.debug = true → ∀ pos, op ≠ .insert pos []) (hr : ∀ n, op = .reserve n → n.toNat ≤ N)
    (hl : 2 * ys.length ≤ N) : ∃ a', a.step c s op = .ok a' ∧ HGood N a' ys := by
  cases op with
  | emplaceBack v =>
    simp only [vecStep, Option.ite_none_right_eq_some, Option.some.injEq] at h
    obtain ⟨hf, rfl⟩ := h
    simp only [List.length_append, List.length_cons, List.length_nil, Nat.zero_add] at hl
    obtain ⟨h1, e1, g1, hc⟩ := dynamicReserve_enough (c := c) P g (n := xs.length + 1) (by omega)
    have e2 := bufferManipulation.emplaceBack_rep c g1.holds.rep v (.inr hc)
    simp only at e2
    unfold bufferManipulation.emplaceBack bufferManipulation.dynamicReserve arrayManipulation.emplaceBack at e2
    rw [bufferManipulation.check_ok c _ _ (by omega), bind_ok, bind_ok, if_neg (by omega), bind_ok,
      arrayManipulation.assertNonNull_ok _ _ _ (by omega), bind_ok, Nat.zero_add] at e2
    have e7 : assertPtr c h1.null false = .ok () := by rw [g1.nonnull (by omega)]; exact assertPtr_false _
    simp only [Held1.step, Held.emplaceBack, g.size, Held.check_ok g.holds, bind_ok, e1, e7, e2]
    refine ⟨_, rfl, g1.put rfl ?_ rfl (by simpa using hc) (by simp)⟩
    simp only [Buf.grownCap]; rw [if_neg (by omega)]
  | emplace pos v =>
    simp only [vecStep, Option.ite_none_right_eq_some, Option.some.injEq] at h
    obtain ⟨⟨h0, hp, hf⟩, rfl⟩ := h
    have hlen : (xs.take pos.toNat ++ v :: xs.drop pos.toNat).length = xs.length + 1 := by simp; omega
    rw [hlen] at hl
    obtain ⟨h1, e1, g1, hc⟩ := dynamicReserve_enough (c := c) P g (n := xs.length + 1) hl
    have e2 := bufferManipulation.emplace_rep c g1.holds.rep pos.toNat v (by omega) (.inr hc)
    simp only at e2
    unfold bufferManipulation.emplace bufferManipulation.dynamicReserve arrayManipulation.emplace at e2
    rw [bufferManipulation.checkInsert_ok c _ _ _ (by omega) (by omega), bind_ok, bufferManipulation.check_ok c _ _ (by omega), bind_ok,
      if_neg (by omega), bind_ok, arrayManipulation.assertNonNull_ok _ _ _ (by omega), bind_ok, Nat.zero_add] at e2
    have e3 : a.held.checkInsert c xs.length pos.toNat = .ok () := by
      unfold Held.checkInsert
      rw [Held.check_ok g.holds, bind_ok]
      simp [errorIf]; omega
    obtain ⟨⟨⟩, e4, e2⟩ := bind_eq_ok.mp e2
    obtain ⟨b1, e5, e2⟩ := bind_eq_ok.mp e2
    have e7 : assertPtr c h1.null false = .ok () := by rw [g1.nonnull (by omega)]; exact assertPtr_false _
    simp only [Held1.step, posArg_ok c h0, Held.emplace, g.size, e3, bind_ok, e1, e7, e4, e5, e2]
    refine ⟨_, rfl, g1.put rfl ?_ rfl (by rw [hlen]; exact hc) hlen.symm⟩
    simp only [Buf.grownCap]; rw [if_neg (by omega)]
  | insert pos vs =>
    simp only [vecStep, Option.ite_none_right_eq_some, Option.some.injEq] at h
    obtain ⟨⟨h0, hp, hf⟩, rfl⟩ := h
    have hlen : (xs.take pos.toNat ++ vs ++ xs.drop pos.toNat).length = xs.length + vs.length := by simp; omega
    rw [hlen] at hl
    obtain ⟨h1, e1, g1, hc⟩ := dynamicReserve_enough (c := c) P g (n := xs.length + vs.length) hl
    have hv : c.debug = true → vs = [] → 0 < h1.buf.cap := fun h2 h3 => absurd (by rw [h3]) (hd h2 pos)
    have e2 := bufferManipulation.insert_rep c g1.holds.rep pos.toNat vs (by omega) (.inr hc) hv
    simp only at e2
    unfold bufferManipulation.insert bufferManipulation.dynamicReserve arrayManipulation.insert at e2
    rw [bufferManipulation.checkInsert_ok c _ _ _ (by omega) (by omega), bind_ok, bufferManipulation.check_ok c _ _ (by omega), bind_ok,
      if_neg (by omega), bind_ok] at e2
    obtain ⟨⟨⟩, e6, e2⟩ := bind_eq_ok.mp e2
    rw [Nat.zero_add] at e2
    have e3 : a.held.checkInsert c xs.length pos.toNat = .ok () := by
      unfold Held.checkInsert
      rw [Held.check_ok g.holds, bind_ok]
      simp [errorIf]; omega
    have e7 : assertPtr c h1.null false = .ok () := by
      by_cases hz : 0 < h1.buf.cap
      · rw [g1.nonnull hz]; exact assertPtr_false _
      · have : c.debug = false := by
          cases hb : c.debug with
          | false => rfl
          | true => exact absurd (hv hb (List.length_eq_zero_iff.1 (by omega))) hz
        simp [assertPtr, this]
    obtain ⟨⟨⟩, e4, e2⟩ := bind_eq_ok.mp e2
    obtain ⟨b1, e5, e2⟩ := bind_eq_ok.mp e2
    simp only [Held1.step, posArg_ok c h0, Held.insert, g.size, e3, bind_ok, e1, e7, e4, e5, e2]
    refine ⟨_, rfl, g1.put rfl ?_ rfl (by rw [hlen]; exact hc) hlen.symm⟩
    simp only [Buf.grownCap]; rw [if_neg (by omega)]
  | popBack =>
    simp only [vecStep, Option.ite_none_left_eq_some, Option.some.injEq] at h
    obtain ⟨hne, rfl⟩ := h
    have hpos := List.length_pos_iff.2 hne
    have hle := g.holds.rep.2
    have e2 := bufferManipulation.popBack_rep c g.holds.rep hne
    unfold bufferManipulation.popBack arrayManipulation.popBack at e2
    rw [bufferManipulation.check_ok c _ _ hle, bind_ok] at e2
    obtain ⟨⟨⟩, e4, e2⟩ := bind_eq_ok.mp e2
    obtain ⟨⟨⟩, e5, e2⟩ := bind_eq_ok.mp e2
    rw [if_neg (by omega), Nat.zero_add] at e2
    have e7 : assertPtr c a.held.null false = .ok () := by
      rw [show a.held.null = false by rw [g.null]; simp; omega]; exact assertPtr_false _
    simp only [Held1.step, Held.popBack, g.size, Held.check_ok g.holds, bind_ok, e7, e5]
    rw [if_neg (by omega), e2, bind_ok, bind_ok]
    exact ⟨_, rfl, HGood.put (n := a.size) ⟨g.size, g.holds, g.whole, g.null, g.small⟩ rfl rfl rfl (by simp; omega) (by simp)⟩
  | erase pos =>
    simp only [vecStep, Option.ite_none_right_eq_some, Option.some.injEq] at h
    obtain ⟨⟨h0, hp⟩, rfl⟩ := h
    have hle := g.holds.rep.2
    have hlen := List.length_eraseIdx_of_lt (l := xs) (i := pos.toNat) (by omega)
    have e2 := bufferManipulation.erase_rep c g.holds.rep pos.toNat (by omega)
    unfold bufferManipulation.erase at e2
    rw [bufferManipulation.check_ok c _ _ hle, bind_ok] at e2
    obtain ⟨⟨⟩, e4, e2⟩ := bind_eq_ok.mp e2
    simp only [Held1.step, posArg_ok c h0, Held.erase, g.size, Held.check_ok g.holds, bind_ok, e4, e2]
    exact ⟨_, rfl, HGood.put (n := a.size) ⟨g.size, g.holds, g.whole, g.null, g.small⟩ rfl rfl rfl (by omega) (by omega)⟩
  | resize n =>
    simp only [vecStep, Option.ite_none_right_eq_some, Option.some.injEq] at h
    obtain ⟨⟨h0, hf⟩, rfl⟩ := h
    simp only [List.length_append, List.length_take, List.length_replicate] at hl
    obtain ⟨h', e, g'⟩ := resize_enough (c := c) P g n.toNat default (by omega)
    simp only [Held1.step, g.size, show decide (n < 0) = false by simpa using h0, errorIf_false, bind_ok, e]
    exact ⟨_, rfl, g'⟩
  | resizeDefault n v =>
    simp only [vecStep, Option.ite_none_right_eq_some, Option.some.injEq] at h
    obtain ⟨⟨h0, hf⟩, rfl⟩ := h
    simp only [List.length_append, List.length_take, List.length_replicate] at hl
    obtain ⟨h', e, g'⟩ := resize_enough (c := c) P g n.toNat v (by omega)
    simp only [Held1.step, g.size, show decide (n < 0) = false by simpa using h0, errorIf_false, bind_ok, e]
    exact ⟨_, rfl, g'⟩
  | reserve n =>
    simp only [vecStep, Option.ite_none_right_eq_some, Option.some.injEq] at h
    obtain ⟨hf, rfl⟩ := h
    obtain ⟨h', e, g', _⟩ := reserve_enough (c := c) P g (hr n rfl)
    simp only [Held1.step, g.size, e, bind_ok]
    exact ⟨_, rfl, g'⟩
  | clear =>
    simp only [vecStep, Option.some.injEq] at h
    subst h
    obtain ⟨h', e, g'⟩ := resize_enough (c := c) P g 0 default (Nat.zero_le _)
    simp only [Held1.step, g.size, e, bind_ok]
    exact ⟨_, rfl, by simpa using g'⟩
  | set i v =>
    simp only [vecStep, Option.ite_none_right_eq_some, Option.some.injEq] at h
    obtain ⟨⟨h0, hp⟩, rfl⟩ := h
    have hck : ({ buf := a.held.buf, size := xs.length } : Array1 T).checkIndex c i = .ok i.toNat := by
      unfold Array1.checkIndex; rw [if_neg (by simp only; omega)]
    have hle := g.holds.rep.2
    simp only [Held1.step, g.size, hck, bind_ok, bufferManipulation.write_rep c g.holds.rep i.toNat v (by omega)]
    exact ⟨_, rfl, HGood.put (n := a.size) ⟨g.size, g.holds, g.whole, g.null, g.small⟩ rfl rfl rfl (by simpa using hle) (by simp)⟩

theorem HGood.run {N : Nat} (P : Plenty s N) : ∀ {ops : List (VecOp T)} {a : Held1 T} {xs ys : List T}, HGood N a xs →
    (c.debug = true → noEmptyInsert ops) → modest N xs ops → vecRun none xs ops = some ys →
    ∃ a', a.run c s ops = .ok a' ∧ HGood N a' ys
  | [], a, xs, ys, g, _, _, h => by
    simp only [vecRun, Option.some.injEq] at h
    subst h
    exact ⟨a, rfl, g⟩
  | op :: ops, a, xs, ys, g, hd, hm, h => by
    simp only [vecRun, Option.bind_eq_bind, Option.bind_eq_some_iff] at h
    obtain ⟨zs, h1, h2⟩ := h
    obtain ⟨m1, m2⟩ := hm.2 zs h1
    obtain ⟨a1, e1, g1⟩ := g.step (c := c) P op h1 (fun hb pos e => hd hb pos (by simp [e])) hm.1 m1
    obtain ⟨a2, e2, g2⟩ := HGood.run P g1 (fun hb pos hm => hd hb pos (by simp [hm])) m2 h2
    exact ⟨a2, by simp only [Held1.run, e1, bind_ok, e2], g2⟩

/-- **C85** (enough memory).  If there is memory for `N` elements, every legal history that never has more than half as many and never reserves
more behaves as `std::vector`; also, the capacity it reports is there. -/
theorem C85_enough (c : Cfg) (s : Supply) {N : Nat} (P : Plenty s N) (ops : List (VecOp T)) (xs : List T)
    (hdbg : c.debug = true → noEmptyInsert ops) (hm : modest N [] ops) (h : vecRun none [] ops = some xs) :
    ∃ a, (Held1.init T).run c s ops = .ok a ∧ a.size = xs.length ∧ (∀ i : Nat, (hi : i < xs.length) → a.get c i = .ok xs[i]) ∧
      xs.length ≤ a.capacity ∧ a.capacity ≤ a.held.buf.cap := by
  obtain ⟨a, e, g⟩ := HGood.run (c := c) P (HGood.start N) hdbg hm h
  refine ⟨a, e, g.size, fun i hi => ?_, g.holds.le, by rw [Held1.capacity, g.whole]; exact Nat.le_refl _⟩
  have hck : ({ buf := a.held.buf, size := a.size } : Array1 T).checkIndex c i = .ok i := by
    unfold Array1.checkIndex; rw [if_neg (by simp only [g.size]; omega)]; rfl
  simp only [Held1.get, hck, bind_ok]
  exact bufferManipulation.read_rep g.holds.rep i hi

/-- An allocator with 1000 bytes at a time, and a history for it. -/
example : Plenty { elem := 8, word := 2 ^ 64, grants := fun _ b => decide (b ≤ 1000) } 100 :=
  ⟨by decide, by decide, fun _ b h => by simp at h ⊢; omega⟩

example : modest 100 ([] : List Nat) [.emplaceBack 1, .reserve 90, .insert 0 [5, 6]] ∧
    vecRun none [] [.emplaceBack 1, .reserve 90, .insert 0 [5, 6]] = some [5, 6, 1] := by
  refine ⟨⟨fun n h => by simp at h, fun ys h => ?_⟩, by decide⟩
  have : ys = [1] := by simpa [vecStep, Spec.fits] using h.symm
  subst this
  refine ⟨by decide, fun n h => by simp at h; omega, fun ys h => ?_⟩
  have : ys = [1] := by simpa [vecStep, Spec.fits] using h.symm
  subst this
  refine ⟨by decide, fun n h => by simp at h, fun ys h => ?_⟩
  have : ys = [5, 6, 1] := by simpa [vecStep, Spec.fits] using h.symm
  subst this
  exact ⟨by decide, trivial⟩

/-- How a refused request ends. -/
abbrev refusal (c : Cfg) : Err := if c.debug then .abort else .ub .outOfBounds

theorem after_null {a : Held1 T} {h : Held T} (hn : h.null = true) (hc : h.buf.cap = 0) (hx : a.size = 0) (he : a.held = h) (h1 : 1 ≤ h.claimed)
    (v : T) : a.step c s (.emplaceBack v) = .error (refusal c) := by
  subst he
  rw [show a = { held := a.held, size := 0 } by rw [← hx]]
  have e1 : a.held.check c 0 = .ok () := by simp [Held.check, errorIf]
  simp only [Held1.step, Held.emplaceBack, e1, bind_ok, Held.dynamicReserve]
  rw [if_neg (by omega)]
  simp only [bind_ok, assertPtr, hn, Buf.construct, hc]
  cases hd : c.debug <;> simp [refusal, hd]

theorem check_any {h : Held T} {n : Nat} (hn : n ≤ h.claimed) : h.check c n = .ok () := by
  simp [Held.check, errorIf]; omega

/-- **C85** (memory refused).  A call that needs more memory and does not get it: a debug build stops in an assertion, before any element was
touched, and in a release build the behaviour is undefined.  With one exception: `reserve` of an array without elements returns, the array
reports the capacity that was asked for, and the next insertion ends in the same way. -/
theorem C85_refused (c : Cfg) (s : Supply) {N : Nat} (P : Plenty s N) (ops : List (VecOp T)) (xs : List T)
    (hdbg : c.debug = true → noEmptyInsert ops) (hm : modest N [] ops) (h : vecRun none [] ops = some xs) :
    ∃ a, (Held1.init T).run c s ops = .ok a ∧ ∀ op ys m, vecStep none xs op = some ys → asks op xs.length a.capacity = some m →
      s.grants a.held.asked (m * s.elem % s.word) = false →
      ((xs ≠ [] ∨ ∀ n, op ≠ .reserve n) → a.step c s op = .error (if c.debug then .abort else .ub .outOfBounds)) ∧
      (xs = [] → ∀ n, op = .reserve n → ∃ a', a.step c s op = .ok a' ∧ a'.size = 0 ∧ a'.capacity = n.toNat ∧
        ∀ v, a'.step c s (.emplaceBack v) = .error (if c.debug then .abort else .ub .outOfBounds)) := by
  obtain ⟨a, e, g⟩ := HGood.run (c := c) P (HGood.start N) hdbg hm h
  refine ⟨a, e, fun op ys m hop hask hno => ?_⟩
  have hle := g.holds.le
  replace hask : asks op xs.length a.held.claimed = some m := hask
  -- what making room does
  have room : ∀ n, a.held.claimed < n → (m = n ∨ m = 2 * n) →
      (xs ≠ [] → a.held.reallocate c s xs.length m = .error (refusal c)) ∧
      (xs = [] → ∃ h', a.held.reallocate c s xs.length m = .ok h' ∧ h'.null = true ∧ h'.buf.cap = 0 ∧ h'.claimed = m) := by
    intro n hn hmn
    refine ⟨fun hx => reallocate_refused hx (by omega) hno, fun hx => ?_⟩
    subst hx
    exact ⟨_, reallocate_null g.holds hno, rfl, rfl, rfl⟩
  have chk := Held.check_ok (c := c) g.holds
  have chki : ∀ pos : Int, 0 ≤ pos → pos ≤ xs.length → a.held.checkInsert c xs.length pos.toNat = .ok () := by
    intro pos h0 h1
    unfold Held.checkInsert
    rw [chk, bind_ok]
    simp [errorIf]; omega
  have rsz : ∀ n v, a.held.claimed < n → m = n → a.held.resize c s xs.length n v = .error (refusal c) := by
    intro n v hn hmn
    obtain ⟨r1, r2⟩ := room n hn (.inl hmn)
    subst hmn
    by_cases hx : xs = []
    · obtain ⟨h', e1, e2, e3, e4⟩ := r2 hx
      subst hx
      simp only [Held.resize, Held.reserve, chk, bind_ok, if_pos hn, e1, assertPtr, e2]
      cases hd : c.debug with
      | true =>
        have : (m == 0) = false := by simp; omega
        simp [refusal, hd, this]
      | false =>
        obtain ⟨k, rfl⟩ : ∃ k, m = k + 1 := ⟨m - 1, by omega⟩
        simp [refusal, hd, arrayManipulation.resize, arrayManipulation.destroy, arrayManipulation.constructRange, forUp, Buf.construct, e3]
    · simp only [Held.resize, Held.reserve, chk, bind_ok, if_pos hn, r1 hx, bind_err]
  refine ⟨fun hx => ?_, fun hx n hn => ?_⟩
  · cases op with
    | emplaceBack v =>
      simp only [asks, Option.ite_none_right_eq_some, Option.some.injEq] at hask
      obtain ⟨hn, rfl⟩ := hask
      obtain ⟨r1, r2⟩ := room _ hn (.inr rfl)
      simp only [Held1.step, Held.emplaceBack, Held.dynamicReserve, g.size, chk, bind_ok, if_pos hn]
      by_cases hx : xs = []
      · obtain ⟨h', e1, e2, e3, e4⟩ := r2 hx
        simp only [e1, bind_ok, assertPtr, e2, Buf.construct, e3]
        cases hd : c.debug <;> simp
      · simp only [r1 hx, bind_err]
    | emplace pos v =>
      simp only [asks, Option.ite_none_right_eq_some, Option.some.injEq] at hask
      obtain ⟨hn, rfl⟩ := hask
      obtain ⟨r1, r2⟩ := room _ hn (.inr rfl)
      simp only [vecStep, Option.ite_none_right_eq_some, Option.some.injEq] at hop
      obtain ⟨⟨h0, hp, hf⟩, rfl⟩ := hop
      simp only [Held1.step, posArg_ok c h0, Held.emplace, Held.dynamicReserve, g.size, chki pos h0 hp, chk, bind_ok, if_pos hn]
      by_cases hx : xs = []
      · obtain ⟨h', e1, e2, e3, e4⟩ := r2 hx
        subst hx
        have : pos = 0 := by simp at hp; omega
        subst this
        simp only [e1, bind_ok, assertPtr, e2]
        cases hd : c.debug with
        | true => simp
        | false =>
          simp [arrayManipulation.checkInsertBounds, arrayManipulation.shiftUp, forDown, arrayManipulation.destroy, forUp, Buf.construct, e3]
      · simp only [r1 hx, bind_err]
    | insert pos vs =>
      simp only [asks, Option.ite_none_right_eq_some, Option.some.injEq] at hask
      obtain ⟨hn, rfl⟩ := hask
      obtain ⟨r1, r2⟩ := room _ hn (.inr rfl)
      simp only [vecStep, Option.ite_none_right_eq_some, Option.some.injEq] at hop
      obtain ⟨⟨h0, hp, hf⟩, rfl⟩ := hop
      simp only [Held1.step, posArg_ok c h0, Held.insert, Held.dynamicReserve, g.size, chki pos h0 hp, chk, bind_ok, if_pos hn]
      by_cases hx : xs = []
      · obtain ⟨h', e1, e2, e3, e4⟩ := r2 hx
        subst hx
        have : pos = 0 := by simp at hp; omega
        subst this
        simp only [e1, bind_ok, assertPtr, e2]
        cases hd : c.debug with
        | true => simp
        | false =>
          obtain ⟨x, vs, rfl⟩ := List.exists_cons_of_ne_nil (l := vs) (by rintro rfl; simp at hn)
          simp [arrayManipulation.checkInsertBounds, arrayManipulation.shiftUp, forDown, arrayManipulation.destroy, forUp, Buf.construct, e3,
            arrayManipulation.constructRange]
      · simp only [r1 hx, bind_err]
    | resize n =>
      simp only [asks, Option.ite_none_right_eq_some, Option.some.injEq] at hask
      obtain ⟨hn, rfl⟩ := hask
      simp only [Held1.step, show decide (n < 0) = false by simp; omega, errorIf_false, bind_ok, g.size, rsz _ _ hn rfl, bind_err]
    | resizeDefault n v =>
      simp only [asks, Option.ite_none_right_eq_some, Option.some.injEq] at hask
      obtain ⟨hn, rfl⟩ := hask
      simp only [Held1.step, show decide (n < 0) = false by simp; omega, errorIf_false, bind_ok, g.size, rsz _ _ hn rfl, bind_err]
    | reserve n =>
      simp only [asks, Option.ite_none_right_eq_some, Option.some.injEq] at hask
      obtain ⟨hn, rfl⟩ := hask
      have hx : xs ≠ [] := hx.resolve_right fun h => h n rfl
      simp only [Held1.step, Held.reserve, g.size, chk, bind_ok, if_pos hn, (room _ hn (.inl rfl)).1 hx, bind_err]
    | popBack => simp [asks] at hask
    | erase pos => simp [asks] at hask
    | clear => simp [asks] at hask
    | set i v => simp [asks] at hask
  · subst hn
    simp only [asks, Option.ite_none_right_eq_some, Option.some.injEq] at hask
    obtain ⟨hn, rfl⟩ := hask
    obtain ⟨h', e1, e2, e3, e4⟩ := (room _ hn (.inl rfl)).2 hx
    refine ⟨{ a with held := h' }, by simp only [Held1.step, Held.reserve, g.size, chk, bind_ok, if_pos hn, e1], ?_, e4,
      fun v => after_null e2 e3 ?_ rfl (by omega) v⟩
    · simp only [g.size, hx, List.length_nil]
    · simp only [g.size, hx, List.length_nil]

/-- The hypotheses of `C85_refused`: an allocator with 1000 bytes at a time, an array with two elements of eight bytes each that asks for room for
126. -/
example : asks (.reserve 126 : VecOp Nat) 2 4 = some 126 ∧
    (fun (_ : Nat) (b : Nat) => decide (b ≤ 1000)) 3 (126 * 8 % 2 ^ 64) = false ∧ vecStep none [1, 2] (.reserve 126 : VecOp Nat) = some [1, 2] := by
  decide

theorem fill {m p : Nat} (hpm : p < m) : ∀ (vs : List T) {a : Held1 T} {xs : List T}, a.held.Holds xs → a.size = xs.length → a.held.null = false →
    a.held.claimed = m → a.held.buf.cap = p → vs.length = m - xs.length → a.run c s (vs.map .emplaceBack) = .error (.ub .outOfBounds)
  | [], a, xs, g, _, _, _, hp, hl => by
    have := g.rep.2
    simp at hl; omega
  | v :: vs, a, xs, g, hs, hn, hc, hp, hl => by
    have hle := g.rep.2
    simp only [List.length_cons] at hl
    have e7 : assertPtr c a.held.null false = .ok () := by rw [hn]; exact assertPtr_false _
    simp only [List.map_cons, Held1.run, Held1.step, Held.emplaceBack, hs, Held.check_ok g, bind_ok, Held.dynamicReserve]
    rw [if_neg (by omega)]
    simp only [bind_ok, e7]
    by_cases hx : xs.length < p
    · rw [arrayManipulation.construct_eq c _ _ _ (by omega) (by rw [g.rep.1, cellsOf_ge (Nat.le_refl _)])]
      simp only [bind_ok]
      refine fill hpm vs (xs := xs ++ [v]) ⟨⟨?_, by simp; omega⟩, g.kind, fun h => by simp [hn] at h, by simp; omega⟩ (by simp) hn hc hp (by simp; omega)
      simp only [g.rep.1]
      funext k
      simp only [upd, cellsOf]
      by_cases hk : k = xs.length
      · subst hk; simp
      · rw [if_neg hk]
        by_cases hk2 : k < xs.length
        · rw [List.getElem?_append_left hk2]
        · rw [List.getElem?_append_right (by omega), List.getElem?_eq_none (by omega), List.getElem?_eq_none (by simp; omega)]
    · simp only [Buf.construct]
      rw [if_neg (by omega)]
      rfl

/-- **C85** (byte counts).  A capacity whose number of bytes does not fit in `std::size_t` is not rejected.  If the allocator grants what is
left of the number, filling the array up to the capacity it asked for is undefined, in every build. -/
theorem C85_wraps (c : Cfg) (s : Supply) {N : Nat} (P : Plenty s N) (ops : List (VecOp T)) (xs : List T)
    (hdbg : c.debug = true → noEmptyInsert ops) (hm : modest N [] ops) (h : vecRun none [] ops = some xs) :
    ∃ a, (Held1.init T).run c s ops = .ok a ∧ ∀ (m : Nat) (vs : List T), a.capacity < m → s.word ≤ m * s.elem →
      s.grants a.held.asked (m * s.elem % s.word) = true → vs.length = m - xs.length →
      a.run c s (.reserve m :: vs.map .emplaceBack) = .error (.ub .outOfBounds) := by
  obtain ⟨a, e, g⟩ := HGood.run (c := c) P (HGood.start N) hdbg hm h
  refine ⟨a, e, fun m vs hc hw hg hl => ?_⟩
  have hle := g.holds.le
  have hP := P.word
  have hE := P.elem
  have hp : m * s.elem % s.word / s.elem < m := by
    rw [Nat.div_lt_iff_lt_mul hE]
    have := Nat.mod_lt (m * s.elem) (show 0 < s.word by omega)
    omega
  unfold Held1.capacity at hc
  simp only [Held1.run, Held1.step, Held.reserve, g.size, Held.check_ok g.holds, bind_ok, Int.toNat_natCast, if_pos hc]
  by_cases hx : m * s.elem % s.word / s.elem < xs.length
  · rw [reallocate_small g.holds (by omega) hg hx]
    rfl
  · rw [reallocate_got g.holds (by omega) hg (by omega)]
    simp only [bind_ok]
    exact fill hp vs ⟨⟨g.holds.rep.1, by simp only; omega⟩, g.holds.kind, fun h => by simp at h, by simp only; omega⟩ rfl rfl rfl rfl hl

/-- The hypotheses of `C85_wraps`, for elements of eight bytes and addresses of 64 bits: 2 to the 61 elements are no bytes at all. -/
example : (2 : Nat) ^ 64 ≤ 2 ^ 61 * 8 ∧ 2 ^ 61 * 8 % 2 ^ 64 = 0 ∧ (4 : Nat) < 2 ^ 61 := by decide

end LvArray.Props

import Verif.ScarceSets
import Verif.ScarceLemmas
import Verif.SetViewsLemmas
import Verif.Spec.ScarceSets

/-!
# Lemmas about a `SortedArray` when memory runs out
-/

namespace LvArray.HeldSet

open sortedArrayManipulation Spec Held

variable {T : Type} {c : Cfg} {s : Supply}

section
variable [LT T] [DecidableLT T] [DecidableEq T]

theorem modify_held {n : Nat} {h : Held T} {f : Buf T → Nat → R (Buf T)} :
    (target c s n).modify h f = f h.buf 0 >>= fun b => .ok { h with buf := b } := rfl

theorem read_held {n : Nat} {h : Held T} : (target c s n).read h = (SortedArr.target c n).read h.buf := rfl

/-- Removing does not touch the rest of the buffer. -/
theorem removeOne_held {n size : Nat} {h : Held T} {v : T} {r : Buf T × Bool}
    (e : removeOne c (SortedArr.target c n) h.buf size v = .ok r) :
    removeOne c (target c s n) h size v = .ok ({ h with buf := r.1 }, r.2) := by
  unfold removeOne at e ⊢
  rw [read_held]
  obtain ⟨p, e1, e⟩ := bind_eq_ok.mp e
  obtain ⟨q, e2, e⟩ := bind_eq_ok.mp e
  rw [e1, bind_ok, e2, bind_ok]
  cases q with
  | false => simp only [Bool.false_eq_true, if_false] at e ⊢; cases e; rfl
  | true =>
    simp only [if_true] at e ⊢
    obtain ⟨b1, e3, e⟩ := bind_eq_ok.mp e
    obtain ⟨b2, e4, e⟩ := bind_eq_ok.mp e
    cases e; cases e4
    rw [SetCaps.modify_target] at e3
    rw [modify_held, e3, bind_ok, bind_ok]
    rfl

theorem removeLoop_held {n size : Nat} : ∀ (fuel : Nat) (h : Held T) (pos k : Nat) (vs : List T) (r : Buf T × Nat),
    removeLoop c (SortedArr.target c n) size fuel h.buf pos k vs = .ok r →
    removeLoop c (target c s n) size fuel h pos k vs = .ok ({ h with buf := r.1 }, r.2)
  | _, h, _, _, [], r, e => by rw [removeLoop] at e ⊢; cases e; rfl
  | 0, h, _, _, _ :: _, r, e => by rw [removeLoop] at e ⊢; cases e; rfl
  | fuel + 1, h, pos, k, _ :: rest, r, e => by
    rw [removeLoop] at e ⊢
    rw [read_held]
    obtain ⟨⟨np, nx⟩, e1, e⟩ := bind_eq_ok.mp e
    rw [e1, bind_ok]
    obtain ⟨b1, e2, e⟩ := bind_eq_ok.mp e
    obtain ⟨b2, e3, e⟩ := bind_eq_ok.mp e
    cases e3
    rw [SetCaps.modify_target] at e2
    simp only
    rw [modify_held, e2, bind_ok, bind_ok]
    show (if _ then _ else _) = _
    by_cases hh : (if nx.isEmpty then size else np) = size
    · simp only [if_pos hh] at e ⊢
      cases e; rfl
    · simp only [if_neg hh] at e ⊢
      exact removeLoop_held fuel { h with buf := b1 } _ _ _ r e

theorem removeRange_held {n size : Nat} {h : Held T} {vs : List T} {r : Buf T × Nat}
    (e : removeRange c (SortedArr.target c n) h.buf size vs = .ok r) :
    removeRange c (target c s n) h size vs = .ok ({ h with buf := r.1 }, r.2) := by
  unfold removeRange at e ⊢
  rw [read_held]
  obtain ⟨_, e1, e⟩ := bind_eq_ok.mp e
  obtain ⟨_, e2, e⟩ := bind_eq_ok.mp e
  obtain ⟨⟨p, rest⟩, e3, e⟩ := bind_eq_ok.mp e
  rw [e1, bind_ok, e2, bind_ok, e3, bind_ok]
  simp only at e ⊢
  by_cases hh : rest.isEmpty
  · simp only [if_pos hh] at e ⊢
    cases e; rfl
  · simp only [if_neg hh] at e ⊢
    obtain ⟨⟨b1, k⟩, e4, e⟩ := bind_eq_ok.mp e
    obtain ⟨b2, e5, e⟩ := bind_eq_ok.mp e
    cases e
    rw [SetCaps.modify_target] at e5
    rw [removeLoop_held _ _ _ _ _ _ e4, bind_ok]
    simp only
    rw [modify_held]
    simp only at e5 ⊢
    rw [e5]
    rfl

/-- Inserting touches the rest of the buffer only when room is made. -/
theorem insertOne_held {n size : Nat} {h : Held T} {v : T} {r : Buf T × Bool}
    (e : insertOne c (SortedArr.target c n) h.buf size v = .ok r)
    {g : Held T} (hg : h.dynamicReserve c s n (n + if r.2 then 1 else 0) = .ok g)
    (hb : bufferManipulation.dynamicReserve c h.buf n (n + if r.2 then 1 else 0) = .ok g.buf) :
    insertOne c (target c s n) h size v = .ok ({ g with buf := r.1 }, r.2) := by
  unfold insertOne at e ⊢
  rw [read_held]
  obtain ⟨_, e0, e⟩ := bind_eq_ok.mp e
  obtain ⟨p, e1, e⟩ := bind_eq_ok.mp e
  obtain ⟨q, e2, e⟩ := bind_eq_ok.mp e
  rw [e0, bind_ok, e1, bind_ok, e2, bind_ok]
  cases q with
  | true =>
    simp only [if_true] at e ⊢
    obtain ⟨b1, e3, e⟩ := bind_eq_ok.mp e
    cases e
    replace e3 : bufferManipulation.dynamicReserve c h.buf n (n + 0) = .ok b1 := e3
    simp only [Bool.false_eq_true, if_false] at hg hb
    rw [hb] at e3
    cases e3
    show (h.dynamicReserve c s n (n + 0) >>= _) = _
    rw [hg]; rfl
  | false =>
    simp only [Bool.false_eq_true, if_false] at e ⊢
    obtain ⟨b1, e3, e⟩ := bind_eq_ok.mp e
    obtain ⟨b2, e4, e⟩ := bind_eq_ok.mp e
    obtain ⟨b3, e5, e⟩ := bind_eq_ok.mp e
    cases e; cases e5
    replace e3 : bufferManipulation.dynamicReserve c h.buf n (n + 1) = .ok b1 := e3
    simp only [if_true] at hg hb
    rw [hb] at e3
    cases e3
    rw [SetCaps.modify_target] at e4
    show (h.dynamicReserve c s n (n + 1) >>= _) = _
    rw [hg, bind_ok, modify_held, e4]
    rfl

theorem insertLoop_held {n : Nat} : ∀ (vs : List T) (h : Held T) (u k : Nat) (b : Buf T),
    insertLoop c (SortedArr.target c n) vs h.buf u k = .ok b → insertLoop c (target c s n) vs h u k = .ok { h with buf := b }
  | [], h, _, _, b, e => by rw [insertLoop] at e ⊢; cases e; rfl
  | v :: vs, h, u, k, b, e => by
    rw [insertLoop] at e ⊢
    rw [read_held]
    obtain ⟨p, e1, e⟩ := bind_eq_ok.mp e
    obtain ⟨q, e2, e⟩ := bind_eq_ok.mp e
    rw [e1, bind_ok, e2, bind_ok]
    cases q with
    | true => simp only [if_true] at e ⊢; exact insertLoop_held vs h u k b e
    | false =>
      simp only [Bool.false_eq_true, if_false] at e ⊢
      obtain ⟨b1, e3, e⟩ := bind_eq_ok.mp e
      obtain ⟨b2, e4, e⟩ := bind_eq_ok.mp e
      obtain ⟨b3, e5, e⟩ := bind_eq_ok.mp e
      cases e5
      rw [SetCaps.modify_target] at e3 e4
      rw [modify_held, e3, bind_ok, bind_ok, modify_held]
      simp only
      rw [e4, bind_ok, bind_ok]
      show (Except.ok _ >>= _) = _
      rw [bind_ok]
      exact insertLoop_held vs { h with buf := b2 } _ _ b e

theorem fillLoop_held [Inhabited T] {n : Nat} (vs : List T) : ∀ (m lo : Nat) (h : Held T) (b : Buf T),
    forUp m lo (fun i b => do
      let b ← (SortedArr.target c n).modify b (fun b p => b.construct c (p + i) (vs.getD i default))
      (SortedArr.target c n).set b i i) h.buf = .ok b →
    forUp m lo (fun i h => do
      let h ← (target c s n).modify h (fun b p => b.construct c (p + i) (vs.getD i default))
      (target c s n).set h i i) h = .ok { h with buf := b }
  | 0, _, h, b, e => by rw [forUp] at e ⊢; cases e; rfl
  | m + 1, lo, h, b, e => by
    rw [forUp] at e ⊢
    obtain ⟨b1, e1, e⟩ := bind_eq_ok.mp e
    obtain ⟨b2, e2, e1⟩ := bind_eq_ok.mp e1
    cases e1
    rw [SetCaps.modify_target] at e2
    rw [modify_held, e2]
    exact fillLoop_held vs m (lo + 1) { h with buf := b1 } b e

theorem insertRange_held [Inhabited T] {n size : Nat} {h : Held T} {vs : List T} {r : Buf T × Nat}
    (e : insertRange c (SortedArr.target c n) h.buf size vs = .ok r)
    {g : Held T} (hg : h.dynamicReserve c s n (n + r.2) = .ok g) (hb : bufferManipulation.dynamicReserve c h.buf n (n + r.2) = .ok g.buf) :
    insertRange c (target c s n) h size vs = .ok ({ g with buf := r.1 }, r.2) := by
  unfold insertRange at e ⊢
  rw [read_held]
  obtain ⟨_, e1, e⟩ := bind_eq_ok.mp e
  obtain ⟨_, e2, e⟩ := bind_eq_ok.mp e
  rw [e1, bind_ok, e2, bind_ok]
  by_cases hz : size = 0
  · simp only [if_pos hz] at e ⊢
    obtain ⟨b1, e3, e⟩ := bind_eq_ok.mp e
    obtain ⟨b2, e4, e⟩ := bind_eq_ok.mp e
    cases e
    replace e3 : bufferManipulation.dynamicReserve c h.buf n (n + vs.length) = .ok b1 := e3
    simp only at hg hb
    rw [hb] at e3
    cases e3
    show (h.dynamicReserve c s n (n + vs.length) >>= _) = _
    rw [hg, bind_ok, fillLoop_held vs _ _ _ _ e4]
    rfl
  · simp only [if_neg hz] at e ⊢
    obtain ⟨k, e3, e⟩ := bind_eq_ok.mp e
    obtain ⟨b1, e4, e⟩ := bind_eq_ok.mp e
    rw [e3, bind_ok]
    replace e4 : bufferManipulation.dynamicReserve c h.buf n (n + k) = .ok b1 := e4
    show (h.dynamicReserve c s n (n + k) >>= _) = _
    by_cases hk : k = 0
    · subst hk
      simp only [if_true] at e ⊢
      cases e
      rw [hb] at e4
      cases e4
      rw [hg]; rfl
    · simp only [if_neg hk] at e ⊢
      obtain ⟨b2, e5, e⟩ := bind_eq_ok.mp e
      cases e
      simp only at hg hb
      rw [hb] at e4
      cases e4
      rw [hg, bind_ok, insertLoop_held _ _ _ _ _ e5]
      rfl

end

section
variable [LinearOrder T]

/-- The array holds the set, and its buffer is as the specification says. -/
structure Inv (z : ScarceSet T) (a : HeldSet T) : Prop where
  good : SGood none { buf := a.held.buf, size := a.size } z.set
  cap : a.held.claimed = z.cap
  asked : a.held.asked = z.asked
  room : (z.real = true ∧ a.held.claimed = a.held.buf.cap ∧ a.held.null = (a.held.buf.cap == 0)) ∨
    (z.real = false ∧ z.set = ∅ ∧ a.held.null = true ∧ a.held.buf.cap = 0)

variable {z : ScarceSet T} {a : HeldSet T}

theorem Inv.size (g : Inv z a) : a.size = z.set.card := g.good.size

theorem Inv.len (g : Inv z a) : a.size = (z.set.sort (· ≤ ·)).length := by rw [g.size]; simp

theorem Inv.holds (g : Inv z a) : a.held.Holds (z.set.sort (· ≤ ·)) := by
  have hr : Rep a.held.buf (z.set.sort (· ≤ ·)) := g.good.rep
  have hl := hr.2
  refine ⟨hr, g.good.heap rfl, fun hn => ?_, ?_⟩
  · refine List.length_eq_zero_iff.1 ?_
    rcases g.room with ⟨_, _, h⟩ | ⟨_, _, _, h⟩
    · rw [hn] at h
      have : a.held.buf.cap = 0 := by simpa using h.symm
      omega
    · omega
  · rcases g.room with ⟨_, h, _⟩ | ⟨_, h, _, _⟩
    · omega
    · rw [h]; simp

theorem Inv.le (g : Inv z a) : z.set.card ≤ z.cap := by
  have := g.holds.le
  rw [g.cap] at this
  simpa using this

theorem Inv.start : Inv (ScarceSet.init T) (HeldSet.init T) := by
  refine ⟨?_, rfl, rfl, .inl ⟨rfl, rfl, rfl⟩⟩
  unfold SGood
  rw [show (ScarceSet.init T).set = ∅ from rfl, Finset.sort_empty]
  exact Good.init T Option.none

/-- The supply, counted in values. -/
abbrev inValues (s : Supply) (k m : Nat) : Bool := s.grants k (m * s.elem)

/-- A request that is granted. -/
theorem Inv.granted (g : Inv z a) (he : 0 < s.elem) {m : Nat} (hm : m * s.elem < s.word) (hc : z.cap < m) (hg : inValues s z.asked m = true) :
    a.held.reallocate c s a.size m = .ok { buf := { a.held.buf with cap := m, moves := a.held.buf.moves + a.size }, claimed := m, null := false, asked := z.asked + 1 } := by
  have hle := g.le
  have e := Nat.mul_div_cancel m he
  have := reallocate_got (c := c) (s := s) g.holds (n := m) (by rw [← g.len, g.size]; omega) (by rw [g.asked, Nat.mod_eq_of_lt hm]; exact hg)
    (by rw [Nat.mod_eq_of_lt hm, e, ← g.len, g.size]; omega)
  rw [Nat.mod_eq_of_lt hm, e, ← g.len, g.asked] at this
  exact this

/-- Making room, if it is needed, in step with a buffer that always gets it. -/
theorem Inv.grow (g : Inv z a) (he : 0 < s.elem) {n : Nat} (hw : z.cap < n → 2 * n * s.elem < s.word ∧ inValues s z.asked (2 * n) = true)
    (hn : ¬ z.cap < n → z.real = true ∨ n = 0) :
    ∃ h', a.held.dynamicReserve c s a.size n = .ok h' ∧ bufferManipulation.dynamicReserve c a.held.buf a.size n = .ok h'.buf ∧
      (z.cap < n → h'.claimed = 2 * n ∧ h'.asked = z.asked + 1 ∧ h'.null = false) ∧ (¬ z.cap < n → h' = a.held) := by
  have hle := g.holds.rep.2
  rw [← g.len] at hle
  have hroom : a.held.buf.room n := .inl (g.good.heap rfl)
  have hb := bufferManipulation.dynamicReserve_rep c g.holds.rep n hroom
  rw [← g.len] at hb
  unfold Held.dynamicReserve
  have hck := Held.check_ok (c := c) g.holds
  rw [← g.len] at hck
  rw [hck, bind_ok, hb]
  by_cases h : z.cap < n
  · obtain ⟨h1, h2⟩ := hw h
    have hbc : a.held.buf.cap < n := by
      have := g.cap
      rcases g.room with ⟨_, h, _⟩ | ⟨_, _, _, h⟩ <;> omega
    rw [if_pos (by rw [g.cap]; exact h), g.granted he h1 (by omega) h2]
    refine ⟨_, rfl, ?_, fun _ => ⟨rfl, rfl, rfl⟩, fun h' => absurd h h'⟩
    simp only [Buf.grownCap, Buf.growMoves, if_pos hbc]
  · rw [if_neg (by rw [g.cap]; exact h)]
    have hbc : ¬ a.held.buf.cap < n := by
      have := g.cap
      rcases hn h with h' | h'
      · rcases g.room with ⟨_, h, _⟩ | ⟨h, _⟩
        · omega
        · rw [h'] at h; cases h
      · omega
    refine ⟨_, rfl, ?_, fun h' => absurd h' h, fun _ => rfl⟩
    simp only [Buf.grownCap, Buf.growMoves, if_neg hbc, Nat.add_zero]

/-- The specification's state after a call that does what it should. -/
abbrev nextState (z : ScarceSet T) (op : SetOp T) (S' : Finset T) : ScarceSet T :=
  if z.cap < (roomNeeded op S').1 then { set := S', cap := (roomNeeded op S').2, real := true, asked := z.asked + 1 } else { z with set := S' }

/-- The invariant after a call, from what is known about the buffer. -/
theorem Inv.after (g : Inv z a) {op : SetOp T} {S' : Finset T} {h' : Held T} {b : Buf T} {n : Nat}
    (hgood : SGood none { buf := b, size := n } S')
    (hcap : b.cap = if a.held.buf.cap < (roomNeeded op S').1 then (roomNeeded op S').2 else a.held.buf.cap)
    (h2 : (roomNeeded op S').1 ≤ (roomNeeded op S').2)
    (hgrow : z.cap < (roomNeeded op S').1 → h'.claimed = (roomNeeded op S').2 ∧ h'.asked = z.asked + 1 ∧ h'.null = false)
    (hsame : ¬ z.cap < (roomNeeded op S').1 → h'.claimed = a.held.claimed ∧ h'.asked = a.held.asked ∧ h'.null = a.held.null)
    (hok : ¬ z.cap < (roomNeeded op S').1 → z.real = true ∨ (S' = ∅ ∧ b.cap = a.held.buf.cap)) :
    Inv (nextState z op S') { held := { h' with buf := b }, size := n } := by
  have hc := g.cap
  by_cases h : z.cap < (roomNeeded op S').1
  · obtain ⟨e1, e2, e3⟩ := hgrow h
    have hbc : a.held.buf.cap < (roomNeeded op S').1 := by
      rcases g.room with ⟨_, h, _⟩ | ⟨_, _, _, h⟩ <;> omega
    rw [if_pos hbc] at hcap
    simp only [nextState, if_pos h]
    refine ⟨hgood, e1, e2, .inl ⟨rfl, by simp only [e1, hcap], ?_⟩⟩
    simp only [e3, hcap]
    symm; rw [beq_eq_false_iff_ne]; omega
  · obtain ⟨e1, e2, e3⟩ := hsame h
    simp only [nextState, if_neg h]
    refine ⟨hgood, by simp only [e1, hc], by simp only [e2, g.asked], ?_⟩
    rcases g.room with ⟨r1, r2, r3⟩ | ⟨r1, r2, r3, r4⟩
    · have hbc : ¬ a.held.buf.cap < (roomNeeded op S').1 := by omega
      rw [if_neg hbc] at hcap
      exact .inl ⟨r1, by simp only [e1, hcap, r2], by simp only [e3, hcap, r3]⟩
    · rcases hok h with h' | ⟨h', h''⟩
      · rw [r1] at h'; cases h'
      · exact .inr ⟨r1, h', by simp only [e3, r3], by simp only [h'', r4]⟩

variable [Inhabited T]

/-- Calls other than `reserve` that get the memory they need. -/
theorem Inv.goes (g : Inv z a) (he : 0 < s.elem) {op : SetOp T} (hop : ∀ n, op ≠ .reserve n) {S' : Finset T} {o : SetOut T}
    (h : setStep none z.set op = some (S', o))
    (hw : z.cap < (roomNeeded op S').1 → (roomNeeded op S').2 * s.elem < s.word ∧ inValues s z.asked (roomNeeded op S').2 = true)
    (hn : ¬ z.cap < (roomNeeded op S').1 → z.real = true ∨ S'.card = 0) :
    ∃ a', a.step c s op = .ok (a', o) ∧ Inv (nextState z op S') a' := by
  obtain ⟨a2, e, g2⟩ := SortedArr.step_good c g.good op h
  have hcap := SetCaps.step_room g2 (g.good.heap rfl) e
  have hs := g2.size
  have hokay : (roomNeeded op S').1 ≤ S'.card → ¬ z.cap < (roomNeeded op S').1 → z.real = true ∨ (S' = ∅ ∧ a2.buf.cap = a.held.buf.cap) := by
    intro hle hc
    refine (hn hc).imp_right fun h0 => ⟨Finset.card_eq_zero.1 h0, ?_⟩
    rw [hcap, if_neg (by omega)]
  have hquiet : (roomNeeded op S').1 = 0 → (roomNeeded op S').2 = 0 →
      Inv (nextState z op S') { held := { a.held with buf := a2.buf }, size := a2.size } := fun h0 h2 =>
    g.after (h' := a.held) g2 hcap (by omega) (fun h => by omega) (fun _ => ⟨rfl, rfl, rfl⟩) (hokay (by omega))
  cases op with
  | insert v =>
    obtain ⟨⟨x, y⟩, h1, e⟩ := bind_eq_ok.mp e
    cases e
    unfold SortedArr.insert at h1
    obtain ⟨r, h2, h1⟩ := bind_eq_ok.mp h1
    cases h1
    simp only at hs
    obtain ⟨h', d1, d2, d3, d4⟩ := g.grow (c := c) he (n := S'.card) hw hn
    have d1' := hs ▸ d1
    have d2' := hs ▸ d2
    refine ⟨{ held := { h' with buf := r.1 }, size := a.size + if r.2 then 1 else 0 }, ?_, ?_⟩
    · simp only [step, insert, insertOne_held h2 d1' d2', bind_ok]
    · exact g.after g2 hcap (by simp only [roomNeeded]; omega) d3 (fun h => by rw [d4 h]; exact ⟨rfl, rfl, rfl⟩) (hokay (Nat.le_refl _))
  | insertMany vs =>
    obtain ⟨⟨x, y⟩, h1, e⟩ := bind_eq_ok.mp e
    cases e
    unfold SortedArr.insertMany at h1
    obtain ⟨r, h2, h1⟩ := bind_eq_ok.mp h1
    cases h1
    simp only at hs
    obtain ⟨h', d1, d2, d3, d4⟩ := g.grow (c := c) he (n := S'.card) hw hn
    have d1' := hs ▸ d1
    have d2' := hs ▸ d2
    refine ⟨{ held := { h' with buf := r.1 }, size := a.size + r.2 }, ?_, ?_⟩
    · simp only [step, insertMany, insertRange_held h2 d1' d2', bind_ok]
    · exact g.after g2 hcap (by simp only [roomNeeded]; omega) d3 (fun h => by rw [d4 h]; exact ⟨rfl, rfl, rfl⟩) (hokay (Nat.le_refl _))
  | remove v =>
    obtain ⟨⟨x, y⟩, h1, e⟩ := bind_eq_ok.mp e
    cases e
    unfold SortedArr.remove at h1
    obtain ⟨r, h2, h1⟩ := bind_eq_ok.mp h1
    cases h1
    refine ⟨_, ?_, hquiet rfl rfl⟩
    simp only [step, remove, removeOne_held h2, bind_ok]
  | removeMany vs =>
    obtain ⟨⟨x, y⟩, h1, e⟩ := bind_eq_ok.mp e
    cases e
    unfold SortedArr.removeMany at h1
    obtain ⟨r, h2, h1⟩ := bind_eq_ok.mp h1
    cases h1
    refine ⟨_, ?_, hquiet rfl rfl⟩
    simp only [step, removeMany, removeRange_held h2, bind_ok]
  | contains v =>
    obtain ⟨x, h1, e⟩ := bind_eq_ok.mp e
    cases e
    refine ⟨a, ?_, hquiet rfl rfl⟩
    simp only [step, contains, h1, bind_ok]
  | get i =>
    obtain ⟨x, h1, e⟩ := bind_eq_ok.mp e
    cases e
    refine ⟨a, ?_, hquiet rfl rfl⟩
    simp only [step, get, h1, bind_ok]
  | reserve n => exact absurd rfl (hop n)
  | clear =>
    obtain ⟨x, h1, e⟩ := bind_eq_ok.mp e
    cases e
    unfold SortedArr.clear at h1
    obtain ⟨b, h2, h1⟩ := bind_eq_ok.mp h1
    cases h1
    refine ⟨_, ?_, hquiet rfl rfl⟩
    unfold bufferManipulation.resize at h2
    obtain ⟨_, _, h2⟩ := bind_eq_ok.mp h2
    have hr := bufferManipulation.reserve_rep c g.holds.rep 0 (.inl g.holds.kind)
    rw [← g.len] at hr
    simp only [Buf.growMoves, Nat.not_lt_zero, if_false, Nat.add_zero, Nat.max_zero] at hr
    have hck := Held.check_ok (c := c) g.holds
    rw [← g.len] at hck
    have hp : Held.assertPtr c a.held.null (a.size == 0 && (0 == 0 : Bool)) = .ok () := by
      unfold Held.assertPtr
      cases hh : a.held.null with
      | false => simp [errorIf]
      | true => have := g.holds.live hh; rw [g.len, this]; simp [errorIf]
    rw [hr, bind_ok] at h2
    simp only [step, clear, Held.resize, Held.reserve, hck, bind_ok, Nat.not_lt_zero, if_false, hp]
    have h3 : arrayManipulation.resize c a.held.buf 0 a.size 0 default = .ok b := h2
    simp only [h3, bind_ok]

/-- `reserve` that gets the memory it needs, or needs none. -/
theorem Inv.reserves (g : Inv z a) (he : 0 < s.elem) {n : Int}
    (hw : z.cap < n.toNat → n.toNat * s.elem < s.word ∧ inValues s z.asked n.toNat = true) :
    ∃ a', a.step c s (.reserve n) = .ok (a', .unit) ∧ Inv (nextState z (.reserve n) z.set) a' := by
  have hck := Held.check_ok (c := c) g.holds
  rw [← g.len] at hck
  by_cases h : z.cap < n.toNat
  · obtain ⟨h1, h2⟩ := hw h
    have e := g.granted (c := c) he h1 h h2
    have hc := g.cap
    refine ⟨{ held := { buf := { a.held.buf with cap := n.toNat, moves := a.held.buf.moves + a.size }, claimed := n.toNat, null := false, asked := z.asked + 1 }, size := a.size },
      by simp only [step, reserve, Held.reserve, hck, bind_ok, hc, if_pos h, e], ?_⟩
    have hle := g.le
    have hbc : a.held.buf.cap < n.toNat := by
      rcases g.room with ⟨_, h, _⟩ | ⟨_, _, _, h⟩ <;> omega
    obtain ⟨a2, e2, g2⟩ := SortedArr.step_good c g.good (.reserve n) (S' := z.set) (o := .unit) (by simp [setStep, fits])
    have hcap := SetCaps.step_room g2 (g.good.heap rfl) e2
    obtain ⟨x, e3, e2⟩ := bind_eq_ok.mp e2
    cases e2
    unfold SortedArr.reserve at e3
    obtain ⟨b, e4, e3⟩ := bind_eq_ok.mp e3
    cases e3
    have hr := bufferManipulation.reserve_rep c g.holds.rep n.toNat (.inl g.holds.kind)
    rw [← g.len] at hr
    have hb := Except.ok.inj (e4.symm.trans hr)
    subst hb
    have hm : max a.held.buf.cap n.toNat = n.toNat := by omega
    simp only [Buf.growMoves, if_pos hbc, hm] at g2 hcap
    exact g.after (h' := { buf := a.held.buf, claimed := n.toNat, null := false, asked := z.asked + 1 }) g2 hcap (Nat.le_refl _)
      (fun _ => ⟨rfl, rfl, rfl⟩) (fun h' => absurd h h') (fun h' => absurd h h')
  · refine ⟨a, by simp only [step, reserve, Held.reserve, hck, bind_ok, g.cap, if_neg h], ?_⟩
    rw [show nextState z (.reserve n) z.set = z from if_neg h]
    exact g

/-- A request that is refused while there are values. -/
theorem Inv.refused (g : Inv z a) {m : Nat} (hm : m * s.elem < s.word) (hc : z.cap < m) (hg : inValues s z.asked m = false) (h0 : z.set.card ≠ 0) :
    a.held.reallocate c s a.size m = .error (if c.debug then .abort else .ub .outOfBounds) := by
  have hle := g.le
  have := Held.reallocate_refused (c := c) (s := s) (h := a.held) (xs := z.set.sort (· ≤ ·)) (fun h => h0 (by rw [← g.size, g.len, h]; rfl)) (n := m)
    (by rw [← g.len, g.size]; omega) (by rw [g.asked, Nat.mod_eq_of_lt hm]; exact hg)
  rwa [← g.len] at this

/-- A request that is refused while there are none. -/
theorem Inv.empty (g : Inv z a) {m : Nat} (hm : m * s.elem < s.word) (hg : inValues s z.asked m = false) (h0 : z.set.card = 0) :
    a.held.reallocate c s a.size m = .ok { buf := { a.held.buf with cap := 0 }, claimed := m, null := true, asked := z.asked + 1 } := by
  have hs : a.size = 0 := by rw [g.size, h0]
  have hh := g.holds
  rw [Finset.card_eq_zero.1 h0, Finset.sort_empty] at hh
  have := Held.reallocate_null (c := c) (s := s) hh (n := m) (by rw [g.asked, Nat.mod_eq_of_lt hm]; exact hg)
  rw [hs, this, g.asked]

/-- Calls that need memory for values are insertions. -/
theorem needs_insertion {S S' : Finset T} {op : SetOp T} {o : SetOut T} (h : setStep none S op = some (S', o)) (h0 : S.card = 0) (h1 : S'.card ≠ 0) :
    (∃ v, op = .insert v) ∨ ∃ vs, op = .insertMany vs ∧ vs ≠ [] := by
  have hS := Finset.card_eq_zero.1 h0
  subst hS
  cases op with
  | insert v => exact .inl ⟨v, rfl⟩
  | insertMany vs =>
    simp only [setStep, Option.ite_none_right_eq_some, Option.some.injEq, Prod.mk.injEq] at h
    obtain ⟨_, rfl, _⟩ := h
    refine .inr ⟨vs, rfl, ?_⟩
    rintro rfl
    simp at h1
  | remove v => simp [setStep] at h; exact absurd (by rw [← h.1]; rfl) h1
  | removeMany vs => simp [setStep] at h; exact absurd (by rw [← h.2.1]; rfl) h1
  | contains v => simp [setStep] at h; exact absurd (by rw [← h.1]; rfl) h1
  | get i => simp [setStep] at h
  | reserve n => simp [setStep] at h; exact absurd (by rw [← h.2.1]; rfl) h1
  | clear => simp [setStep] at h; exact absurd (by rw [← h.1]; rfl) h1

/-- Inserting into an empty set that has no memory. -/
theorem nowhere {S' : Finset T} {op : SetOp T} {o : SetOut T} {S : Finset T} {h' : Held T} (hS : S.card = 0) (h : setStep none S op = some (S', o)) (h1 : S'.card ≠ 0)
    (hs : a.size = 0) (hd : a.held.dynamicReserve c s a.size S'.card = .ok h') (hc : h'.buf.cap = 0) : a.step c s op = .error (noMemory c.debug op) := by
  have hE := Finset.card_eq_zero.1 hS
  subst hE
  have hu : ∀ t : List T → Bool, t [] = true → ∀ read : Nat → R T, assertRange c read 0 t = .ok () := by
    intro t ht read
    unfold assertRange
    split
    · simp [readAll, ht, errorIf]
    · rfl
  rcases needs_insertion h (by simp) h1 with ⟨v, rfl⟩ | ⟨vs, rfl, hv⟩
  · simp only [setStep, Option.ite_none_right_eq_some, Option.some.injEq, Prod.mk.injEq] at h
    obtain ⟨_, rfl, _⟩ := h
    simp only [insert_empty_eq, Finset.card_singleton] at hd
    have hi : (target c s a.size).incrementSize a.held 1 = .ok h' := by
      show a.held.dynamicReserve c s a.size (a.size + 1) = _
      rw [hs] at hd ⊢; exact hd
    have he : (target c s a.size).modify h' (fun b p => arrayManipulation.emplace c b p 0 0 v) = .error (noMemory c.debug (.insert v)) := by
      rw [modify_held]
      unfold arrayManipulation.emplace arrayManipulation.assertNonNull
      simp only [hc]
      cases hdb : c.debug with
      | true => simp [errorIf, noMemory, bind_err]
      | false =>
        simp [errorIf, noMemory, bind_ok, arrayManipulation.checkInsertBounds, arrayManipulation.shiftUp, forDown, arrayManipulation.destroy, forUp, Buf.construct, hc, bind_err]
    have : insertOne c (target c s a.size) a.held a.size v = .error (noMemory c.debug (.insert v)) := by
      unfold insertOne
      rw [hs, hu _ rfl, bind_ok]
      simp only [insertPosition, if_true, bind_ok, isAt]
      rw [hs] at hi he
      simp only [Bool.false_eq_true, if_false, hi, bind_ok, he, bind_err]
    simp only [step, HeldSet.insert, this, bind_err]
  · simp only [setStep, Option.ite_none_right_eq_some, Option.some.injEq, Prod.mk.injEq] at h
    obtain ⟨⟨hv', _⟩, rfl, _⟩ := h
    have hl : (∅ ∪ vs.toFinset).card = vs.length := by
      rw [Finset.empty_union, List.toFinset_card_of_nodup]
      exact (List.Pairwise.imp (fun h => ne_of_lt h) hv')
    rw [hl] at hd
    have hi : (target c s a.size).incrementSize a.held vs.length = .ok h' := by
      show a.held.dynamicReserve c s a.size (a.size + vs.length) = _
      rw [hs] at hd ⊢; rw [Nat.zero_add]; exact hd
    have hk : (c.debug && !isSortedUnique less vs) = false := by
      rw [isSortedUnique_keys hv']; simp
    obtain ⟨k, hk'⟩ : ∃ k, vs.length = k + 1 := ⟨vs.length - 1, by have := List.length_pos_iff.2 hv; omega⟩
    have : insertRange c (target c s a.size) a.held a.size vs = .error (noMemory c.debug (.insertMany vs)) := by
      unfold insertRange
      rw [hs, hu _ rfl, bind_ok, hk, errorIf_false, bind_ok]
      rw [hs] at hi
      simp only [if_true, hi, bind_ok]
      rw [hk', forUp]
      simp only [modify_held, Buf.construct, hc]
      simp [bind_err, noMemory]
    simp only [step, HeldSet.insertMany, this, bind_err]

/-- What the specification does with a set that really has its room. -/
theorem scarceStep_granted {debug : Bool} {gr : Nat → Nat → Bool} {op : SetOp T} {S' : Finset T} {o : SetOut T}
    (hw : z.cap < (roomNeeded op S').1 → gr z.asked (roomNeeded op S').2 = true) (hn : ¬ z.cap < (roomNeeded op S').1 → z.real = true ∨ S'.card = 0) :
    scarceStep debug gr z op S' o = .ok (nextState z op S', o) := by
  unfold scarceStep nextState
  by_cases h : z.cap < (roomNeeded op S').1
  · rw [if_pos h, if_pos h, if_pos (hw h)]
  · rw [if_neg h, if_neg h, if_pos (hn h)]

/-- A refusal, while there are values, ends the call. -/
theorem Inv.stops (g : Inv z a) {op : SetOp T} {S' : Finset T} {o : SetOut T} (h : setStep none z.set op = some (S', o))
    (hm : (roomNeeded op S').2 * s.elem < s.word) (hc : z.cap < (roomNeeded op S').1) (hg : inValues s z.asked (roomNeeded op S').2 = false)
    (h0 : z.set.card ≠ 0) : a.step c s op = .error (if c.debug then .abort else .ub .outOfBounds) := by
  have hck := Held.check_ok (c := c) g.holds
  rw [← g.len] at hck
  have hl := g.le
  have hsz := g.size
  have hread : ∀ i (hi : i < (z.set.sort (· ≤ ·)).length), (target c s a.size).read a.held i = .ok (id (z.set.sort (· ≤ ·))[i]) := by
    intro i hi
    rw [read_held]
    show a.held.buf.read (0 + i) = _
    rw [Nat.zero_add]; exact bufferManipulation.read_rep g.holds.rep i hi
  have hgrow : ∀ n, n = S'.card → (roomNeeded op S') = (S'.card, 2 * S'.card) →
      a.held.dynamicReserve c s a.size n = .error (if c.debug then .abort else .ub .outOfBounds) := by
    rintro n rfl hr
    rw [hr] at hm hc hg
    simp only at hm hc hg
    simp only [Held.dynamicReserve, hck, bind_ok, g.cap, if_pos hc]
    exact g.refused hm (by omega) hg h0
  cases op with
  | insert v =>
    simp only [setStep, Option.ite_none_right_eq_some, Option.some.injEq, Prod.mk.injEq] at h
    obtain ⟨_, rfl, _⟩ := h
    have hv : v ∉ z.set := by
      intro hv
      rw [Finset.insert_eq_of_mem hv] at hc
      simp only [roomNeeded] at hc
      omega
    have := insertOne_abort c (target c s a.size) id (z.set.sort (· ≤ ·)) v a.held hread (sort_increasing z.set)
      (fun x hx e => hv (by simp at hx e; exact e ▸ hx)) _ (hgrow (a.size + 1) (by rw [Finset.card_insert_of_notMem hv, hsz]) rfl)
    rw [← g.len] at this
    simp only [id] at this
    simp only [step, HeldSet.insert, this, bind_err]
  | insertMany vs =>
    simp only [setStep, Option.ite_none_right_eq_some, Option.some.injEq, Prod.mk.injEq] at h
    obtain ⟨⟨hv, _⟩, rfl, _⟩ := h
    have := insertRange_abort c (target c s a.size) id vs (z.set.sort (· ≤ ·)) a.held hread (sort_increasing z.set) hv _
      (hgrow (a.size + newCount id (z.set.sort (· ≤ ·)) vs) (by rw [SortedArr.newCount_card _ _ hv, SortedArr.card_union_eq, hsz]) rfl)
    rw [← g.len, List.map_id] at this
    simp only [step, HeldSet.insertMany, this, bind_err]
  | reserve n =>
    simp only [roomNeeded] at hm hc hg
    simp only [step, reserve, Held.reserve, hck, bind_ok, g.cap, if_pos hc, g.refused hm hc hg h0, bind_err]
  | remove v => simp [roomNeeded] at hc
  | removeMany vs => simp [roomNeeded] at hc
  | contains v => simp [roomNeeded] at hc
  | get i => simp [roomNeeded] at hc
  | clear => simp [roomNeeded] at hc

/-- One call does what the specification says. -/
theorem Inv.step (g : Inv z a) (he : 0 < s.elem) {op : SetOp T} {S' : Finset T} {o : SetOut T} (h : setStep none z.set op = some (S', o))
    (hm : (roomNeeded op S').2 * s.elem < s.word) :
    (∃ z' a', scarceStep c.debug (inValues s) z op S' o = .ok (z', o) ∧ a.step c s op = .ok (a', o) ∧ Inv z' a' ∧ z'.set = S') ∨
    (∃ e, scarceStep c.debug (inValues s) z op S' o = .error e ∧ a.step c s op = .error e) := by
  have hck := Held.check_ok (c := c) g.holds
  rw [← g.len] at hck
  have hset : (nextState z op S').set = S' := by simp only [nextState]; split <;> rfl
  by_cases hc : z.cap < (roomNeeded op S').1
  · cases hg : inValues s z.asked (roomNeeded op S').2 with
    | true =>
      refine .inl ⟨nextState z op S', ?_⟩
      rw [scarceStep_granted (fun _ => hg) (fun h => absurd hc h)]
      by_cases hop : ∃ n, op = .reserve n
      · obtain ⟨n, rfl⟩ := hop
        simp only [setStep, Option.ite_none_right_eq_some, Option.some.injEq, Prod.mk.injEq] at h
        obtain ⟨_, rfl, rfl⟩ := h
        obtain ⟨a', e, g'⟩ := g.reserves (c := c) he (fun _ => ⟨hm, hg⟩)
        exact ⟨a', rfl, e, g', hset⟩
      · obtain ⟨a', e, g'⟩ := g.goes (c := c) he (fun n hn => hop ⟨n, hn⟩) h (fun _ => ⟨hm, hg⟩) (fun h => absurd hc h)
        exact ⟨a', rfl, e, g', hset⟩
    | false =>
      by_cases h0 : z.set.card = 0
      · by_cases h1 : S'.card = 0
        · -- only `reserve` asks
          have hop : ∃ n, op = .reserve n := by
            cases op with
            | reserve n => exact ⟨n, rfl⟩
            | _ => simp [roomNeeded, h1] at hc
          obtain ⟨n, rfl⟩ := hop
          simp only [setStep, Option.ite_none_right_eq_some, Option.some.injEq, Prod.mk.injEq] at h
          obtain ⟨_, rfl, rfl⟩ := h
          simp only [roomNeeded] at hm hc hg
          refine .inl ⟨{ set := z.set, cap := n.toNat, real := false, asked := z.asked + 1 },
            { held := { buf := { a.held.buf with cap := 0 }, claimed := n.toNat, null := true, asked := z.asked + 1 }, size := a.size }, ?_, ?_, ?_, rfl⟩
          · simp only [scarceStep, roomNeeded, if_pos hc, hg, Bool.false_eq_true, if_false, h0, ne_eq, not_true_eq_false, if_true]
          · simp only [HeldSet.step, reserve, Held.reserve, hck, bind_ok, g.cap, if_pos hc, g.empty hm hg h0]
          · have hz := Finset.card_eq_zero.1 h0
            refine ⟨?_, rfl, rfl, .inr ⟨rfl, hz, rfl, rfl⟩⟩
            have hg1 := g.good
            have hr := g.holds.rep
            have hh := g.good.heap rfl
            rw [hz, Finset.sort_empty] at hr
            unfold SGood
            rw [hz, Finset.sort_empty]
            exact ⟨by show a.size = 0; rw [g.size, h0], ⟨hr.1, Nat.le_refl 0⟩, g.good.lost, fun _ => hh, fun m hm => by cases hm⟩
        · refine .inr ⟨noMemory c.debug op, ?_, ?_⟩
          · simp only [scarceStep, if_pos hc, hg, Bool.false_eq_true, if_false, h0, ne_eq, not_true_eq_false, h1]
          · have hr : roomNeeded op S' = (S'.card, 2 * S'.card) := by
              rcases needs_insertion h h0 h1 with ⟨v, rfl⟩ | ⟨vs, rfl, _⟩ <;> rfl
            rw [hr] at hm hc hg
            simp only at hm hc hg
            exact nowhere h0 h h1 (by rw [g.size, h0]) (h' := { buf := { a.held.buf with cap := 0 }, claimed := 2 * S'.card, null := true, asked := z.asked + 1 })
              (by simp only [Held.dynamicReserve, hck, bind_ok, g.cap, if_pos hc, g.empty hm hg h0]) rfl
      · refine .inr ⟨_, ?_, g.stops h hm hc hg h0⟩
        simp only [scarceStep, if_pos hc, hg, Bool.false_eq_true, if_false, ne_eq, h0, not_false_eq_true, if_true]
  · by_cases hn : z.real = true ∨ S'.card = 0
    · refine .inl ⟨nextState z op S', ?_⟩
      rw [scarceStep_granted (fun h => absurd h hc) (fun _ => hn)]
      by_cases hop : ∃ n, op = .reserve n
      · obtain ⟨n, rfl⟩ := hop
        simp only [setStep, Option.ite_none_right_eq_some, Option.some.injEq, Prod.mk.injEq] at h
        obtain ⟨_, rfl, rfl⟩ := h
        obtain ⟨a', e, g'⟩ := g.reserves (c := c) he (fun h => absurd h hc)
        exact ⟨a', rfl, e, g', hset⟩
      · obtain ⟨a', e, g'⟩ := g.goes (c := c) he (fun n hn => hop ⟨n, hn⟩) h (fun h => absurd h hc) (fun _ => hn)
        exact ⟨a', rfl, e, g', hset⟩
    · have hr : z.real = false ∧ z.set = ∅ ∧ a.held.null = true ∧ a.held.buf.cap = 0 := by
        rcases g.room with ⟨h, _⟩ | h
        · exact absurd (.inl h) hn
        · exact h
      have h0 : z.set.card = 0 := by rw [hr.2.1]; rfl
      have h1 : S'.card ≠ 0 := fun h => hn (.inr h)
      refine .inr ⟨noMemory c.debug op, ?_, ?_⟩
      · simp only [scarceStep, if_neg hc, if_neg hn]
      · have hr' : roomNeeded op S' = (S'.card, 2 * S'.card) := by
          rcases needs_insertion h h0 h1 with ⟨v, rfl⟩ | ⟨vs, rfl, _⟩ <;> rfl
        rw [hr'] at hc
        exact nowhere h0 h h1 (by rw [g.size, h0]) (h' := a.held) (by simp only [Held.dynamicReserve, hck, bind_ok, g.cap, if_neg hc]) hr.2.2.2

end

end LvArray.HeldSet

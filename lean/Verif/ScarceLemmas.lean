import Verif.Scarce
import Verif.Array1DLemmas

/-!
# Lemmas about arrays when memory runs out
-/

namespace LvArray.Held

variable {T : Type} {c : Cfg} {s : Supply}

@[simp] theorem assertPtr_false (b : Bool) : assertPtr c false b = .ok () := by simp [assertPtr]
@[simp] theorem assertPtr_true (b : Bool) : assertPtr c b true = .ok () := by simp [assertPtr]

/-- The buffer holds `xs` in the block it has. -/
structure Holds (h : Held T) (xs : List T) : Prop where
  rep : Rep h.buf xs
  kind : h.buf.kind = .malloc
  live : h.null = true → xs = []
  le : xs.length ≤ h.claimed

theorem check_ok {h : Held T} {xs : List T} (g : h.Holds xs) : h.check c xs.length = .ok () := by
  have := g.le
  simp [check, errorIf]; omega

/-- A request that is granted, with a block that is large enough for the elements there are. -/
theorem reallocate_got {h : Held T} {xs : List T} (g : h.Holds xs) {n : Nat} (hn : xs.length ≤ n)
    (hg : s.grants h.asked (n * s.elem % s.word) = true) (hp : xs.length ≤ n * s.elem % s.word / s.elem) :
    h.reallocate c s xs.length n = .ok
      { buf := { h.buf with cap := n * s.elem % s.word / s.elem, moves := h.buf.moves + xs.length }
        claimed := n, null := false, asked := h.asked + 1 } := by
  obtain ⟨hc, hle⟩ := g.rep
  have e := reallocate_eq c h.buf xs.length (n * s.elem % s.word / s.elem) g.kind hle
    (.inr ⟨fun k hk => by rw [hc]; exact cellsOf_notRaw hk, fun k hk _ => by rw [hc]; exact cellsOf_ge hk⟩)
  rw [Buf.reallocate, g.kind] at e
  simp only [Nat.min_eq_right hp] at e
  obtain ⟨⟨nb, ob⟩, e1, e⟩ := bind_eq_ok.mp e
  obtain ⟨ob2, e2, e⟩ := bind_eq_ok.mp e
  have hnull : h.null = false ∨ xs.length = 0 := by
    cases hh : h.null with
    | false => exact .inl rfl
    | true => right; rw [g.live hh]; rfl
  have a1 : assertPtr c h.null (min n xs.length == 0) = .ok () := by
    rcases hnull with hz | hz <;> simp [hz]
  have a2 : assertPtr c h.null (xs.length == 0) = .ok () := by
    rcases hnull with hz | hz <;> simp [hz]
  simp only [reallocate, hg, Bool.not_true, assertPtr_false, bind_ok, if_true, a1]
  simp only [Nat.min_eq_right hn, e1, bind_ok, a2, e2]
  simp only [Except.ok.injEq] at e
  have hcell : (fun k => if k < xs.length then h.buf.cell k else Cell.raw) = h.buf.cell := by
    funext k
    split
    · rfl
    · rw [hc, cellsOf_ge (by omega)]
  rw [hcell] at e
  rw [e, g.kind]

/-- A request that is refused, when there are elements to move. -/
theorem reallocate_refused {h : Held T} {xs : List T} (hx : xs ≠ []) {n : Nat} (hn : xs.length ≤ n)
    (hg : s.grants h.asked (n * s.elem % s.word) = false) :
    h.reallocate c s xs.length n = .error (if c.debug then .abort else .ub .outOfBounds) := by
  obtain ⟨m, hm⟩ : ∃ m, xs.length = m + 1 := ⟨xs.length - 1, by have := List.length_pos_iff.2 hx; omega⟩
  have hmin : min n (m + 1) = m + 1 := by omega
  cases hd : c.debug with
  | true =>
    simp only [reallocate, hg, hm, hmin, assertPtr, hd]
    rfl
  | false =>
    simp only [reallocate, hg, hm, hmin, assertPtr, hd, Bool.false_and, errorIf_false, bind_ok, Bool.false_eq_true, if_false]
    simp [forUp, moveAcross]

/-- A request that is refused, when there are no elements: nothing happens. -/
theorem reallocate_null {h : Held T} (g : h.Holds ([] : List T)) {n : Nat}
    (hg : s.grants h.asked (n * s.elem % s.word) = false) :
    h.reallocate c s 0 n = .ok { buf := { h.buf with cap := 0 }, claimed := n, null := true, asked := h.asked + 1 } := by
  have hr : ∀ k, h.buf.cell k = .raw := fun k => by rw [g.rep.1]; rfl
  simp only [reallocate, hg, Nat.min_zero, beq_self_eq_true, assertPtr_true, bind_ok, forUp, arrayManipulation.destroy]
  rw [countL_zero c h.buf _ (.inr fun k _ => hr k), countM_zero c h.buf _ (.inr fun k _ => hr k)]
  simp only [Bool.false_eq_true, if_false, Nat.add_zero, Except.ok.injEq, Held.mk.injEq, and_true, Bool.not_false]
  rw [g.rep.1, ← g.kind]
  congr 1

/-- An error in the middle of a loop. -/
theorem forUp_stops {σ : Type} {f : Nat → σ → R σ} {e : Err} (P : Nat → σ → Prop) (p : Nat) :
    ∀ (n lo : Nat) (s : σ), P lo s → lo ≤ p → p < lo + n → (∀ i s, lo ≤ i → i < p → P i s → ∃ s', f i s = .ok s' ∧ P (i + 1) s') →
      (∀ s, P p s → f p s = .error e) → forUp n lo f s = .error e
  | 0, lo, s, _, h1, h2, _, _ => by omega
  | n + 1, lo, s, h0, h1, h2, step, stop => by
    by_cases h : lo = p
    · subst h
      simp only [forUp, stop s h0, bind_err]
    · obtain ⟨s1, e1, p1⟩ := step lo s (Nat.le_refl _) (by omega) h0
      simp only [forUp, e1, bind_ok]
      exact forUp_stops P p n (lo + 1) s1 p1 (by omega) (by omega) (fun i s hi => step i s (by omega)) stop

/-- A block that is too small for the elements there are. -/
theorem reallocate_small {h : Held T} {xs : List T} (g : h.Holds xs) {n : Nat} (hn : xs.length ≤ n)
    (hg : s.grants h.asked (n * s.elem % s.word) = true) (hp : n * s.elem % s.word / s.elem < xs.length) :
    h.reallocate c s xs.length n = .error (.ub .outOfBounds) := by
  obtain ⟨hc, hle⟩ := g.rep
  have hnull : h.null = false := by
    cases hh : h.null with
    | false => rfl
    | true => rw [g.live hh] at hp; simp at hp
  have e : ∀ f : Buf T, f.cap = n * s.elem % s.word / s.elem →
      forUp xs.length 0 (moveAcross c) (f, h.buf) = .error (.ub .outOfBounds) := by
    intro f hf
    refine forUp_stops (fun i (st : Buf T × Buf T) => st.1.cap = n * s.elem % s.word / s.elem ∧ st.2.cap = h.buf.cap ∧
      ∀ k, i ≤ k → st.2.cell k = h.buf.cell k) (n * s.elem % s.word / s.elem) _ _ _ ⟨hf, rfl, fun _ _ => rfl⟩ (Nat.zero_le _) (by omega)
      ?_ ?_
    · rintro i ⟨d, o⟩ _ hi ⟨h1, h2, h3⟩
      have hl : o.cell i = .live xs[i] := by
        rw [h3 i (Nat.le_refl _), hc, cellsOf_lt (by omega)]
      simp only at h1 h2
      refine ⟨_, by simp only [moveAcross, hl]; rw [if_pos (by omega)], h1, h2, fun k hk => ?_⟩
      simp only
      rw [upd_ne _ _ (by omega)]
      exact h3 k (by omega)
    · rintro ⟨d, o⟩ ⟨h1, _, _⟩
      simp only at h1
      simp only [moveAcross, h1]
      rw [if_neg (by omega)]
  simp only [reallocate, hg, hnull, Bool.not_true, assertPtr_false, bind_ok, if_true, Nat.min_eq_right hn]
  rw [e _ rfl]
  rfl

end LvArray.Held

import Verif.AoAStep

/-!
# Lemmas about copies of `ArrayOfArrays`
-/

namespace LvArray

open Layout Spec

variable {T : Type}

/-- The number of slots of the destination the code takes to be in use when it makes room for the copy: the old number of
arrays looked up in the new offsets. -/
def staleOffset (L M : Layout T) : Nat :=
  if L.length ≤ M.length then total (M.take L.length) else total L

theorem copiedMax_eq (L M : Layout T) : ShWeak.copiedMax L.caps M.caps = staleOffset L M := by
  unfold ShWeak.copiedMax staleOffset
  simp only [caps_length, caps_take, caps_sum]

theorem staleOffset_le {L M : Layout T} {cap : Nat} (h1 : total L ≤ cap) (h2 : total M ≤ cap) : staleOffset L M ≤ cap := by
  unfold staleOffset
  split
  · have : total (M.take L.length) + total (M.drop L.length) = total M := by rw [← total_append, List.take_append_drop]
    omega
  · exact h1

/-- The condition under which the copy makes room without touching slots that hold nothing. -/
def CopyRoom (c : Cfg) (cap : Nat) (L M : Layout T) : Prop :=
  total M ≤ cap ∨ staleOffset L M = 0 ∨ (c.trivial = true ∧ staleOffset L M ≤ cap)

theorem reserve_empty (c : Cfg) {b : Buf T} (h : Lay b []) {k n : Nat} (hk : k ≤ b.cap)
    (hc : n ≤ b.cap ∨ k = 0 ∨ c.trivial = true) :
    ∃ b', bufferManipulation.reserve c b k n = .ok b' ∧ Lay b' [] ∧ n ≤ b'.cap := by
  unfold bufferManipulation.reserve
  rw [bufferManipulation.check_ok c b k hk, bind_ok]
  by_cases hn : b.cap < n
  · rw [if_pos hn]
    unfold bufferManipulation.setCapacity
    have hraw : ∀ j, b.cell j = .raw := fun j => by rw [h.cell]; rfl
    rw [bufferManipulation.check_ok c b k hk, bind_ok, reallocate_eq c b k n h.kind hk]
    · refine ⟨_, rfl, ⟨h.kind, by simp, by simp, ?_, h.lost⟩, Nat.le_refl _⟩
      funext j
      simp only [hraw]
      split <;> rfl
    · rcases hc with hc | rfl | hc
      · omega
      · exact .inr ⟨fun j hj => by omega, fun j _ _ => hraw j⟩
      · exact .inl hc
  · rw [if_neg hn]
    exact ⟨b, rfl, h, by omega⟩

theorem forUp_not_ok {σ : Type} {f : Nat → σ → R σ} (I : σ → Prop) (hI : ∀ i s s', I s → f i s = .ok s' → I s') {k : Nat}
    (hf : ∀ s, I s → ∀ s', f k s ≠ .ok s') : ∀ (n lo : Nat) (s : σ), I s → lo ≤ k → k < lo + n → ∀ s', forUp n lo f s ≠ .ok s'
  | 0, lo, s, _, h1, h2, _ => by omega
  | n + 1, lo, s, hs, h1, h2, s' => by
    unfold forUp
    intro h
    cases hfl : f lo s with
    | error e => rw [hfl, bind_err] at h; cases h
    | ok s1 =>
      rw [hfl, bind_ok] at h
      by_cases hk : lo = k
      · subst hk; exact hf s hs s1 hfl
      · exact forUp_not_ok I hI hf n (lo + 1) s1 (hI _ _ _ hs hfl) (by omega) (by omega) s' h

/-- Moving more elements than the old allocation holds reads beyond its end. -/
theorem reallocate_overrun (c : Cfg) (b : Buf T) (size newCap : Nat) (hk : b.kind = .malloc) (hs : b.cap < size)
    (hn : b.cap < newCap) : ∀ b', b.reallocate c size newCap ≠ .ok b' := by
  intro b' h
  unfold Buf.reallocate at h
  rw [hk] at h
  simp only at h
  have := forUp_not_ok (f := moveAcross c) (fun s : Buf T × Buf T => s.2.cap = b.cap) (k := b.cap) (by
      rintro i ⟨d, sr⟩ ⟨d', sr'⟩ hi hh
      unfold moveAcross at hh
      simp only at hh hi ⊢
      split at hh
      · split at hh
        · split at hh
          · cases hh; exact hi
          · cases hh
        · cases hh; exact hi
        · cases hh; exact hi
      · cases hh) (by
      rintro ⟨d, sr⟩ hi s' hh
      unfold moveAcross at hh
      simp only at hh hi
      rw [if_neg (by omega)] at hh
      cases hh) (min newCap size) 0
      ({ kind := .malloc, cap := newCap, cell := fun _ => .raw, lostLive := b.lostLive, lostMoved := b.lostMoved,
         moves := b.moves }, b) rfl (by omega) (by omega)
  cases hl : forUp (min newCap size) 0 (moveAcross c)
      ({ kind := .malloc, cap := newCap, cell := fun _ => .raw, lostLive := b.lostLive, lostMoved := b.lostMoved,
         moves := b.moves }, b) with
  | error e => rw [hl, bind_err] at h; cases h
  | ok s => exact this s hl

theorem copyAssign_good (c : Cfg) {a src : AoA T} {L M : Layout T} (h : AWeak a L) (hs : AGood src M)
    (hr : CopyRoom c a.values.cap L M) : ∃ a', a.copyAssign c src = .ok a' ∧ AGood a' M := by
  unfold AoA.copyAssign
  have hread : src.shape.offsets.read src.shape.numArrays = .ok (total M) := ShGood.readLast hs.shape
  obtain ⟨b1, h1, h2, h3⟩ := h.destroyAll (c := c)
  obtain ⟨s', h4, h5⟩ := h.shape.copyShape (c := c) hs.shape
  rw [copiedMax_eq] at h4
  have hk : staleOffset L M ≤ b1.cap := by
    rw [h3]
    rcases hr with hr | hr | ⟨_, hr⟩
    · exact staleOffset_le h.lay.room hr
    · omega
    · exact hr
  obtain ⟨b2, h6, h7, h8⟩ := reserve_empty c h2 (k := staleOffset L M) (n := total M) hk (by
    rw [h3]
    rcases hr with hr | hr | ⟨hr, _⟩
    · exact .inl hr
    · exact .inr (.inl hr)
    · exact .inr (.inr hr))
  obtain ⟨b3, h9, h10, _⟩ := LShape.copyRows (c := c) h5 hs.lay h7 h8
  simp only [hread, h1, h4, h6, h9, bind_ok]
  exact ⟨_, rfl, h5, h10⟩

/-- Without that room the copy fails: bounds checks report it, otherwise memory outside the allocation or without objects is
read. -/
theorem copyAssign_bad (c : Cfg) {a src : AoA T} {L M : Layout T} (h : AWeak a L) (hs : AGood src M)
    (hr : ¬ CopyRoom c a.values.cap L M) : ∀ a', a.copyAssign c src ≠ .ok a' := by
  unfold AoA.copyAssign
  have hread : src.shape.offsets.read src.shape.numArrays = .ok (total M) := ShGood.readLast hs.shape
  obtain ⟨b1, h1, h2, h3⟩ := h.destroyAll (c := c)
  obtain ⟨s', h4, h5⟩ := h.shape.copyShape (c := c) hs.shape
  rw [copiedMax_eq] at h4
  unfold CopyRoom at hr
  simp only [not_or, not_and] at hr
  obtain ⟨hr1, hr2, hr3⟩ := hr
  simp only [hread, h1, h4, bind_ok]
  intro a' ha'
  -- the reallocation fails
  have key : ∀ b', bufferManipulation.reserve c b1 (staleOffset L M) (total M) ≠ .ok b' := by
    intro b' hb'
    unfold bufferManipulation.reserve bufferManipulation.check at hb'
    have hlt : b1.cap < total M := by omega
    simp only [if_pos hlt] at hb'
    by_cases hk : staleOffset L M ≤ b1.cap
    · have ht : c.trivial = false := by
        cases hc : c.trivial
        · rfl
        · exact absurd (by rw [← h3]; exact hk) (hr3 hc)
      simp only [errorIf] at hb'
      rw [if_neg (by simp; omega), bind_ok] at hb'
      unfold bufferManipulation.setCapacity at hb'
      rw [bufferManipulation.check_ok c b1 _ hk, bind_ok, reallocate_rawRead c b1 _ _ h2.kind hk ?_ ht
        ⟨0, by omega, by rw [h2.cell]; rfl⟩] at hb'
      · cases hb'
      · omega
    · cases hb : c.boundsCheck
      · rw [hb] at hb'
        simp only [Bool.false_and, errorIf, Bool.false_eq_true, if_false, bind_ok] at hb'
        unfold bufferManipulation.setCapacity bufferManipulation.check at hb'
        simp only [hb, Bool.false_and, errorIf, Bool.false_eq_true, if_false, bind_ok] at hb'
        exact reallocate_overrun c b1 _ _ h2.kind (by omega) (by omega) b' hb'
      · rw [hb] at hb'
        simp only [errorIf] at hb'
        rw [if_pos (by simp; omega), bind_err] at hb'
        cases hb'
  cases hres : bufferManipulation.reserve c b1 (staleOffset L M) (total M) with
  | error e => rw [hres, bind_err] at ha'; cases ha'
  | ok b' => exact key b' hres

end LvArray

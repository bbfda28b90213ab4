import Verif.ParallelLemmas

/-!
# Threads that work on different inner arrays

`Prog.runF` runs a program on a family of stores, one for each inner array: what a program does when the inner arrays really are
separate.  A store whose inner arrays are parts of common buffers simulates the family, and there the accesses of different
threads commute.
-/

namespace LvArray.Parallel

variable {T V X α β : Type} {c : Cfgs}

/-- Every inner array is the only one of a store of its own. -/
abbrev Family (T V : Type) := Nat → RowStore T V

namespace Prog

/-- Run a program alone on a family. -/
def runF (c : Cfgs) : Prog Nat T V α → Family T V → R (α × Family T V)
  | ret x, M => .ok (x, M)
  | fail e, _ => .error e
  | act i a next, M => a.exec c 0 (M i) >>= fun s => next.runF c (upd M i s)
  | num i q next, M => q.exec c 0 (M i) >>= fun n => (next n).runF c M
  | val i k next, M => readValue 0 k (M i) >>= fun x => (next x).runF c M
  | ent i k next, M => readEntry 0 k (M i) >>= fun x => (next x).runF c M

/-- The number of accesses of that run. -/
def turnsF (c : Cfgs) : Prog Nat T V α → Family T V → Nat
  | ret _, _ => 0
  | fail _, _ => 0
  | act i a next, M =>
    match a.exec c 0 (M i) with
    | .ok s => next.turnsF c (upd M i s) + 1
    | .error _ => 0
  | num i q next, M =>
    match q.exec c 0 (M i) with
    | .ok n => (next n).turnsF c M + 1
    | .error _ => 0
  | val i k next, M =>
    match readValue 0 k (M i) with
    | .ok x => (next x).turnsF c M + 1
    | .error _ => 0
  | ent i k next, M =>
    match readEntry 0 k (M i) with
    | .ok x => (next x).turnsF c M + 1
    | .error _ => 0

/-- The program only accesses inner arrays in `D`. -/
def Uses (D : Nat → Prop) : Prog Nat T V α → Prop
  | ret _ => True
  | fail _ => True
  | act i _ next => D i ∧ next.Uses D
  | num i _ next => D i ∧ ∀ n, (next n).Uses D
  | val i _ next => D i ∧ ∀ x, (next x).Uses D
  | ent i _ next => D i ∧ ∀ x, (next x).Uses D

theorem upd_upd {γ : Type} (M : Nat → γ) (i : Nat) (x y : γ) : upd (upd M i x) i y = upd M i y := by
  funext k; by_cases h : k = i <;> simp [upd, h]

theorem upd_self {γ : Type} (M : Nat → γ) (i : Nat) : upd M i (M i) = M := by
  funext k; by_cases h : k = i <;> simp [upd, h]

theorem runF_at (i : Nat) (p : Code T V α) (M : Family T V) :
    (p.at i).runF c M = (p.run c (fun _ => 0) (M i) >>= fun r => .ok (r.1, upd M i r.2)) := by
  unfold Code.at
  induction p generalizing M with
  | ret x => simp only [relabel, runF, run, bind_ok, upd_self]
  | fail e => rfl
  | act j a next ih => simp only [relabel, runF, run, bindR_assoc, ih, upd_same, upd_upd]
  | num j q next ih => simp only [relabel, runF, run, bindR_assoc, ih]
  | val j k next ih => simp only [relabel, runF, run, bindR_assoc, ih]
  | ent j k next ih => simp only [relabel, runF, run, bindR_assoc, ih]

theorem runF_bind (p : Prog Nat T V α) (f : α → Prog Nat T V β) (M : Family T V) :
    (p.bind f).runF c M = (p.runF c M >>= fun r => (f r.1).runF c r.2) := by
  induction p generalizing M with
  | ret x => rfl
  | fail e => rfl
  | act i a next ih => simp only [bind, runF, bindR_assoc, ih]
  | num i q next ih => simp only [bind, runF, bindR_assoc, ih]
  | val i k next ih => simp only [bind, runF, bindR_assoc, ih]
  | ent i k next ih => simp only [bind, runF, bindR_assoc, ih]

theorem uses_at (i : Nat) (p : Code T V α) : (p.at i).Uses (fun j => j = i) := by
  unfold Code.at
  induction p with
  | ret x => trivial
  | fail e => trivial
  | act j a next ih => exact ⟨rfl, ih⟩
  | num j q next ih => exact ⟨rfl, fun n => ih n⟩
  | val j k next ih => exact ⟨rfl, fun n => ih n⟩
  | ent j k next ih => exact ⟨rfl, fun n => ih n⟩

theorem Uses.mono {D E : Nat → Prop} {p : Prog Nat T V α} (h : p.Uses D) (hd : ∀ i, D i → E i) : p.Uses E := by
  induction p with
  | ret x => trivial
  | fail e => trivial
  | act j a next ih => exact ⟨hd _ h.1, ih h.2⟩
  | num j q next ih => exact ⟨hd _ h.1, fun n => ih n (h.2 n)⟩
  | val j k next ih => exact ⟨hd _ h.1, fun n => ih n (h.2 n)⟩
  | ent j k next ih => exact ⟨hd _ h.1, fun n => ih n (h.2 n)⟩

theorem Uses.bind {D : Nat → Prop} {p : Prog Nat T V α} {f : α → Prog Nat T V β} (h : p.Uses D) (hf : ∀ x, (f x).Uses D) :
    (p.bind f).Uses D := by
  induction p with
  | ret x => exact hf x
  | fail e => trivial
  | act j a next ih => exact ⟨h.1, ih h.2⟩
  | num j q next ih => exact ⟨h.1, fun n => ih n (h.2 n)⟩
  | val j k next ih => exact ⟨h.1, fun n => ih n (h.2 n)⟩
  | ent j k next ih => exact ⟨h.1, fun n => ih n (h.2 n)⟩

/-- A run depends only on the inner arrays the program accesses, and changes no other. -/
theorem runF_local {D : Nat → Prop} {p : Prog Nat T V α} {M M' N : Family T V} {x : α} (hu : p.Uses D)
    (h : p.runF c M = .ok (x, M')) (e : ∀ i, D i → N i = M i) :
    ∃ N', p.runF c N = .ok (x, N') ∧ (∀ i, D i → N' i = M' i) ∧ p.turnsF c N = p.turnsF c M := by
  induction p generalizing M N with
  | ret y =>
    cases h
    exact ⟨N, rfl, e, rfl⟩
  | fail e => cases h
  | act j a next ih =>
    simp only [runF, turnsF] at h ⊢
    obtain ⟨s, h1, h2⟩ := bind_eq_ok.1 h
    rw [e j hu.1, h1]
    obtain ⟨N', h3, h4, h5⟩ := ih hu.2 h2 (N := upd N j s) (fun i hi => by
      by_cases hij : i = j
      · subst hij; rw [upd_same, upd_same]
      · rw [upd_ne _ _ hij, upd_ne _ _ hij, e i hi])
    exact ⟨N', h3, h4, by simp only [h5]⟩
  | num j q next ih =>
    simp only [runF, turnsF] at h ⊢
    obtain ⟨n, h1, h2⟩ := bind_eq_ok.1 h
    rw [e j hu.1, h1]
    obtain ⟨N', h3, h4, h5⟩ := ih n (hu.2 n) h2 e
    exact ⟨N', h3, h4, by simp only [h5]⟩
  | val j k next ih =>
    simp only [runF, turnsF] at h ⊢
    obtain ⟨n, h1, h2⟩ := bind_eq_ok.1 h
    rw [e j hu.1, h1]
    obtain ⟨N', h3, h4, h5⟩ := ih n (hu.2 n) h2 e
    exact ⟨N', h3, h4, by simp only [h5]⟩
  | ent j k next ih =>
    simp only [runF, turnsF] at h ⊢
    obtain ⟨n, h1, h2⟩ := bind_eq_ok.1 h
    rw [e j hu.1, h1]
    obtain ⟨N', h3, h4, h5⟩ := ih n (hu.2 n) h2 e
    exact ⟨N', h3, h4, by simp only [h5]⟩

theorem runF_frame {D : Nat → Prop} {p : Prog Nat T V α} {M M' : Family T V} {x : α} (hu : p.Uses D)
    (h : p.runF c M = .ok (x, M')) {i : Nat} (hi : ¬ D i) : M' i = M i := by
  induction p generalizing M with
  | ret y => cases h; rfl
  | fail e => cases h
  | act j a next ih =>
    obtain ⟨s, h1, h2⟩ := bind_eq_ok.1 h
    rw [ih hu.2 h2, upd_ne]
    intro e; exact hi (e ▸ hu.1)
  | num j q next ih => obtain ⟨n, h1, h2⟩ := bind_eq_ok.1 h; exact ih n (hu.2 n) h2
  | val j q next ih => obtain ⟨n, h1, h2⟩ := bind_eq_ok.1 h; exact ih n (hu.2 n) h2
  | ent j q next ih => obtain ⟨n, h1, h2⟩ := bind_eq_ok.1 h; exact ih n (hu.2 n) h2

end Prog

/-! ## Parts of a buffer -/

/-- A configuration in which every slot is tracked: objects have to be destroyed where they live. -/
def strict1 (c : Cfg) : Cfg := { c with trivial := false }

/-- The same for both buffers. -/
def strict (c : Cfgs) : Cfgs := { values := strict1 c.values, entries := strict1 c.entries }

/-- `m` is the part of `b` that begins at `p` and has `n` slots. -/
structure Part (b : Buf X) (p n : Nat) (m : Buf X) : Prop where
  cap : m.cap = n
  fits : p + n ≤ b.cap
  cell : ∀ k, k < n → m.cell k = b.cell (p + k)

/-- What an access leaves alone. -/
structure Away (b b' : Buf X) (p n : Nat) (m m' : Buf X) : Prop where
  kind : b'.kind = b.kind
  cap : b'.cap = b.cap
  cell : ∀ k, k < p ∨ p + n ≤ k → b'.cell k = b.cell k
  grows : m.lostLive ≤ m'.lostLive
  lost : b'.lostLive + m.lostLive ≤ b.lostLive + m'.lostLive

theorem lostL_strict (c : Cfg) (x : Cell X) : x.lostL c.trivial ≤ x.lostL false := by
  cases x <;> cases c.trivial <;> simp [Cell.lostL]

section part

variable {b m m' : Buf X} {p n k v : Nat} {c : Cfg}

theorem Part.read (h : Part b p n m) {k : Nat} {x : X} (e : m.read (0 + k) = .ok x) : b.read (p + k) = .ok x := by
  unfold Buf.read at e ⊢
  rw [Nat.zero_add] at e
  have h1 := h.fits
  have h2 := h.cap
  split at e
  · rename_i hk
    rw [if_pos (by omega), ← h.cell k (by omega)]
    exact e
  · cases e

/-- Writing one slot of a part. -/
theorem Part.put (h : Part b p n m) {k : Nat} (hk : k < n) (x : Cell X) (lm lb lm2 lb2 mm mb : Nat)
    (h1 : m.lostLive ≤ lm) (h2 : lb + m.lostLive ≤ b.lostLive + lm) :
    Part { b with cell := upd b.cell (p + k) x, lostLive := lb, lostMoved := lb2, moves := mb } p n
      { m with cell := upd m.cell k x, lostLive := lm, lostMoved := lm2, moves := mm } ∧
    Away b { b with cell := upd b.cell (p + k) x, lostLive := lb, lostMoved := lb2, moves := mb } p n m
      { m with cell := upd m.cell k x, lostLive := lm, lostMoved := lm2, moves := mm } := by
  refine ⟨⟨h.cap, h.fits, ?_⟩, ⟨rfl, rfl, ?_, h1, h2⟩⟩
  · intro j hj
    have := h.cell j hj
    by_cases hjk : j = k
    · subst hjk; simp [upd]
    · simp only [upd, if_neg hjk, if_neg (show ¬ p + j = p + k by omega)]; exact this
  · intro j hj
    simp only [upd, if_neg (show ¬ j = p + k by omega)]

theorem Away.trans {b b1 b2 m m1 m2 : Buf X} (h : Away b b1 p n m m1) (h' : Away b1 b2 p n m1 m2) : Away b b2 p n m m2 :=
  ⟨h'.kind.trans h.kind, h'.cap.trans h.cap, fun k hk => (h'.cell k hk).trans (h.cell k hk),
    Nat.le_trans h.grows h'.grows, by have := h.lost; have := h'.lost; omega⟩

/-- What succeeds on a part succeeds on the buffer. -/
theorem BufAct.sim (a : BufAct X) (h : Part b p n m) (e : a.exec (strict1 c) 0 m = .ok m') :
    ∃ b', a.exec c p b = .ok b' ∧ Part b' p n m' ∧ Away b b' p n m m' := by
  have hf := h.fits
  have hc := h.cap
  cases a with
  | notNull =>
    simp only [BufAct.exec] at e ⊢
    obtain ⟨_, h1, h2⟩ := bind_eq_ok.1 e
    cases h2
    refine ⟨b, ?_, h, ⟨rfl, rfl, fun _ _ => rfl, Nat.le_refl _, Nat.le_refl _⟩⟩
    have : arrayManipulation.assertNonNull c b p = .ok () := by
      cases hx : (c.debug && b.cap == 0 && p == 0) with
      | false => simp only [arrayManipulation.assertNonNull, hx, errorIf_false]
      | true =>
        simp only [Bool.and_eq_true, beq_iff_eq] at hx
        have : arrayManipulation.assertNonNull (strict1 c) m 0 = .error .abort := by
          simp [arrayManipulation.assertNonNull, strict1, hx.1.1, show m.cap = 0 by omega]
        rw [this] at h1
        cases h1
    rw [this]; rfl
  | construct k v =>
    simp only [BufAct.exec, Buf.construct, Nat.zero_add] at e ⊢
    split at e
    · rename_i hk
      cases e
      rw [if_pos (by omega)]
      refine ⟨_, rfl, ?_⟩
      have hcell := h.cell k (by omega)
      refine h.put (show k < n by omega) (.live v) _ _ _ _ _ _ (Nat.le_add_right _ _) ?_
      have := lostL_strict c (b.cell (p + k))
      simp only [strict1, hcell]
      omega
    · cases e
  | moveUp k d =>
    simp only [BufAct.exec, Buf.moveConstruct, Nat.zero_add] at e ⊢
    split at e
    · rename_i hk
      rw [if_pos (by omega)]
      have h1 := h.cell k (by omega)
      have h2 := h.cell (k + d) (by omega)
      rw [← Nat.add_assoc] at h2
      rw [← h1]
      cases hm : m.cell k with
      | raw => simp [hm, strict1] at e
      | live v =>
        rw [hm] at e
        simp only at e ⊢
        cases e
        refine ⟨_, rfl, ?_⟩
        obtain ⟨p1, a1⟩ := h.put (show k < n by omega) .moved m.lostLive b.lostLive m.lostMoved b.lostMoved m.moves b.moves
          (Nat.le_refl _) (Nat.le_refl _)
        have hcell := p1.cell (k + d) (by omega)
        rw [← Nat.add_assoc] at hcell
        obtain ⟨p2, a2⟩ := p1.put (show k + d < n by omega) (.live v)
          (m.lostLive + (upd m.cell k .moved (k + d)).lostL false)
          (b.lostLive + (upd b.cell (p + k) .moved (p + k + d)).lostL c.trivial)
          (m.lostMoved + (upd m.cell k .moved (k + d)).lostM false)
          (b.lostMoved + (upd b.cell (p + k) .moved (p + k + d)).lostM c.trivial) (m.moves + 1) (b.moves + 1)
          (Nat.le_add_right _ _) (by
            have := lostL_strict c (upd b.cell (p + k) .moved (p + k + d))
            simp only at hcell ⊢
            rw [hcell]
            omega)
        rw [← Nat.add_assoc] at p2 a2
        exact ⟨p2, a1.trans a2⟩
      | moved =>
        rw [hm] at e
        simp only at e ⊢
        cases e
        refine ⟨_, rfl, ?_⟩
        have := h.put (show k + d < n by omega) .moved
          (m.lostLive + (m.cell (k + d)).lostL false) (b.lostLive + (b.cell (p + k + d)).lostL c.trivial)
          (m.lostMoved + (m.cell (k + d)).lostM false) (b.lostMoved + (b.cell (p + k + d)).lostM c.trivial)
          (m.moves + 1) (b.moves + 1) (Nat.le_add_right _ _) (by
            have := lostL_strict c (b.cell (p + k + d))
            rw [h2]
            omega)
        rw [← Nat.add_assoc] at this
        exact this
    · cases e
  | moveDown k d =>
    simp only [BufAct.exec, Buf.moveAssign, Nat.zero_add] at e ⊢
    split at e
    · cases e
    rename_i hkd
    rw [if_neg (by omega)]
    split at e
    · rename_i hk
      rw [if_pos (by omega)]
      have h1 := h.cell k (by omega)
      have h2 := h.cell (k - d) (by omega)
      have e2 : p + k - d = p + (k - d) := by omega
      rw [e2, ← h1, ← h2]
      cases hr : (m.cell (k - d)).isRaw with
      | true => simp [hr, strict1] at e
      | false =>
        simp only [hr, Bool.false_and, Bool.false_eq_true, if_false] at e ⊢
        cases hm : m.cell k with
        | raw => simp [hm, strict1] at e
        | live v =>
          rw [hm] at e
          simp only at e ⊢
          cases e
          refine ⟨_, rfl, ?_⟩
          obtain ⟨p1, a1⟩ := h.put (show k < n by omega) .moved m.lostLive b.lostLive m.lostMoved b.lostMoved m.moves b.moves
            (Nat.le_refl _) (Nat.le_refl _)
          obtain ⟨p2, a2⟩ := p1.put (show k - d < n by omega) (.live v) m.lostLive b.lostLive m.lostMoved b.lostMoved m.moves
            b.moves (Nat.le_refl _) (Nat.le_refl _)
          exact ⟨p2, a1.trans a2⟩
        | moved =>
          rw [hm] at e
          simp only at e ⊢
          cases e
          refine ⟨_, rfl, ?_⟩
          exact h.put (show k - d < n by omega) .moved m.lostLive b.lostLive m.lostMoved b.lostMoved m.moves
            b.moves (Nat.le_refl _) (Nat.le_refl _)
    · cases e
  | destroy k =>
    simp only [BufAct.exec, Buf.destroyAt, Nat.zero_add, strict1, Bool.false_eq_true, if_false] at e ⊢
    split at e
    · rename_i hk
      have h1 := h.cell k (by omega)
      have hw := h.put (show k < n by omega) .raw m.lostLive b.lostLive m.lostMoved b.lostMoved m.moves
          b.moves (Nat.le_refl _) (Nat.le_refl _)
      cases hm : m.cell k with
      | raw => rw [hm] at e; cases e
      | live v =>
        rw [hm] at e
        cases e
        refine ⟨{ b with cell := upd b.cell (p + k) .raw }, ?_, hw⟩
        rw [← h1, hm]
        split
        · rfl
        · rw [if_pos (by omega)]
      | moved =>
        rw [hm] at e
        cases e
        refine ⟨{ b with cell := upd b.cell (p + k) .raw }, ?_, hw⟩
        rw [← h1, hm]
        split
        · rfl
        · rw [if_pos (by omega)]
    · cases e
  | assign k v =>
    simp only [BufAct.exec, Buf.write, Nat.zero_add] at e ⊢
    split at e
    · rename_i hk
      rw [if_pos (by omega)]
      have h1 := h.cell k (by omega)
      rw [← h1]
      cases hr : (m.cell k).isRaw with
      | true => simp [hr, strict1] at e
      | false =>
        simp only [hr, Bool.false_and, Bool.false_eq_true, if_false] at e ⊢
        cases e
        exact ⟨_, rfl, h.put (show k < n by omega) (.live v) m.lostLive b.lostLive m.lostMoved b.lostMoved m.moves
          b.moves (Nat.le_refl _) (Nat.le_refl _)⟩
    · cases e

end part

/-! ## The store simulates the family -/

/-- `s` has `n` inner arrays, at the offsets `o`, and they are the members of the family. -/
structure Sim (n : Nat) (o : Nat → Nat) (s : RowStore T V) (M : Family T V) : Prop where
  num : s.shape.numArrays = n
  mono : ∀ i, i < n → o i ≤ o (i + 1)
  off : ∀ i, i ≤ n → s.shape.offsets.read i = .ok (o i)
  sizeCap : n ≤ s.shape.sizes.cap
  rowNum : ∀ i, i < n → (M i).shape.numArrays = 1
  rowOff : ∀ i, i < n → (M i).shape.offsets.read 0 = .ok 0 ∧ (M i).shape.offsets.read 1 = .ok (o (i + 1) - o i)
  rowSize : ∀ i, i < n → 0 < (M i).shape.sizes.cap ∧ (M i).shape.sizes.cell 0 = s.shape.sizes.cell i
  values : ∀ i, i < n → Part s.values (o i) (o (i + 1) - o i) (M i).values
  entries : ∀ i, i < n → Part s.entries (o i) (o (i + 1) - o i) (M i).entries
  lostValues : (∀ i, i < n → (M i).values.lostLive = 0) → s.values.lostLive = 0
  lostEntries : (∀ i, i < n → (M i).entries.lostLive = 0) → s.entries.lostLive = 0

/-- What threads never change. -/
structure Kept (n last : Nat) (s s' : RowStore T V) : Prop where
  num : s'.shape.numArrays = s.shape.numArrays
  offsets : s'.shape.offsets = s.shape.offsets
  sizeKind : s'.shape.sizes.kind = s.shape.sizes.kind
  sizeCap : s'.shape.sizes.cap = s.shape.sizes.cap
  size : ∀ i, n ≤ i → s'.shape.sizes.cell i = s.shape.sizes.cell i
  valueKind : s'.values.kind = s.values.kind
  valueCap : s'.values.cap = s.values.cap
  value : ∀ k, last ≤ k → s'.values.cell k = s.values.cell k
  entryKind : s'.entries.kind = s.entries.kind
  entryCap : s'.entries.cap = s.entries.cap
  entry : ∀ k, last ≤ k → s'.entries.cell k = s.entries.cell k

namespace Kept

variable {n last : Nat} {s s' s'' : RowStore T V}

theorem refl : Kept n last s s := ⟨rfl, rfl, rfl, rfl, fun _ _ => rfl, rfl, rfl, fun _ _ => rfl, rfl, rfl, fun _ _ => rfl⟩

theorem trans (h : Kept n last s s') (h' : Kept n last s' s'') : Kept n last s s'' :=
  ⟨h'.num.trans h.num, h'.offsets.trans h.offsets, h'.sizeKind.trans h.sizeKind, h'.sizeCap.trans h.sizeCap,
    fun i hi => (h'.size i hi).trans (h.size i hi), h'.valueKind.trans h.valueKind, h'.valueCap.trans h.valueCap,
    fun i hi => (h'.value i hi).trans (h.value i hi), h'.entryKind.trans h.entryKind, h'.entryCap.trans h.entryCap,
    fun i hi => (h'.entry i hi).trans (h.entry i hi)⟩

end Kept

namespace Sim

variable {n : Nat} {o : Nat → Nat} {s : RowStore T V} {M : Family T V} {i : Nat}

theorem le (h : Sim n o s M) {i j : Nat} (hij : i ≤ j) (hj : j ≤ n) : o i ≤ o j := by
  induction j with
  | zero => rw [Nat.le_zero.1 hij]; exact Nat.le_refl _
  | succ j ih =>
    rcases Nat.lt_or_ge i (j + 1) with h1 | h1
    · exact Nat.le_trans (ih (by omega) (by omega)) (h.mono j (by omega))
    · rw [show i = j + 1 by omega]; exact Nat.le_refl _

theorem checkBounds (h : Sim n o s M) (hi : i < n) : s.shape.checkBounds c.values i = .ok () := by
  unfold Shape.checkBounds
  rw [h.num, show decide (n ≤ i) = false by simpa using hi, Bool.and_false]
  rfl

theorem rowCheck (h : Sim n o s M) (hi : i < n) : (M i).shape.checkBounds c.values 0 = .ok () := by
  unfold Shape.checkBounds
  rw [h.rowNum i hi]
  simp

theorem query (h : Sim n o s M) (hi : i < n) (q : Query) {x : Nat} (e : q.exec (strict c) 0 (M i) = .ok x) :
    q.exec c i s = .ok x := by
  cases q with
  | size =>
    simp only [Query.exec, Shape.sizeOfArray, h.rowCheck hi, h.checkBounds hi, bind_ok] at e ⊢
    unfold Buf.read at e ⊢
    have hc := h.sizeCap
    rw [if_pos (h.rowSize i hi).1, (h.rowSize i hi).2] at e
    rw [if_pos (by omega)]
    exact e
  | capacity =>
    simp only [Query.exec, Shape.capacityOfArray, h.rowCheck hi, h.checkBounds hi, bind_ok, (h.rowOff i hi).1, Nat.zero_add,
      (h.rowOff i hi).2, h.off (i + 1) hi, h.off i (Nat.le_of_lt hi), Nat.sub_zero] at e ⊢
    exact e

theorem readValue (h : Sim n o s M) (hi : i < n) {k : Nat} {x : T} (e : Parallel.readValue 0 k (M i) = .ok x) :
    Parallel.readValue i k s = .ok x := by
  unfold Parallel.readValue at e ⊢
  rw [(h.rowOff i hi).1, bind_ok] at e
  rw [h.off i (Nat.le_of_lt hi), bind_ok]
  exact (h.values i hi).read e

theorem readEntry (h : Sim n o s M) (hi : i < n) {k : Nat} {x : V} (e : Parallel.readEntry 0 k (M i) = .ok x) :
    Parallel.readEntry i k s = .ok x := by
  unfold Parallel.readEntry at e ⊢
  rw [(h.rowOff i hi).1, bind_ok] at e
  rw [h.off i (Nat.le_of_lt hi), bind_ok]
  exact (h.entries i hi).read e

/-- Parts of other inner arrays do not notice an access. -/
theorem others (h : Sim n o s M) (hi : i < n) {b b' m m' : Buf X} (w : Away b b' (o i) (o (i + 1) - o i) m m')
    {j : Nat} (hj : j < n) (hij : j ≠ i) {q : Buf X} (hp : Part b (o j) (o (j + 1) - o j) q) :
    Part b' (o j) (o (j + 1) - o j) q := by
  refine ⟨hp.cap, by rw [w.cap]; exact hp.fits, fun k hk => ?_⟩
  rw [hp.cell k hk, w.cell]
  have h1 := h.mono i hi
  have h2 := h.mono j hj
  rcases Nat.lt_or_gt_of_ne hij with hlt | hgt
  · have := h.le (show j + 1 ≤ i from hlt) (Nat.le_of_lt hi)
    left; omega
  · have := h.le (show i + 1 ≤ j from hgt) (Nat.le_of_lt hj)
    right; omega

/-- An access that succeeds on a member of the family succeeds on the store. -/
theorem act (h : Sim n o s M) (hi : i < n) (a : Act T V) {m' : RowStore T V} (e : a.exec (strict c) 0 (M i) = .ok m') :
    ∃ s', a.exec c i s = .ok s' ∧ Sim n o s' (upd M i m') ∧ Kept n (o n) s s' := by
  have hlast : o (i + 1) ≤ o n := h.le hi (Nat.le_refl _)
  have hm := h.mono i hi
  cases a with
  | checkRow =>
    simp only [Act.exec, h.rowCheck hi, h.checkBounds hi, bind_ok] at e ⊢
    cases e
    exact ⟨s, rfl, by rw [Prog.upd_self]; exact h, Kept.refl⟩
  | base =>
    simp only [Act.exec, (h.rowOff i hi).1, h.off i (Nat.le_of_lt hi), bind_ok] at e ⊢
    cases e
    exact ⟨s, rfl, by rw [Prog.upd_self]; exact h, Kept.refl⟩
  | setSize k =>
    have hc := h.sizeCap
    simp only [Act.exec, Shape.setSize, Buf.write, strict, strict1, Cfg.ix, Bool.not_true, Bool.and_false, Bool.false_eq_true, if_false,
      if_pos (h.rowSize i hi).1, if_pos (show i < s.shape.sizes.cap by omega), bind_ok] at e ⊢
    cases e
    refine ⟨_, rfl, ⟨h.num, h.mono, h.off, h.sizeCap, ?_, ?_, ?_, ?_, ?_, ?_, ?_⟩,
      ⟨rfl, rfl, rfl, rfl, fun j hj => upd_ne _ _ (by omega), rfl, rfl, fun _ _ => rfl, rfl, rfl, fun _ _ => rfl⟩⟩
    · intro j hj
      by_cases hij : j = i
      · subst hij; rw [upd_same]; exact h.rowNum j hj
      · rw [upd_ne _ _ hij]; exact h.rowNum j hj
    · intro j hj
      by_cases hij : j = i
      · subst hij; rw [upd_same]; exact h.rowOff j hj
      · rw [upd_ne _ _ hij]; exact h.rowOff j hj
    · intro j hj
      by_cases hij : j = i
      · subst hij; rw [upd_same]; exact ⟨(h.rowSize j hj).1, by simp [upd]⟩
      · rw [upd_ne _ _ hij]; exact ⟨(h.rowSize j hj).1, by simp only [upd, if_neg hij]; exact (h.rowSize j hj).2⟩
    · intro j hj
      by_cases hij : j = i
      · subst hij; rw [upd_same]; exact h.values j hj
      · rw [upd_ne _ _ hij]; exact h.values j hj
    · intro j hj
      by_cases hij : j = i
      · subst hij; rw [upd_same]; exact h.entries j hj
      · rw [upd_ne _ _ hij]; exact h.entries j hj
    · intro hl
      refine h.lostValues fun j hj => ?_
      have := hl j hj
      by_cases hij : j = i
      · subst hij; rw [upd_same] at this; exact this
      · rw [upd_ne _ _ hij] at this; exact this
    · intro hl
      refine h.lostEntries fun j hj => ?_
      have := hl j hj
      by_cases hij : j = i
      · subst hij; rw [upd_same] at this; exact this
      · rw [upd_ne _ _ hij] at this; exact this
  | onValue b =>
    simp only [Act.exec, (h.rowOff i hi).1, h.off i (Nat.le_of_lt hi), bind_ok] at e ⊢
    obtain ⟨mv, e1, e2⟩ := bind_eq_ok.1 e
    cases e2
    obtain ⟨bv, h1, hp, w⟩ := BufAct.sim b (h.values i hi) e1
    rw [h1, bind_ok]
    refine ⟨_, rfl, ⟨h.num, h.mono, h.off, h.sizeCap, ?_, ?_, ?_, ?_, ?_, ?_, ?_⟩,
      ⟨rfl, rfl, rfl, rfl, fun _ _ => rfl, w.kind, w.cap, fun k hk => w.cell k (by omega), rfl, rfl, fun _ _ => rfl⟩⟩
    · intro j hj
      by_cases hij : j = i
      · subst hij; rw [upd_same]; exact h.rowNum j hj
      · rw [upd_ne _ _ hij]; exact h.rowNum j hj
    · intro j hj
      by_cases hij : j = i
      · subst hij; rw [upd_same]; exact h.rowOff j hj
      · rw [upd_ne _ _ hij]; exact h.rowOff j hj
    · intro j hj
      by_cases hij : j = i
      · subst hij; rw [upd_same]; exact h.rowSize j hj
      · rw [upd_ne _ _ hij]; exact h.rowSize j hj
    · intro j hj
      by_cases hij : j = i
      · subst hij; rw [upd_same]; exact hp
      · rw [upd_ne _ _ hij]; exact h.others hi w hj hij (h.values j hj)
    · intro j hj
      by_cases hij : j = i
      · subst hij; rw [upd_same]; exact h.entries j hj
      · rw [upd_ne _ _ hij]; exact h.entries j hj
    · intro hl
      have h0 := hl i hi
      rw [upd_same] at h0
      have hz : s.values.lostLive = 0 := h.lostValues fun j hj => by
        have := hl j hj
        by_cases hij : j = i
        · subst hij; have := w.grows; simp only at h0; omega
        · rw [upd_ne _ _ hij] at this; exact this
      have := w.lost
      simp only at h0 ⊢
      omega
    · intro hl
      refine h.lostEntries fun j hj => ?_
      have := hl j hj
      by_cases hij : j = i
      · subst hij; rw [upd_same] at this; exact this
      · rw [upd_ne _ _ hij] at this; exact this
  | onEntry b =>
    simp only [Act.exec, (h.rowOff i hi).1, h.off i (Nat.le_of_lt hi), bind_ok] at e ⊢
    obtain ⟨mv, e1, e2⟩ := bind_eq_ok.1 e
    cases e2
    obtain ⟨bv, h1, hp, w⟩ := BufAct.sim b (h.entries i hi) e1
    rw [h1, bind_ok]
    refine ⟨_, rfl, ⟨h.num, h.mono, h.off, h.sizeCap, ?_, ?_, ?_, ?_, ?_, ?_, ?_⟩,
      ⟨rfl, rfl, rfl, rfl, fun _ _ => rfl, rfl, rfl, fun _ _ => rfl, w.kind, w.cap, fun k hk => w.cell k (by omega)⟩⟩
    · intro j hj
      by_cases hij : j = i
      · subst hij; rw [upd_same]; exact h.rowNum j hj
      · rw [upd_ne _ _ hij]; exact h.rowNum j hj
    · intro j hj
      by_cases hij : j = i
      · subst hij; rw [upd_same]; exact h.rowOff j hj
      · rw [upd_ne _ _ hij]; exact h.rowOff j hj
    · intro j hj
      by_cases hij : j = i
      · subst hij; rw [upd_same]; exact h.rowSize j hj
      · rw [upd_ne _ _ hij]; exact h.rowSize j hj
    · intro j hj
      by_cases hij : j = i
      · subst hij; rw [upd_same]; exact h.values j hj
      · rw [upd_ne _ _ hij]; exact h.values j hj
    · intro j hj
      by_cases hij : j = i
      · subst hij; rw [upd_same]; exact hp
      · rw [upd_ne _ _ hij]; exact h.others hi w hj hij (h.entries j hj)
    · intro hl
      refine h.lostValues fun j hj => ?_
      have := hl j hj
      by_cases hij : j = i
      · subst hij; rw [upd_same] at this; exact this
      · rw [upd_ne _ _ hij] at this; exact this
    · intro hl
      have h0 := hl i hi
      rw [upd_same] at h0
      have hz : s.entries.lostLive = 0 := h.lostEntries fun j hj => by
        have := hl j hj
        by_cases hij : j = i
        · subst hij; have := w.grows; simp only at h0; omega
        · rw [upd_ne _ _ hij] at this; exact this
      have := w.lost
      simp only at h0 ⊢
      omega

/-- One turn: what is left of a program that can finish on the family can be continued on the store. -/
theorem turn (h : Sim n o s M) {D : Nat → Prop} (hD : ∀ i, D i → i < n) {p : Prog Nat T V α} (hu : p.Uses D) {x : α}
    {M' : Family T V} (e : p.runF (strict c) M = .ok (x, M')) :
    ∃ s' p' N, p.turn c s = .ok (s', p') ∧ Sim n o s' N ∧ Kept n (o n) s s' ∧ p'.Uses D ∧
      p'.runF (strict c) N = .ok (x, M') ∧ (∀ i, ¬ D i → N i = M i) ∧
      p'.turnsF (strict c) N = p.turnsF (strict c) M - 1 ∧ (p.turnsF (strict c) M = 0 → p = .ret x) := by
  cases p with
  | ret y => cases e; exact ⟨s, .ret x, _, rfl, h, Kept.refl, trivial, rfl, fun _ _ => rfl, rfl, fun _ => rfl⟩
  | fail e => cases e
  | act i a next =>
    obtain ⟨m', e1, e2⟩ := bind_eq_ok.1 e
    obtain ⟨s', h1, h2, h3⟩ := h.act (hD i hu.1) a e1
    refine ⟨s', next, _, ?_, h2, h3, hu.2, e2, ?_, ?_, ?_⟩
    · simp only [Prog.turn, h1, bind_ok]
    · intro j hj; exact upd_ne _ _ fun he => hj (he ▸ hu.1)
    · simp only [Prog.turnsF, e1]; omega
    · intro h0; simp only [Prog.turnsF, e1] at h0; omega
  | num i q next =>
    obtain ⟨k, e1, e2⟩ := bind_eq_ok.1 e
    have h1 := h.query (hD i hu.1) q e1
    refine ⟨s, next k, M, ?_, h, Kept.refl, hu.2 k, e2, fun _ _ => rfl, ?_, ?_⟩
    · simp only [Prog.turn, h1, bind_ok]
    · simp only [Prog.turnsF, e1]; omega
    · intro h0; simp only [Prog.turnsF, e1] at h0; omega
  | val i q next =>
    obtain ⟨k, e1, e2⟩ := bind_eq_ok.1 e
    have h1 := h.readValue (hD i hu.1) e1
    refine ⟨s, next k, M, ?_, h, Kept.refl, hu.2 k, e2, fun _ _ => rfl, ?_, ?_⟩
    · simp only [Prog.turn, h1, bind_ok]
    · simp only [Prog.turnsF, e1]; omega
    · intro h0; simp only [Prog.turnsF, e1] at h0; omega
  | ent i q next =>
    obtain ⟨k, e1, e2⟩ := bind_eq_ok.1 e
    have h1 := h.readEntry (hD i hu.1) e1
    refine ⟨s, next k, M, ?_, h, Kept.refl, hu.2 k, e2, fun _ _ => rfl, ?_, ?_⟩
    · simp only [Prog.turn, h1, bind_ok]
    · simp only [Prog.turnsF, e1]; omega
    · intro h0; simp only [Prog.turnsF, e1] at h0; omega

end Sim

/-! ## All schedules -/

/-- In the middle of a parallel loop: every thread alone could finish its work on the family as it is, return `x t` and leave
the members that belong to it as they are in `F`. -/
structure Midway (c : Cfgs) (D : Nat → Nat → Prop) (x : Nat → α) (F : Family T V) (left : Nat → Nat)
    (M : Family T V) (ts : List (Prog Nat T V α)) : Prop where
  uses : ∀ (t : Nat) (p : Prog Nat T V α), ts[t]? = some p → p.Uses (D t)
  run : ∀ (t : Nat) (p : Prog Nat T V α), ts[t]? = some p → ∃ M', p.runF c M = .ok (x t, M') ∧ ∀ i, D t i → M' i = F i
  turns : ∀ (t : Nat) (p : Prog Nat T V α), ts[t]? = some p → p.turnsF c M ≤ left t
  rest : ∀ i : Nat, (∀ t : Nat, t < ts.length → ¬ D t i) → M i = F i

theorem Midway.done {D : Nat → Nat → Prop} {x : Nat → α} {F : Family T V} {left : Nat → Nat} {M : Family T V}
    {ts : List (Prog Nat T V α)} (h : Midway c D x F left M ts) {t : Nat} {p : Prog Nat T V α} (ht : ts[t]? = some p)
    (h0 : left t = 0) : p = .ret (x t) := by
  obtain ⟨M', e, _⟩ := h.run t p ht
  have hz : p.turnsF c M = 0 := by have := h.turns t p ht; omega
  cases p with
  | ret y => cases e; rfl
  | fail e' => cases e
  | act i a next =>
    obtain ⟨m', e1, e2⟩ := bind_eq_ok.1 e
    simp [Prog.turnsF, e1] at hz
  | num i q next =>
    obtain ⟨m', e1, e2⟩ := bind_eq_ok.1 e
    simp [Prog.turnsF, e1] at hz
  | val i q next =>
    obtain ⟨m', e1, e2⟩ := bind_eq_ok.1 e
    simp [Prog.turnsF, e1] at hz
  | ent i q next =>
    obtain ⟨m', e1, e2⟩ := bind_eq_ok.1 e
    simp [Prog.turnsF, e1] at hz

/-- Under every schedule nothing fails; threads with enough turns have returned what they return alone, and when all have
returned the store simulates `F`. -/
theorem interleave_sim {n : Nat} {o : Nat → Nat} {D : Nat → Nat → Prop} {x : Nat → α} {F : Family T V}
    (hD : ∀ t i, D t i → i < n) (hdis : ∀ t u i, D t i → D u i → t = u) :
    ∀ (sched : List Nat) (left : Nat → Nat) (s : RowStore T V) (M : Family T V) (ts : List (Prog Nat T V α)),
      Sim n o s M → Midway (strict c) D x F left M ts →
      ∃ s' ts' N, interleave (Prog.turn c) s ts sched = .ok (s', ts') ∧ ts'.length = ts.length ∧ Kept n (o n) s s' ∧
        Sim n o s' N ∧ Midway (strict c) D x F (fun t => left t - sched.count t) N ts'
  | [], left, s, M, ts, hs, hm => ⟨s, ts, M, rfl, rfl, Kept.refl, hs, by simpa using hm⟩
  | k :: ks, left, s, M, ts, hs, hm => by
    unfold interleave
    cases hk : ts[k]? with
    | none =>
      simp only
      have hlen : ts.length ≤ k := List.getElem?_eq_none_iff.1 hk
      obtain ⟨s', ts', N, h1, h2, h3, h4, h5⟩ := interleave_sim hD hdis ks left s M ts hs hm
      refine ⟨s', ts', N, h1, h2, h3, h4, ⟨h5.uses, h5.run, ?_, h5.rest⟩⟩
      intro t p ht
      have := h5.turns t p ht
      have htl : t < ts'.length := (List.getElem?_eq_some_iff.1 ht).1
      rwa [List.count_cons_of_ne (by omega)]
    | some p =>
      have hkl : k < ts.length := (List.getElem?_eq_some_iff.1 hk).1
      obtain ⟨M', e, hF⟩ := hm.run k p hk
      obtain ⟨s1, p1, N1, t1, t2, t3, t4, t5, t6, t7, _⟩ := hs.turn (c := c) (hD k) (hm.uses k p hk) e
      have hm1 : Midway (strict c) D x F (fun t => if t = k then left t - 1 else left t) N1 (ts.set k p1) := by
        refine ⟨?_, ?_, ?_, ?_⟩
        · intro t q hq
          by_cases htk : t = k
          · subst htk
            rw [List.getElem?_set_self hkl] at hq
            cases hq; exact t4
          · rw [List.getElem?_set_ne (fun h => htk h.symm)] at hq
            exact hm.uses t q hq
        · intro t q hq
          by_cases htk : t = k
          · subst htk
            rw [List.getElem?_set_self hkl] at hq
            cases hq
            exact ⟨M', t5, hF⟩
          · rw [List.getElem?_set_ne (fun h => htk h.symm)] at hq
            obtain ⟨M2, e2, hF2⟩ := hm.run t q hq
            obtain ⟨N2, h1, h2, _⟩ := Prog.runF_local (hm.uses t q hq) e2 (N := N1)
              (fun i hi => t6 i fun hk' => htk (hdis t k i hi hk'))
            exact ⟨N2, h1, fun i hi => (h2 i hi).trans (hF2 i hi)⟩
        · intro t q hq
          by_cases htk : t = k
          · subst htk
            rw [List.getElem?_set_self hkl] at hq
            cases hq
            have := hm.turns t p hk
            simp only [if_true, t7]
            omega
          · rw [List.getElem?_set_ne (fun h => htk h.symm)] at hq
            obtain ⟨M2, e2, hF2⟩ := hm.run t q hq
            obtain ⟨N2, h1, h2, h3⟩ := Prog.runF_local (hm.uses t q hq) e2 (N := N1)
              (fun i hi => t6 i fun hk' => htk (hdis t k i hi hk'))
            rw [h3, if_neg htk]
            exact hm.turns t q hq
        · intro i hi
          rw [List.length_set] at hi
          rw [t6 i (hi k hkl)]
          exact hm.rest i hi
      obtain ⟨s', ts', N, h1, h2, h3, h4, h5⟩ := interleave_sim hD hdis ks _ s1 N1 (ts.set k p1) t2 hm1
      refine ⟨s', ts', N, ?_, ?_, t3.trans h3, h4, ⟨h5.uses, h5.run, ?_, h5.rest⟩⟩
      · simp only [t1, bind_ok]; exact h1
      · rw [h2, List.length_set]
      · intro t q hq
        have := h5.turns t q hq
        by_cases htk : t = k
        · subst htk
          simp only [if_true] at this
          rw [List.count_cons_self]
          omega
        · simp only [if_neg htk] at this
          rw [List.count_cons_of_ne (fun h => htk h.symm)]
          exact this

/-- When all threads have returned the family is `F`. -/
theorem Midway.final {D : Nat → Nat → Prop} {x : Nat → α} {F : Family T V} {left : Nat → Nat} {M : Family T V}
    {ts : List (Prog Nat T V α)} (h : Midway c D x F left M ts) (hr : ∀ (t : Nat) (p : Prog Nat T V α), ts[t]? = some p → ∃ y, p = .ret y)
    (i : Nat) : M i = F i := by
  by_cases hi : ∃ t, t < ts.length ∧ D t i
  · obtain ⟨t, ht, hd⟩ := hi
    have hp : ts[t]? = some ts[t] := List.getElem?_eq_getElem ht
    obtain ⟨M', e, hF⟩ := h.run t _ hp
    obtain ⟨y, hy⟩ := hr t _ hp
    rw [hy] at e
    cases e
    exact hF i hd
  · exact h.rest i fun t ht hd => hi ⟨t, ht, hd⟩

end LvArray.Parallel

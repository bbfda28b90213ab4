import Verif.Spec.Costs

/-!
# Costs of the building blocks
-/

namespace LvArray.Counted

open LvArray.Spec

variable {α β T : Type}

/-! ## Composition -/

theorem costs_op (x : R α) : Costs (op x) x 1 1 where
  returns n a h := ⟨1, Nat.le_refl _, Nat.le_refl _, by subst h; rfl⟩
  fails n e h := by subst h; rfl

theorem costs_free (x : R α) : Costs (free x) x 0 0 where
  returns n a h := ⟨0, Nat.le_refl _, Nat.le_refl _, by subst h; rfl⟩
  fails n e h := by subst h; rfl

theorem costs_pure (a : α) : Costs (pure a) (.ok a) 0 0 where
  returns n b h := ⟨0, Nat.le_refl _, Nat.le_refl _, by cases h; rfl⟩
  fails n e h := by cases h

theorem _root_.LvArray.Spec.Costs.weaken {m : Counted α} {x : R α} {l h l' h' : Nat} (H : Costs m x l h) (hl : l' ≤ l)
    (hh : h ≤ h') : Costs m x l' h' where
  returns n a e := by obtain ⟨k, h1, h2, h3⟩ := H.returns n a e; exact ⟨k, by omega, by omega, h3⟩
  fails := H.fails

/-- The cost only matters when the call returns. -/
theorem _root_.LvArray.Spec.Costs.of_ok {m : Counted α} {x : R α} {l h l' h' : Nat} (H : Costs m x l h)
    (hx : ∀ a, x = .ok a → l' ≤ l ∧ h ≤ h') : Costs m x l' h' where
  returns n a e := by
    obtain ⟨k, h1, h2, h3⟩ := H.returns n a e
    have := hx a e
    exact ⟨k, by omega, by omega, h3⟩
  fails := H.fails

theorem bind_of_ok {m : Counted α} {f : α → Counted β} {n k : Nat} {a : α} (h : m n = .ok (a, k)) : (m >>= f) n = f a k := by
  show (m n >>= fun p => f p.1 p.2) = _
  rw [h]; rfl

theorem bind_of_error {m : Counted α} {f : α → Counted β} {n : Nat} {e : Err} (h : m n = .error e) :
    (m >>= f) n = .error e := by
  show (m n >>= fun p => f p.1 p.2) = _
  rw [h]; rfl

theorem _root_.LvArray.Spec.Costs.bind {m : Counted α} {x : R α} {f : α → Counted β} {g : α → R β} {l h l' h' : Nat}
    (H : Costs m x l h) (F : ∀ a, x = .ok a → Costs (f a) (g a) l' h') : Costs (m >>= f) (x >>= g) (l + l') (h + h') := by
  cases x with
  | error e =>
    refine ⟨fun n b hb => (by cases hb), fun n e' he => ?_⟩
    cases he
    exact bind_of_error (H.fails n e rfl)
  | ok a =>
    refine ⟨fun n b hb => ?_, fun n e he => ?_⟩
    · obtain ⟨k, k1, k2, h1⟩ := H.returns n a rfl
      obtain ⟨j, j1, j2, h2⟩ := (F a rfl).returns (n + k) b hb
      exact ⟨k + j, by omega, by omega, by rw [bind_of_ok h1, h2, Nat.add_assoc]⟩
    · obtain ⟨k, k1, k2, h1⟩ := H.returns n a rfl
      rw [bind_of_ok h1]
      exact (F a rfl).fails (n + k) e he

/-- `bind` where the bounds are to be found afterwards. -/
theorem _root_.LvArray.Spec.Costs.bind' {m : Counted α} {x : R α} {f : α → Counted β} {g : α → R β} {l h l' h' L H' : Nat} (H : Costs m x l h)
    (F : ∀ a, x = .ok a → Costs (f a) (g a) l' h') (hl : L ≤ l + l') (hh : h + h' ≤ H') :
    Costs (m >>= f) (x >>= g) L H' := (H.bind F).weaken hl hh

theorem _root_.LvArray.Spec.Costs.bindPure {m : Counted α} {x : R α} {f : α → β} {l h : Nat} (H : Costs m x l h) :
    Costs (do let a ← m; pure (f a)) (do let a ← x; .ok (f a)) l h :=
  H.bind (fun a _ => costs_pure (f a))

theorem _root_.LvArray.Spec.Costs.thenFree {m : Counted α} {x : R β} {g : R α} {l h : Nat} (H : Costs m g l h) :
    Costs (do let _ ← free x; m) (do let _ ← x; g) l h :=
  ((costs_free x).bind (fun _ _ => H)).weaken (by omega) (by omega)

theorem _root_.LvArray.Spec.Costs.thenOp {f : α → Counted β} {x : R α} {g : α → R β} {l h : Nat} (H : ∀ a, x = .ok a → Costs (f a) (g a) l h) :
    Costs (op x >>= f) (x >>= g) (l + 1) (h + 1) :=
  ((costs_op x).bind H).weaken (by omega) (by omega)

/-! ## Loops -/

/-- The sum of `h( lo ), ..., h( lo + n - 1 )`. -/
def total : Nat → Nat → (Nat → Nat) → Nat
  | 0, _, _ => 0
  | n + 1, lo, h => h lo + total n (lo + 1) h

theorem total_const (k : Nat) : ∀ n lo, total n lo (fun _ => k) = n * k
  | 0, _ => by simp [total]
  | n + 1, lo => by rw [total, total_const k n, Nat.succ_mul, Nat.add_comm]

theorem total_last (h : Nat → Nat) : ∀ n lo, total (n + 1) lo h = total n lo h + h (lo + n)
  | 0, lo => by simp [total]
  | n + 1, lo => by
    rw [total, total_last h n (lo + 1), total]
    have : lo + 1 + n = lo + (n + 1) := by omega
    rw [this]; omega

theorem costs_forUp {σ : Type} {f : Nat → σ → Counted σ} {g : Nat → σ → R σ} (h : Nat → Nat) : ∀ n lo,
    (∀ i, lo ≤ i → i < lo + n → ∀ s, Costs (f i s) (g i s) 0 (h i)) → ∀ s,
    Costs (forUp n lo f s) (LvArray.forUp n lo g s) 0 (total n lo h)
  | 0, _, _, s => costs_pure s
  | n + 1, lo, H, s => by
    unfold forUp LvArray.forUp
    exact (H lo (by omega) (by omega) s).bind' (fun s' _ => costs_forUp h n (lo + 1) (fun i h1 h2 => H i (by omega) (by omega)) s')
      (by omega) (Nat.le_refl _)

theorem costs_forDown {σ : Type} {f : Nat → σ → Counted σ} {g : Nat → σ → R σ} (h : Nat → Nat) : ∀ n lo,
    (∀ i, lo ≤ i → i < lo + n → ∀ s, Costs (f i s) (g i s) 0 (h i)) → ∀ s,
    Costs (forDown n lo f s) (LvArray.forDown n lo g s) 0 (total n lo h)
  | 0, _, _, s => costs_pure s
  | n + 1, lo, H, s => by
    unfold forDown LvArray.forDown
    exact (H (lo + n) (by omega) (by omega) s).bind'
      (fun s' _ => costs_forDown h n lo (fun i h1 h2 => H i (by omega) (by omega)) s') (by omega)
      (by rw [total_last]; omega)

theorem costs_forUp_const {σ : Type} {f : Nat → σ → Counted σ} {g : Nat → σ → R σ} (k n lo : Nat)
    (H : ∀ i s, Costs (f i s) (g i s) 0 k) (s : σ) : Costs (forUp n lo f s) (LvArray.forUp n lo g s) 0 (n * k) := by
  rw [← total_const k n lo]
  exact costs_forUp _ n lo (fun i _ _ => H i) s

theorem costs_forDown_const {σ : Type} {f : Nat → σ → Counted σ} {g : Nat → σ → R σ} (k n lo : Nat)
    (H : ∀ i s, Costs (f i s) (g i s) 0 k) (s : σ) : Costs (forDown n lo f s) (LvArray.forDown n lo g s) 0 (n * k) := by
  rw [← total_const k n lo]
  exact costs_forDown _ n lo (fun i _ _ => H i) s

/-! ## `arrayManipulation` -/

theorem costs_destroy (c : Cfg) (b : Buf T) (p n : Nat) :
    Costs (arrayManipulation.destroy c b p n) (LvArray.arrayManipulation.destroy c b p n) 0 n :=
  (costs_forUp_const 1 n p (fun _ _ => (costs_op _).weaken (by omega) (by omega)) b).weaken (by omega) (by omega)

theorem costs_constructRange (c : Cfg) (b : Buf T) (p n : Nat) (v : Nat → T) :
    Costs (arrayManipulation.constructRange c b p n v) (LvArray.arrayManipulation.constructRange c b p n v) 0 n :=
  (costs_forUp_const 1 n p (fun _ _ => (costs_op _).weaken (by omega) (by omega)) b).weaken (by omega) (by omega)

theorem costs_uninitializedShiftDown (c : Cfg) (b : Buf T) (p size amount : Nat) :
    Costs (arrayManipulation.uninitializedShiftDown c b p size amount)
      (LvArray.arrayManipulation.uninitializedShiftDown c b p size amount) 0 (size * 2) := by
  unfold arrayManipulation.uninitializedShiftDown LvArray.arrayManipulation.uninitializedShiftDown
  split
  · exact (costs_pure b).weaken (by omega) (by omega)
  · refine costs_forUp_const 2 size p (fun j b => ?_) b
    split
    · exact (costs_free _).weaken (by omega) (by omega)
    · exact (Costs.thenOp fun b' _ => costs_op (b'.destroyAt c j)).weaken (by omega) (by omega)

theorem costs_uninitializedShiftUp (c : Cfg) (b : Buf T) (p size amount : Nat) :
    Costs (arrayManipulation.uninitializedShiftUp c b p size amount)
      (LvArray.arrayManipulation.uninitializedShiftUp c b p size amount) 0 (size * 2) := by
  unfold arrayManipulation.uninitializedShiftUp LvArray.arrayManipulation.uninitializedShiftUp
  split
  · exact (costs_pure b).weaken (by omega) (by omega)
  · refine costs_forDown_const 2 size p (fun j b => ?_) b
    exact (Costs.thenOp fun b' _ => costs_op (b'.destroyAt c j)).weaken (by omega) (by omega)

theorem costs_resize (c : Cfg) (b : Buf T) (p size newSize : Nat) (v : T) :
    Costs (arrayManipulation.resize c b p size newSize v) (LvArray.arrayManipulation.resize c b p size newSize v) 0
      ((size - newSize) + (newSize - size)) :=
  (costs_destroy c b _ _).bind (fun b' _ => costs_constructRange c b' _ _ _)

theorem costs_shiftUp (c : Cfg) (b : Buf T) (p size index n : Nat) :
    Costs (arrayManipulation.shiftUp c b p size index n) (LvArray.arrayManipulation.shiftUp c b p size index n) 0
      (2 * (size - index)) := by
  unfold arrayManipulation.shiftUp LvArray.arrayManipulation.shiftUp
  refine Costs.thenFree ?_
  split
  · exact (costs_pure b).weaken (by omega) (by omega)
  · refine (costs_forDown_const 1 _ _ (fun cur b => (costs_op _).weaken (by omega) (by omega)) b).bind'
      (fun b' _ => costs_destroy c b' _ _) (by omega) ?_
    split <;> omega

theorem costs_shiftDown (c : Cfg) (b : Buf T) (p size index n : Nat) :
    Costs (arrayManipulation.shiftDown c b p size index n) (LvArray.arrayManipulation.shiftDown c b p size index n) 0
      (size - index) := by
  unfold arrayManipulation.shiftDown LvArray.arrayManipulation.shiftDown
  refine Costs.thenFree (Costs.thenFree ?_)
  split
  · exact (costs_pure b).weaken (by omega) (by omega)
  · refine (costs_forUp_const 1 _ _ (fun i b => ?_) b).weaken (by omega) (by omega)
    split
    · exact (costs_free _).weaken (by omega) (by omega)
    · exact (costs_op _).weaken (by omega) (by omega)

theorem costs_erase (c : Cfg) (b : Buf T) (p size index n : Nat) :
    Costs (arrayManipulation.erase c b p size index n) (LvArray.arrayManipulation.erase c b p size index n) 0
      ((size - (index + n)) + n) := by
  unfold arrayManipulation.erase LvArray.arrayManipulation.erase
  split
  · exact (costs_pure b).weaken (by omega) (by omega)
  · exact Costs.thenFree (Costs.thenFree ((costs_shiftDown c b _ _ _ _).bind (fun b' _ => costs_destroy c b' _ _)))

theorem costs_emplaceBack (c : Cfg) (b : Buf T) (p size : Nat) (v : T) :
    Costs (arrayManipulation.emplaceBack c b p size v) (LvArray.arrayManipulation.emplaceBack c b p size v) 1 1 :=
  Costs.thenFree (costs_op _)

theorem costs_append [Inhabited T] (c : Cfg) (b : Buf T) (p size : Nat) (vs : List T) :
    Costs (arrayManipulation.append c b p size vs) (LvArray.arrayManipulation.append c b p size vs) 0 vs.length :=
  costs_constructRange c b _ _ _

theorem costs_emplace (c : Cfg) (b : Buf T) (p size index : Nat) (v : T) :
    Costs (arrayManipulation.emplace c b p size index v) (LvArray.arrayManipulation.emplace c b p size index v) 0
      (2 * (size - index) + 1) :=
  Costs.thenFree (Costs.thenFree ((costs_shiftUp c b p size index 1).bind' (fun _ _ => costs_op _) (by omega) (by omega)))

theorem costs_insert [Inhabited T] (c : Cfg) (b : Buf T) (p size index : Nat) (vs : List T) :
    Costs (arrayManipulation.insert c b p size index vs) (LvArray.arrayManipulation.insert c b p size index vs) 0
      (2 * (size - index) + vs.length) :=
  Costs.thenFree (Costs.thenFree ((costs_shiftUp c b p size index _).bind (fun b' _ => costs_constructRange c b' _ _ _)))

/-! ## `bufferManipulation` -/

theorem costs_reallocate (c : Cfg) (b : Buf T) (size newCap : Nat) :
    Costs (reallocate c b size newCap) (b.reallocate c size newCap) 0 (2 * size) := by
  unfold reallocate Buf.reallocate
  cases b.kind with
  | stack => exact (Costs.thenFree (costs_pure b)).weaken (by omega) (by omega)
  | malloc =>
    refine (costs_forUp_const 1 _ _ (fun i s => (costs_op _).weaken (by omega) (by omega)) _).bind'
      (l' := 0) (h' := size) (fun s _ => ?_) (by omega) (by omega)
    exact (costs_destroy c s.2 0 size).bindPure

theorem costs_setCapacity (c : Cfg) (b : Buf T) (size newCap : Nat) :
    Costs (bufferManipulation.setCapacity c b size newCap) (LvArray.bufferManipulation.setCapacity c b size newCap) 0 (2 * size) :=
  Costs.thenFree (costs_reallocate c b size newCap)

theorem costs_dynamicReserve (c : Cfg) (b : Buf T) (size newCap : Nat) :
    Costs (bufferManipulation.dynamicReserve c b size newCap) (LvArray.bufferManipulation.dynamicReserve c b size newCap) 0
      (if b.cap < newCap then 2 * size else 0) := by
  unfold bufferManipulation.dynamicReserve LvArray.bufferManipulation.dynamicReserve
  refine Costs.thenFree ?_
  split
  · exact costs_setCapacity c b size _
  · exact costs_pure b

theorem costs_dynamicReserve_le (c : Cfg) (b : Buf T) (size newCap : Nat) :
    Costs (bufferManipulation.dynamicReserve c b size newCap) (LvArray.bufferManipulation.dynamicReserve c b size newCap) 0
      (2 * size) :=
  (costs_dynamicReserve c b size newCap).weaken (by omega) (by split <;> omega)

theorem costs_bufferEmplaceBack (c : Cfg) (b : Buf T) (size : Nat) (v : T) :
    Costs (bufferManipulation.emplaceBack c b size v) (LvArray.bufferManipulation.emplaceBack c b size v) 0
      ((if b.cap < size + 1 then 2 * size else 0) + 1) :=
  Costs.thenFree ((costs_dynamicReserve c b size _).bind' (fun b' _ => costs_emplaceBack c b' 0 size v) (by omega) (by omega))

theorem costs_bufferEmplace (c : Cfg) (b : Buf T) (size pos : Nat) (v : T) :
    Costs (bufferManipulation.emplace c b size pos v) (LvArray.bufferManipulation.emplace c b size pos v) 0
      (4 * size + 1) :=
  Costs.thenFree ((costs_dynamicReserve_le c b size _).bind' (fun b' _ => costs_emplace c b' 0 size pos v) (by omega) (by omega))

theorem costs_bufferErase (c : Cfg) (b : Buf T) (size pos : Nat) :
    Costs (bufferManipulation.erase c b size pos) (LvArray.bufferManipulation.erase c b size pos) 0 (size + 1) :=
  (Costs.thenFree (Costs.thenFree (costs_erase c b 0 size pos 1))).weaken (by omega) (by omega)

end LvArray.Counted

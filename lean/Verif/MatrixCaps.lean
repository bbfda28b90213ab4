import Verif.MatrixViews
import Verif.RowCaps
import Verif.MachineAoALemmas

/-!
# How much room a `CRSMatrix` has after a call

Helper lemmas for the property about views of a `CRSMatrix`.
-/

namespace LvArray.MatrixCaps

open LvArray.Spec LvArray.RowCaps LvArray.sortedArrayManipulation LvArray.Layout
open LvArray.Counted (KeepsCap KeepsCap.bind keepsCap_ok keepsCap_construct keepsCap_forUp keepsCap_write)

/-! ## What the sorted array functions do not change -/

section
variable {σ T α : Type} [LT T] [DecidableLT T] [DecidableEq T]

/-- The call backs, other than `incrementSize`, and operations that stay in the buffer do not change `Φ`. -/
structure Frame (t : Target σ T) (Φ : σ → α) : Prop where
  modify : ∀ s f s', (∀ b p, KeepsCap b (f b p)) → t.modify s f = .ok s' → Φ s' = Φ s
  insert : ∀ s i s', t.insert s i = .ok s' → Φ s' = Φ s
  set : ∀ s i j s', t.set s i j = .ok s' → Φ s' = Φ s
  insertMany : ∀ s i j k l s', t.insertMany s i j k l = .ok s' → Φ s' = Φ s
  remove : ∀ s i s', t.remove s i = .ok s' → Φ s' = Φ s
  removeMany : ∀ s i j k s', t.removeMany s i j k = .ok s' → Φ s' = Φ s

variable {t : Target σ T} {Φ : σ → α} {c : Cfg}

theorem Frame.insertOne (F : Frame t Φ) {s : σ} {size : Nat} {v : T} {r : σ × Bool} (h : insertOne c t s size v = .ok r) :
    ∃ s1, t.incrementSize s (if r.2 then 1 else 0) = .ok s1 ∧ Φ r.1 = Φ s1 := by
  unfold sortedArrayManipulation.insertOne at h
  obtain ⟨_, _, h⟩ := bind_eq_ok.mp h
  obtain ⟨p, _, h⟩ := bind_eq_ok.mp h
  obtain ⟨q, _, h⟩ := bind_eq_ok.mp h
  split at h
  · obtain ⟨s1, h1, h⟩ := bind_eq_ok.mp h
    cases h
    exact ⟨s1, h1, rfl⟩
  · obtain ⟨s1, h1, h⟩ := bind_eq_ok.mp h
    obtain ⟨s2, h2, h⟩ := bind_eq_ok.mp h
    obtain ⟨s3, h3, h⟩ := bind_eq_ok.mp h
    cases h
    exact ⟨s1, h1, (F.insert _ _ _ h3).trans (F.modify _ _ _ (fun b p => keepsCap_emplace b _ _ _ _) h2)⟩

theorem Frame.insertLoop (F : Frame t Φ) : ∀ (vs : List T) (s : σ) (u k : Nat) (s' : σ), insertLoop c t vs s u k = .ok s' → Φ s' = Φ s
  | [], s, _, _, s', h => by cases h; rfl
  | v :: vs, s, u, k, s', h => by
    rw [sortedArrayManipulation.insertLoop] at h
    obtain ⟨p, _, h⟩ := bind_eq_ok.mp h
    obtain ⟨q, _, h⟩ := bind_eq_ok.mp h
    split at h
    · exact Frame.insertLoop F vs s u k s' h
    · obtain ⟨s1, h1, h⟩ := bind_eq_ok.mp h
      obtain ⟨s2, h2, h⟩ := bind_eq_ok.mp h
      obtain ⟨s3, h3, h⟩ := bind_eq_ok.mp h
      rw [Frame.insertLoop F vs _ _ _ _ h, F.insertMany _ _ _ _ _ _ h3, F.modify _ _ _ (fun b p => ?_) h2,
        F.modify _ _ _ (fun b p => keepsCap_shiftUp b _ _ _ _) h1]
      split
      · exact keepsCap_error
      · exact keepsCap_construct b _ _

theorem Frame.forUp {f : Nat → σ → R σ} (hf : ∀ i s s', f i s = .ok s' → Φ s' = Φ s) :
    ∀ (n lo : Nat) (s s' : σ), forUp n lo f s = .ok s' → Φ s' = Φ s
  | 0, _, s, s', h => by cases h; rfl
  | n + 1, lo, s, s', h => by
    obtain ⟨s1, h1, h⟩ := bind_eq_ok.mp h
    rw [Frame.forUp hf n (lo + 1) s1 s' h, hf _ _ _ h1]

theorem Frame.insertRange [Inhabited T] (F : Frame t Φ) {s : σ} {size : Nat} {vs : List T} {r : σ × Nat}
    (h : insertRange c t s size vs = .ok r) : ∃ s1, t.incrementSize s r.2 = .ok s1 ∧ Φ r.1 = Φ s1 := by
  unfold sortedArrayManipulation.insertRange at h
  obtain ⟨_, _, h⟩ := bind_eq_ok.mp h
  obtain ⟨_, _, h⟩ := bind_eq_ok.mp h
  split at h
  · obtain ⟨s1, h1, h⟩ := bind_eq_ok.mp h
    obtain ⟨s2, h2, h⟩ := bind_eq_ok.mp h
    cases h
    refine ⟨s1, h1, Frame.forUp (fun i s s' e => ?_) _ _ _ _ h2⟩
    obtain ⟨s3, e1, e2⟩ := bind_eq_ok.mp e
    rw [F.set _ _ _ _ e2, F.modify _ _ _ (fun b p => keepsCap_construct b _ _) e1]
  · obtain ⟨k, _, h⟩ := bind_eq_ok.mp h
    obtain ⟨s1, h1, h⟩ := bind_eq_ok.mp h
    split at h
    · rename_i h0
      cases h
      rw [h0] at h1
      exact ⟨s1, h1, rfl⟩
    · obtain ⟨s2, h2, h⟩ := bind_eq_ok.mp h
      cases h
      exact ⟨s1, h1, F.insertLoop _ _ _ _ _ h2⟩

/-- An insertion only depends on the `incrementSize` it calls. -/
theorem insertOne_swap {f : σ → Nat → R σ} {s : σ} {size : Nat} {v : T} {r : σ × Bool} (h : insertOne c t s size v = .ok r)
    (hf : f s (if r.2 then 1 else 0) = t.incrementSize s (if r.2 then 1 else 0)) :
    sortedArrayManipulation.insertOne c { t with incrementSize := f } s size v = .ok r := by
  unfold sortedArrayManipulation.insertOne at h ⊢
  obtain ⟨_, e1, h⟩ := bind_eq_ok.mp h
  obtain ⟨p, e2, h⟩ := bind_eq_ok.mp h
  obtain ⟨q, e3, h⟩ := bind_eq_ok.mp h
  refine bind_eq_ok.mpr ⟨_, e1, bind_eq_ok.mpr ⟨p, e2, bind_eq_ok.mpr ⟨q, e3, ?_⟩⟩⟩
  split at h
  · rename_i hq
    rw [if_pos hq]
    obtain ⟨s1, h1, h⟩ := bind_eq_ok.mp h
    cases h
    exact bind_eq_ok.mpr ⟨s1, hf.trans h1, rfl⟩
  · rename_i hq
    rw [if_neg hq]
    obtain ⟨s1, h1, h⟩ := bind_eq_ok.mp h
    obtain ⟨s2, h2, h⟩ := bind_eq_ok.mp h
    obtain ⟨s3, h3, h⟩ := bind_eq_ok.mp h
    cases h
    exact bind_eq_ok.mpr ⟨s1, hf.trans h1, bind_eq_ok.mpr ⟨s2, h2, bind_eq_ok.mpr ⟨s3, h3, rfl⟩⟩⟩

theorem insertLoop_swap {f : σ → Nat → R σ} : ∀ (vs : List T) (s : σ) (u k : Nat),
    sortedArrayManipulation.insertLoop c { t with incrementSize := f } vs s u k = sortedArrayManipulation.insertLoop c t vs s u k
  | [], _, _, _ => rfl
  | v :: vs, s, u, k => by
    rw [sortedArrayManipulation.insertLoop, sortedArrayManipulation.insertLoop]
    simp only [insertLoop_swap vs]
    rfl

theorem insertRange_swap [Inhabited T] {f : σ → Nat → R σ} {s : σ} {size : Nat} {vs : List T} {r : σ × Nat}
    (h : insertRange c t s size vs = .ok r) (hf : f s r.2 = t.incrementSize s r.2) :
    sortedArrayManipulation.insertRange c { t with incrementSize := f } s size vs = .ok r := by
  unfold sortedArrayManipulation.insertRange at h ⊢
  obtain ⟨_, e1, h⟩ := bind_eq_ok.mp h
  obtain ⟨_, e2, h⟩ := bind_eq_ok.mp h
  refine bind_eq_ok.mpr ⟨_, e1, bind_eq_ok.mpr ⟨_, e2, ?_⟩⟩
  split at h
  · rename_i hz
    rw [if_pos hz]
    obtain ⟨s1, h1, h⟩ := bind_eq_ok.mp h
    obtain ⟨s2, h2, h⟩ := bind_eq_ok.mp h
    cases h
    exact bind_eq_ok.mpr ⟨s1, hf.trans h1, bind_eq_ok.mpr ⟨s2, h2, rfl⟩⟩
  · rename_i hz
    rw [if_neg hz]
    obtain ⟨k, e3, h⟩ := bind_eq_ok.mp h
    obtain ⟨s1, h1, h⟩ := bind_eq_ok.mp h
    refine bind_eq_ok.mpr ⟨k, e3, ?_⟩
    split at h
    · rename_i h0
      cases h
      rw [h0] at h1
      refine bind_eq_ok.mpr ⟨s1, ?_, ?_⟩
      · rw [h0]; exact hf.trans h1
      · rw [if_pos h0]
    · rename_i h0
      obtain ⟨s2, h2, h⟩ := bind_eq_ok.mp h
      cases h
      refine bind_eq_ok.mpr ⟨s1, hf.trans h1, ?_⟩
      rw [if_neg h0, insertLoop_swap]
      exact bind_eq_ok.mpr ⟨s2, h2, rfl⟩

theorem Frame.removeOne (F : Frame t Φ) {s : σ} {size : Nat} {v : T} {r : σ × Bool} (h : removeOne c t s size v = .ok r) :
    Φ r.1 = Φ s := by
  unfold sortedArrayManipulation.removeOne at h
  obtain ⟨p, _, h⟩ := bind_eq_ok.mp h
  obtain ⟨q, _, h⟩ := bind_eq_ok.mp h
  split at h
  · obtain ⟨s1, h1, h⟩ := bind_eq_ok.mp h
    obtain ⟨s2, h2, h⟩ := bind_eq_ok.mp h
    cases h
    rw [F.remove _ _ _ h2, F.modify _ _ _ (fun b p => keepsCap_erase b _ _ _ _) h1]
  · cases h; rfl

theorem Frame.removeLoop (F : Frame t Φ) {size : Nat} : ∀ (fuel : Nat) (s : σ) (pos k : Nat) (vs : List T) (r : σ × Nat),
    removeLoop c t size fuel s pos k vs = .ok r → Φ r.1 = Φ s
  | _, s, _, _, [], r, h => by rw [sortedArrayManipulation.removeLoop] at h; cases h; rfl
  | 0, s, _, _, _ :: _, r, h => by rw [sortedArrayManipulation.removeLoop] at h; cases h; rfl
  | fuel + 1, s, pos, k, _ :: rest, r, h => by
    rw [sortedArrayManipulation.removeLoop] at h
    obtain ⟨⟨np, nx⟩, _, h⟩ := bind_eq_ok.mp h
    obtain ⟨s1, h1, h⟩ := bind_eq_ok.mp h
    obtain ⟨s2, h2, h⟩ := bind_eq_ok.mp h
    have e := (F.removeMany _ _ _ _ _ h2).trans (F.modify _ _ _ (fun b p => keepsCap_shiftDown b _ _ _ _) h1)
    by_cases hh : (if nx.isEmpty then size else np) = size
    · simp only [if_pos hh] at h
      cases h; exact e
    · simp only [if_neg hh] at h
      rw [Frame.removeLoop F fuel _ _ _ _ r h]; exact e

theorem Frame.removeRange (F : Frame t Φ) {s : σ} {size : Nat} {vs : List T} {r : σ × Nat}
    (h : removeRange c t s size vs = .ok r) : Φ r.1 = Φ s := by
  unfold sortedArrayManipulation.removeRange at h
  obtain ⟨_, _, h⟩ := bind_eq_ok.mp h
  obtain ⟨_, _, h⟩ := bind_eq_ok.mp h
  obtain ⟨⟨p, rest⟩, _, h⟩ := bind_eq_ok.mp h
  simp only at h
  split at h
  · cases h; rfl
  · obtain ⟨⟨s1, k⟩, h1, h⟩ := bind_eq_ok.mp h
    obtain ⟨s2, h2, h⟩ := bind_eq_ok.mp h
    cases h
    rw [F.modify _ _ _ (fun b p => keepsCap_destroy b _ _) h2]
    exact F.removeLoop _ _ _ _ _ _ h1

end

/-! ## The matrix -/

variable {V : Type} {c : Cfg} {m m' : Crs V}

/-- How much room the buffers have. -/
def roomC (m : Crs V) : Four Nat := ⟨m.shape.sizes.cap, m.shape.offsets.cap, m.columns.cap, m.entries.cap⟩

/-- What the functions on a row leave alone, apart from making room. -/
def fixed (m : Crs V) : Shape × Nat × Nat × Nat := (m.shape, m.columns.cap, m.entries.cap, m.numCols)

theorem frame {own : Bool} {row nnz cap : Nat} {es : List V} : Frame (Crs.target c own row nnz cap es) (fixed (V := V)) where
  modify := fun s f s' hf h => by
    obtain ⟨b, h1, h⟩ := bind_eq_ok.mp h
    cases h
    show fixed { s with columns := b } = _
    unfold fixed
    simp only
    rw [show b.cap = s.columns.cap from (hf _ _ b h1).1]
  insert := fun s i s' h => by
    change (match es[0]? with
      | some e => arrayManipulation.emplace c s.entries (s.rowPtr row) nnz i e >>= fun entries => Except.ok { s with entries := entries }
      | none => .error (.ub .outOfBounds)) = .ok s' at h
    split at h
    · obtain ⟨b, h1, h⟩ := bind_eq_ok.mp h
      cases h
      unfold fixed
      simp only
      rw [(keepsCap_emplace _ _ _ _ _ b h1).1]
    · cases h
  set := fun s i j s' h => by
    change (match es[j]? with
      | some e => s.entries.construct c (s.rowPtr row + i) e >>= fun entries => Except.ok { s with entries := entries }
      | none => .error (.ub .outOfBounds)) = .ok s' at h
    split at h
    · obtain ⟨b, h1, h⟩ := bind_eq_ok.mp h
      cases h
      unfold fixed
      simp only
      rw [(keepsCap_construct _ _ _ b h1).1]
    · cases h
  insertMany := fun s i j k l s' h => by
    change (match es[j]? with
      | some e => arrayManipulation.shiftUp c s.entries (s.rowPtr row) l k i >>= fun entries =>
          entries.construct c (s.rowPtr row + (k + i - 1)) e >>= fun entries => Except.ok { s with entries := entries }
      | none => .error (.ub .outOfBounds)) = .ok s' at h
    split at h
    · obtain ⟨b, h1, h⟩ := bind_eq_ok.mp h
      obtain ⟨d, h2, h⟩ := bind_eq_ok.mp h
      cases h
      unfold fixed
      simp only
      rw [(keepsCap_construct _ _ _ d h2).1, (keepsCap_shiftUp _ _ _ _ _ b h1).1]
    · cases h
  remove := fun s i s' h => by
    obtain ⟨b, h1, h⟩ := bind_eq_ok.mp h
    cases h
    unfold fixed
    simp only
    rw [(keepsCap_erase _ _ _ _ _ b h1).1]
  removeMany := fun s i j k s' h => by
    obtain ⟨b, h1, h⟩ := bind_eq_ok.mp h
    cases h
    unfold fixed
    simp only
    rw [(keepsCap_shiftDown _ _ _ _ _ b h1).1]

/-- The rows start where they started, in as much room. -/
structure Stays (m m' : Crs V) : Prop where
  offsets : m'.shape.offsets = m.shape.offsets
  room : roomC m' = roomC m

theorem Stays.refl (m : Crs V) : Stays m m := ⟨rfl, rfl⟩

theorem Stays.trans {m1 : Crs V} (h1 : Stays m m1) (h2 : Stays m1 m') : Stays m m' :=
  ⟨h2.offsets.trans h1.offsets, h2.room.trans h1.room⟩

theorem stays_of_fixed (h : fixed m' = fixed m) : Stays m m' := by
  unfold fixed at h
  simp only [Prod.mk.injEq] at h
  obtain ⟨h1, h2, h3, _⟩ := h
  exact ⟨by rw [h1], by unfold roomC; rw [h1, h2, h3]⟩

theorem stays_setSize {i n : Nat} {s : Shape} (h : m.shape.setSize c i n = .ok s) : Stays m { m with shape := s } :=
  ⟨(setSize_room h).2, by unfold roomC; simp only; rw [(setSize_room h).1, (setSize_room h).2]⟩

theorem stays_entries {b : Buf V} (h : b.cap = m.entries.cap) : Stays m { m with entries := b } :=
  ⟨rfl, by unfold roomC; simp only; rw [h]⟩

theorem setSize_read {s s' : Shape} {i n : Nat} (h : s.setSize c i n = .ok s') : s'.sizes.read i = .ok n := by
  obtain ⟨z, h1, h⟩ := bind_eq_ok.mp h
  cases h
  exact write_read h1

/-- An insertion makes room and does nothing else to the room. -/
theorem insert_stays {ci : Cfg} {own : Bool} {row k nnz cap : Nat} {e : V} {r : Crs V × Bool} (h1 : m.shape.sizeOfArray c row = .ok nnz)
    (h2 : m.shape.capacityOfArray c row = .ok cap) (h : m.insertNonZeroIn ci c own row k e = .ok r) :
    ∃ m1, (Crs.target c own row nnz cap [e]).incrementSize m (if r.2 then 1 else 0) = .ok m1 ∧ Stays m1 r.1 ∧
      r.1.shape.sizes.read row = .ok (nnz + if r.2 then 1 else 0) := by
  unfold Crs.insertNonZeroIn at h
  rw [h1, bind_ok, h2, bind_ok] at h
  obtain ⟨_, _, h⟩ := bind_eq_ok.mp h
  obtain ⟨q, hq, h⟩ := bind_eq_ok.mp h
  obtain ⟨s, hs, h⟩ := bind_eq_ok.mp h
  cases h
  obtain ⟨m1, k1, k2⟩ := frame.insertOne hq
  exact ⟨m1, k1, (stays_of_fixed k2).trans (stays_setSize hs), setSize_read hs⟩

theorem insertMany_stays {ci : Cfg} {own : Bool} {row nnz cap : Nat} {ks : List Nat} {es : List V} {r : Crs V × Nat}
    (h1 : m.shape.sizeOfArray c row = .ok nnz)
    (h2 : m.shape.capacityOfArray c row = .ok cap) (h : m.insertNonZerosIn ci c own row ks es = .ok r) :
    ∃ m1, (Crs.target c own row nnz cap es).incrementSize m r.2 = .ok m1 ∧ Stays m1 r.1 ∧
      r.1.shape.sizes.read row = .ok (nnz + r.2) := by
  unfold Crs.insertNonZerosIn at h
  rw [h1, bind_ok, h2, bind_ok] at h
  obtain ⟨_, _, h⟩ := bind_eq_ok.mp h
  obtain ⟨q, hq, h⟩ := bind_eq_ok.mp h
  obtain ⟨s, hs, h⟩ := bind_eq_ok.mp h
  cases h
  obtain ⟨m1, k1, k2⟩ := frame.insertRange hq
  exact ⟨m1, k1, (stays_of_fixed k2).trans (stays_setSize hs), setSize_read hs⟩

theorem remove_stays {ci : Cfg} {row k : Nat} {r : Crs V × Bool} (h : m.removeNonZeroIn ci c row k = .ok r) : Stays m r.1 := by
  unfold Crs.removeNonZeroIn at h
  obtain ⟨_, _, h⟩ := bind_eq_ok.mp h
  obtain ⟨_, _, h⟩ := bind_eq_ok.mp h
  obtain ⟨_, _, h⟩ := bind_eq_ok.mp h
  obtain ⟨q, hq, h⟩ := bind_eq_ok.mp h
  obtain ⟨s, hs, h⟩ := bind_eq_ok.mp h
  cases h
  exact (stays_of_fixed (frame.removeOne hq)).trans (stays_setSize hs)

theorem removeMany_stays {ci : Cfg} {row : Nat} {ks : List Nat} {r : Crs V × Nat} (h : m.removeNonZerosIn ci c row ks = .ok r) :
    Stays m r.1 := by
  unfold Crs.removeNonZerosIn at h
  obtain ⟨_, _, h⟩ := bind_eq_ok.mp h
  obtain ⟨_, _, h⟩ := bind_eq_ok.mp h
  obtain ⟨_, _, h⟩ := bind_eq_ok.mp h
  obtain ⟨q, hq, h⟩ := bind_eq_ok.mp h
  obtain ⟨s, hs, h⟩ := bind_eq_ok.mp h
  obtain ⟨b, hb, h⟩ := bind_eq_ok.mp h
  cases h
  exact ((stays_of_fixed (frame.removeRange hq)).trans (stays_setSize hs)).trans
    (stays_entries (keepsCap_destroy _ _ _ b hb).1)

theorem setValues_stays {v : V} (h : m.setValues c v = .ok m') : Stays m m' := by
  obtain ⟨b, hb, h⟩ := bind_eq_ok.mp h
  cases h
  exact stays_entries ((keepsCap_forUp (fun i b => keepsCap_bindVal fun _ => keepsCap_bindVal fun _ =>
    keepsCap_forUp (fun j b => keepsCap_write b _ _) _ _ _) _ _ _) b hb).1

section
variable [Add V]

theorem addAt_stays {row pos : Nat} {v : V} (h : m.addAt c row pos v = .ok m') : Stays m m' := by
  unfold Crs.addAt at h
  obtain ⟨x, hx, h⟩ := bind_eq_ok.mp h
  obtain ⟨b, hb, h⟩ := bind_eq_ok.mp h
  cases h
  exact stays_entries (keepsCap_write _ _ _ b hb).1

theorem binaryLoop_stays {row nnz : Nat} : ∀ (args : List (Nat × V)) (m : Crs V) (p : Nat) (m' : Crs V),
    Crs.binaryLoop c row nnz m p args = .ok m' → Stays m m'
  | [], m, _, m', h => by cases h; exact .refl m
  | (k, v) :: args, m, p, m', h => by
    rw [Crs.binaryLoop] at h
    split at h
    · cases h
    obtain ⟨_, _, h⟩ := bind_eq_ok.mp h
    obtain ⟨_, _, h⟩ := bind_eq_ok.mp h
    obtain ⟨m1, h1, h⟩ := bind_eq_ok.mp h
    exact (addAt_stays h1).trans (binaryLoop_stays args m1 _ m' h)

theorem linearLoop_stays {row nnz : Nat} : ∀ (args : List (Nat × V)) (m : Crs V) (p : Nat) (m' : Crs V),
    Crs.linearLoop c row nnz m p args = .ok m' → Stays m m'
  | [], m, _, m', h => by cases h; exact .refl m
  | (k, v) :: args, m, p, m', h => by
    rw [Crs.linearLoop] at h
    obtain ⟨_, _, h⟩ := bind_eq_ok.mp h
    obtain ⟨_, _, h⟩ := bind_eq_ok.mp h
    obtain ⟨m1, h1, h⟩ := bind_eq_ok.mp h
    exact (addAt_stays h1).trans (linearLoop_stays args m1 _ m' h)

theorem unsortedLoop_stays {row nnz : Nat} : ∀ (args : List (Nat × V)) (m : Crs V) (m' : Crs V),
    Crs.unsortedLoop c row nnz m args = .ok m' → Stays m m'
  | [], m, m', h => by cases h; exact .refl m
  | (k, v) :: args, m, m', h => by
    rw [Crs.unsortedLoop] at h
    obtain ⟨_, _, h⟩ := bind_eq_ok.mp h
    obtain ⟨_, _, h⟩ := bind_eq_ok.mp h
    obtain ⟨m1, h1, h⟩ := bind_eq_ok.mp h
    exact (addAt_stays h1).trans (unsortedLoop_stays args m1 m' h)

theorem addToRow_stays {how : AddVariant} {row : Nat} {args : List (Nat × V)} {colMax : Nat} {out : AoSOut (Nat ⊕ V)}
    (h : m.step c colMax (.addToRow how row args) = .ok (m', out)) : Stays m m' := by
  have hb : ∀ {m'}, m.addToRowBinarySearch c row args = .ok m' → Stays m m' := by
    intro m' h
    unfold Crs.addToRowBinarySearch at h
    obtain ⟨_, _, h⟩ := bind_eq_ok.mp h
    obtain ⟨_, _, h⟩ := bind_eq_ok.mp h
    obtain ⟨_, _, h⟩ := bind_eq_ok.mp h
    obtain ⟨_, _, h⟩ := bind_eq_ok.mp h
    exact binaryLoop_stays _ _ _ _ h
  have hl : ∀ {m'}, m.addToRowLinearSearch c row args = .ok m' → Stays m m' := by
    intro m' h
    unfold Crs.addToRowLinearSearch at h
    obtain ⟨_, _, h⟩ := bind_eq_ok.mp h
    obtain ⟨_, _, h⟩ := bind_eq_ok.mp h
    obtain ⟨_, _, h⟩ := bind_eq_ok.mp h
    obtain ⟨_, _, h⟩ := bind_eq_ok.mp h
    exact linearLoop_stays _ _ _ _ h
  cases how with
  | auto =>
    obtain ⟨m1, h1, h⟩ := bind_eq_ok.mp h
    cases h
    unfold Crs.addToRow at h1
    obtain ⟨_, _, h1⟩ := bind_eq_ok.mp h1
    split at h1
    · exact hb h1
    · exact hl h1
  | binary =>
    obtain ⟨m1, h1, h⟩ := bind_eq_ok.mp h
    cases h
    exact hb h1
  | linear =>
    obtain ⟨m1, h1, h⟩ := bind_eq_ok.mp h
    cases h
    exact hl h1
  | unsorted =>
    obtain ⟨m1, h1, h⟩ := bind_eq_ok.mp h
    cases h
    unfold Crs.addToRowBinarySearchUnsorted at h1
    obtain ⟨_, _, h1⟩ := bind_eq_ok.mp h1
    obtain ⟨_, _, h1⟩ := bind_eq_ok.mp h1
    obtain ⟨_, _, h1⟩ := bind_eq_ok.mp h1
    exact unsortedLoop_stays _ _ _ h1

end

/-! ## Making room -/

section
variable {L A B : Layout (Nat × V)} {xs : List (Nat × V)} {cap : Nat}

theorem total_map {X Y : Type} (g : X → Y) (L : Layout X) : Layout.total (mapL g L) = Layout.total L := by
  unfold Layout.total mapL
  simp [Function.comp_def]

theorem setCapacity_roomC (h : CGood m (A ++ (xs, cap) :: B)) {n : Nat} (ha : m.setCapacityOfArray c A.length n = .ok m') :
    roomC m' = ⟨m.shape.sizes.cap, m.shape.offsets.cap, grownBy 2 m.columns.cap (Layout.total (A ++ (xs.take n, n) :: B)),
      grownBy 2 m.entries.cap (Layout.total (A ++ (xs.take n, n) :: B))⟩ := by
  have h1 := h.cols
  have h2 := h.ents
  rw [mapL_append, mapL_cons] at h1 h2
  have o1 := h1.setCapacity (c := c.ix) n
  rw [mapL_length] at o1
  rcases o1 with ⟨_, a1, e1, _⟩ | ⟨o1, _⟩
  · rw [Crs.setCapacity_pair e1] at ha
    obtain ⟨a2, e2, ha⟩ := bind_eq_ok.mp ha
    cases ha
    rw [← mapL_length (g := Prod.fst) A] at e1
    rw [← mapL_length (g := Prod.snd) A] at e2
    have r1 := setCapacity_room h1 e1
    have r2 := setCapacity_room h2 e2
    have t1 : Layout.total (mapL Prod.fst A ++ ((xs.map Prod.fst).take n, n) :: mapL Prod.fst B) =
        Layout.total (A ++ (xs.take n, n) :: B) := by simp [total_map]
    have t2 : Layout.total (mapL Prod.snd A ++ ((xs.map Prod.snd).take n, n) :: mapL Prod.snd B) =
        Layout.total (A ++ (xs.take n, n) :: B) := by simp [total_map]
    simp only at r1 r2
    rw [t1] at r1
    rw [t2] at r2
    unfold roomOf at r1 r2
    simp only [Three.mk.injEq] at r1 r2
    unfold roomC
    simp only [Four.mk.injEq]
    exact ⟨r2.1, r2.2.1, r1.2.2, r2.2.2⟩
  · exact absurd (.inr (.inl rfl)) o1

theorem matRoom_one {op : CrsOp V} (h : ∀ n, matGrowth op n = n) (room need : Nat) : matRoom op room need = grownBy 1 room need := by
  unfold matRoom grownBy tooSmall
  rw [h, Nat.one_mul]
  simp

theorem matRoom_two {op : CrsOp V} (h : ∀ n, matGrowth op n = 2 * n) (room need : Nat) : matRoom op room need = grownBy 2 room need := by
  unfold matRoom grownBy tooSmall
  rw [h]
  simp

theorem matRoom_le {op : CrsOp V} {room need : Nat} (h : need ≤ room) : matRoom op room need = room := by
  unfold matRoom tooSmall
  rw [if_neg (by simpa using h)]

/-- Where the rows start, and the room, after a call. -/
structure After (m m' : Crs V) (op : CrsOp V) (caps : List Nat) : Prop where
  offsets : RepM m'.shape.offsets (offs caps)
  room : roomC m' = ⟨matRoom op m.shape.sizes.cap (matNeeds op caps).sizes, matRoom op m.shape.offsets.cap (matNeeds op caps).offsets,
    matRoom op m.columns.cap (matNeeds op caps).values, matRoom op m.entries.cap (matNeeds op caps).values⟩

/-- A call on a row. -/
theorem after_row {op : CrsOp V} {m1 : Crs V} (h : CGood m1 L) (hst : Stays m1 m') (hg : ∀ n, matGrowth op n = 2 * n)
    (hn : matNeeds op L.caps = ⟨0, 0, L.caps.sum⟩)
    (hr : roomC m1 = ⟨m.shape.sizes.cap, m.shape.offsets.cap, grownBy 2 m.columns.cap (total L), grownBy 2 m.entries.cap (total L)⟩) :
    After m m' op L.caps := by
  refine ⟨?_, ?_⟩
  · rw [hst.offsets]; exact ShGood.off h.shape
  · rw [hst.room, hr, hn]
    simp only
    rw [matRoom_le (Nat.zero_le _), matRoom_le (Nat.zero_le _), matRoom_two hg, matRoom_two hg]
    rfl

theorem fitsC (h : CGood m L) : total L ≤ m.columns.cap := by have := h.layC.room; rwa [total_map] at this
theorem fitsE (h : CGood m L) : total L ≤ m.entries.cap := by have := h.layE.room; rwa [total_map] at this

theorem roomC_same (h : CGood m L) :
    roomC m = ⟨m.shape.sizes.cap, m.shape.offsets.cap, grownBy 2 m.columns.cap (total L), grownBy 2 m.entries.cap (total L)⟩ := by
  unfold grownBy
  rw [if_neg (by have := fitsC h; omega), if_neg (by have := fitsE h; omega)]
  rfl

/-- A call that needs no room. -/
theorem after_stays {op : CrsOp V} (h : CGood m L) (hst : Stays m m') (hn : matNeeds op L.caps = ⟨0, 0, L.caps.sum⟩)
    (hg : ∀ n, matGrowth op n = 2 * n) : After m m' op L.caps :=
  after_row h hst hg hn (roomC_same h)

theorem modify_mid {A B : List Nat} {x : Nat} {f : Nat → Nat} : (A ++ x :: B).modify A.length f = A ++ f x :: B := by
  induction A with
  | nil => rfl
  | cons a A ih => simp [ih]

end

section
variable {L : Layout (Nat × V)}

theorem reserveValues_roomC (h : CGood m L) {n : Nat} (ha : m.reserveValues c n = .ok m') :
    m'.shape = m.shape ∧ roomC m' = ⟨m.shape.sizes.cap, m.shape.offsets.cap, grownBy 1 m.columns.cap n, grownBy 1 m.entries.cap n⟩ := by
  unfold Crs.reserveValues at ha
  obtain ⟨b, hb, ha⟩ := bind_eq_ok.mp ha
  obtain ⟨d, hd, ha⟩ := bind_eq_ok.mp ha
  cases ha
  unfold Shape.reserveValues at hb hd
  obtain ⟨_, _, hb⟩ := bind_eq_ok.mp hb
  obtain ⟨_, _, hd⟩ := bind_eq_ok.mp hd
  refine ⟨rfl, ?_⟩
  unfold roomC grownBy
  simp only
  rw [(grows_reserve _ _ _ h.layC.kind b hb).1, (grows_reserve _ _ _ h.layE.kind d hd).1, Nat.one_mul]

theorem resize_roomC (h : CWeak m L) (h1 : m.shape.offsets.kind = .malloc) (h2 : m.shape.sizes.kind = .malloc) {colMax r n k : Nat}
    (hn : n ≤ colMax + 1) (ha : m.resize c colMax r n k = .ok m') :
    roomC m' = ⟨grownBy 1 m.shape.sizes.cap r, grownBy 1 m.shape.offsets.cap (r + 1),
      grownBy 1 m.columns.cap (total (L.take r ++ List.replicate (r - L.length) ([], k))),
      grownBy 1 m.entries.cap (total (L.take r ++ List.replicate (r - L.length) ([], k)))⟩ := by
  have t1 : ∀ {X : Type} (g : Nat × V → X), total ((mapL g L).take r ++ List.replicate (r - (mapL g L).length) ([], k)) =
      total (L.take r ++ List.replicate (r - L.length) ([], k)) := by
    intro X g
    rw [← mapL_take, total_append, total_append, total_map, mapL_length]
    simp [total]
  have c1 : ∃ a1, m.cols.resize c.ix r k = .ok a1 := by
    unfold Crs.resize at ha
    obtain ⟨_, _, ha⟩ := bind_eq_ok.mp ha
    unfold AoA.resize
    split at ha
    · rename_i hr
      rw [if_pos hr]
      obtain ⟨b, hb, ha⟩ := bind_eq_ok.mp ha
      obtain ⟨d, hd, ha⟩ := bind_eq_ok.mp ha
      obtain ⟨s, hs, ha⟩ := bind_eq_ok.mp ha
      have hs' : m.shape.dropRows c.ix r = .ok s := hs
      exact ⟨_, by simp only [hb, hs', bind_ok]; rfl⟩
    · rename_i hr
      rw [if_neg hr]
      obtain ⟨s, hs, ha⟩ := bind_eq_ok.mp ha
      obtain ⟨b, hb, ha⟩ := bind_eq_ok.mp ha
      have hs' : m.shape.addRows c.ix r k = .ok s := hs
      exact ⟨_, by simp only [hb, hs', bind_ok]; rfl⟩
  obtain ⟨a1, e1⟩ := c1
  rw [Crs.resize_pair hn e1] at ha
  obtain ⟨a2, e2, ha⟩ := bind_eq_ok.mp ha
  cases ha
  have r1 := resize_room h.cols h1 h2 e1
  have r2 := resize_room h.ents h1 h2 e2
  rw [t1] at r1 r2
  unfold roomOf at r1 r2
  simp only [Three.mk.injEq] at r1 r2
  unfold roomC
  simp only [Four.mk.injEq]
  exact ⟨r2.1, r2.2.1, r1.2.2, r2.2.2⟩

theorem resizeFrom_roomC (h : CGood m L) {colMax n : Nat} {ks : List Nat} (ha : m.resizeFromRowCapacities c colMax n ks = .ok m') :
    roomC m' = ⟨grownBy 1 m.shape.sizes.cap ks.length, grownBy 1 m.shape.offsets.cap (ks.length + 1),
      grownBy 1 m.columns.cap ks.sum, grownBy 1 m.entries.cap ks.sum⟩ := by
  unfold Crs.resizeFromRowCapacities at ha
  obtain ⟨_, _, ha⟩ := bind_eq_ok.mp ha
  obtain ⟨b, hb, ha⟩ := bind_eq_ok.mp ha
  obtain ⟨d, hd, ha⟩ := bind_eq_ok.mp ha
  obtain ⟨s, hs, ha⟩ := bind_eq_ok.mp ha
  obtain ⟨b1, hb1, ha⟩ := bind_eq_ok.mp ha
  obtain ⟨d1, hd1, ha⟩ := bind_eq_ok.mp ha
  cases ha
  have ko : m.shape.offsets.kind = .malloc := (ShGood.off h.shape).2
  have kz : m.shape.sizes.kind = .malloc := (ShGood.siz h.shape).2
  obtain ⟨k1, k2⟩ := fromCapacities_room ko kz hs
  obtain ⟨s', e1, e2⟩ := h.weak.shape.fromCapacities (c := c) ks
  rw [hs] at e1
  cases e1
  unfold Shape.fromCapacitiesReserve at hb1 hd1
  rw [ShGood.readLast e2, bind_ok] at hb1 hd1
  have k3 := (grows_reserve _ _ _ ((destroyValues_room hb).2.trans h.layC.kind) b1 hb1).1
  have k4 := (grows_reserve _ _ _ ((destroyValues_room hd).2.trans h.layE.kind) d1 hd1).1
  unfold roomC
  simp only
  rw [k1, k2, k3, k4, (destroyValues_room hb).1, (destroyValues_room hd).1]
  unfold grownBy
  simp only [Nat.one_mul]

theorem compress_roomC (ha : m.compress c = .ok m') : roomC m' = roomC m := by
  unfold Crs.compress at ha
  obtain ⟨⟨s1, b⟩, hb, ha⟩ := bind_eq_ok.mp ha
  obtain ⟨⟨s2, d⟩, hd, ha⟩ := bind_eq_ok.mp ha
  cases ha
  obtain ⟨k1, k2, k3⟩ := compress_room hb
  obtain ⟨l1, l2, l3⟩ := compress_room hd
  unfold roomC
  simp only
  rw [l1, l2, k3, l3]

end

/-! ## Calls on the matrix -/

theorem counts_eq (h : CrsGood m M) (hg : CGood m L) (hL : L.map (·.1) = M.rows.map (rowList M.numCols)) : M.counts = L.map (·.1.length) := by
  have := congrArg (List.map List.length) hL
  simp only [List.map_map, Function.comp_def] at this
  rw [this]
  unfold Matrix.counts
  simp [columnsOf_length]

theorem count_at (hm : CrsGood m M) {i n : Nat} (hi : i < M.rows.length) (hr : m.shape.sizes.read i = .ok n) : M.count i = n := by
  obtain ⟨A, cap, B, rfl, hg, _⟩ := hm.at_ (i := i) (List.getElem?_eq_getElem hi)
  have hs := hg.shape.sizeOfAt (c := ⟨true, false, false⟩) rfl
  have hs' : m.shape.sizes.read A.length = .ok (rowList M.numCols M.rows[A.length]).length := by
    obtain ⟨_, _, hs⟩ := bind_eq_ok.mp hs
    exact hs
  rw [hr] at hs'
  unfold Matrix.count Matrix.counts
  rw [List.getElem?_map, List.getElem?_eq_getElem hi]
  simp only [Option.map_some, Option.getD_some]
  rw [columnsOf_length]
  exact (Except.ok.inj hs').symm

section
variable {M M' : Spec.Matrix V} {L A B : Layout (Nat × V)} {xs : List (Nat × V)} {cap : Nat}

/-- Making room for `n` more non zeros in a row. -/
theorem after_increment {op : CrsOp V} {m1 : Crs V} {es : List V} {n : Nat} (h : CGood m (A ++ (xs, cap) :: B))
    (hx : xs.length ≤ m.numCols) (hinc : (Crs.target c true A.length xs.length cap es).incrementSize m n = .ok m1) (hst : Stays m1 m')
    (hg : ∀ n, matGrowth op n = 2 * n) (hn : ∀ caps, matNeeds op caps = ⟨0, 0, caps.sum⟩) :
    After m m' op (A.caps ++ (if cap < xs.length + n then min m.numCols (2 * (xs.length + n)) else cap) :: B.caps) := by
  change (if cap < xs.length + n then m.setRowCapacity c A.length (2 * (xs.length + n)) else .ok m) = .ok m1 at hinc
  split at hinc
  · rename_i hcap
    rw [if_pos hcap]
    rcases h.setRowCapacity (c := c) hx (2 * (xs.length + n)) with ⟨m2, e1, _, e3⟩ | ⟨_, e1⟩
    · rw [e1] at hinc
      cases hinc
      have r := setCapacity_roomC h e1
      have := after_row (m := m) (op := op) e3 hst hg (hn _) (by
        rw [r]
        simp [total_append, total_cons])
      simpa [SpGood.clip_min, Nat.min_comm] using this
    · rw [e1] at hinc; cases hinc
  · rename_i hcap
    cases hinc
    rw [if_neg hcap]
    have := after_stays (op := op) h hst (hn _) hg
    simpa using this

variable [Add V]

/-- **Every legal call** leaves the rows with the capacities and the buffers with the room that the specification says. -/
theorem step_after {colMax : Nat} (hm : CrsGood m M) (h : CGood m L) (hL : L.map (·.1) = M.rows.map (rowList M.numCols))
    {op : CrsOp V} {out : AoSOut (Nat ⊕ V)} (hs : crsStep colMax M op = some (M', out)) (e : m.step c colMax op = .ok (m', out))
    (hm' : CrsGood m' M') : After m m' op (capsAfter M M' L.caps op) := by
  have hlen : L.length = M.rows.length := by simpa using congrArg List.length hL
  have rowAt : ∀ {i : Nat} {f : Nat → Option V}, M.rows[i]? = some f →
      ∃ (A : Layout (Nat × V)) (cap : Nat) (B : Layout (Nat × V)), A.length = i ∧ L = A ++ (rowList M.numCols f, cap) :: B := by
    intro i f hf
    obtain ⟨hlt, _⟩ := List.getElem?_eq_some_iff.1 hf
    obtain ⟨A, xs, cap, B, rfl, rfl, hx⟩ := split1 (by omega : i < L.length)
    have := congrArg (·[A.length]?) hL
    simp at this
    rw [hf] at this
    have hxs : xs = rowList M.numCols f := (by simpa using this : rowList M.numCols f = xs).symm
    subst hxs
    exact ⟨A, cap, B, rfl, rfl⟩
  cases op with
  | insert i k v =>
    simp only [crsStep] at hs
    split at hs
    · obtain ⟨f, hf, _, rfl, rfl⟩ := CrsGood.onRow_some hs
      obtain ⟨A, cap, B, rfl, rfl⟩ := rowAt hf
      obtain ⟨r, hr, e⟩ := bind_eq_ok.mp e
      obtain rfl : r.1 = m' := (Prod.mk.inj (Except.ok.inj e)).1
      obtain ⟨m1, k1, k2, k3⟩ := insert_stays (h.shape.sizeOfAt rfl) (h.shape.capacityOfAt rfl) hr
      have hc := count_at hm' (i := A.length) (by
        obtain ⟨hlt, _⟩ := List.getElem?_eq_some_iff.1 hf
        simpa using hlt) k3
      have := after_increment (op := .insert A.length k v) h (by rw [hm.cols]; exact CrsGood.rowList_length_le _ _) k1 k2 (fun _ => rfl)
        (fun _ => rfl)
      simp only [capsAfter]
      rw [hc]
      simp only [caps_append, caps_cons]
      rw [show A.length = A.caps.length by simp [caps], modify_mid]
      rw [show A.length = A.caps.length by simp [caps], hm.cols] at this
      exact this
    · cases hs
  | insertMany i args =>
    simp only [crsStep] at hs
    split at hs
    · obtain ⟨f, hf, _, rfl, rfl⟩ := CrsGood.onRow_some hs
      obtain ⟨A, cap, B, rfl, rfl⟩ := rowAt hf
      obtain ⟨r, hr, e⟩ := bind_eq_ok.mp e
      obtain rfl : r.1 = m' := (Prod.mk.inj (Except.ok.inj e)).1
      obtain ⟨m1, k1, k2, k3⟩ := insertMany_stays (h.shape.sizeOfAt rfl) (h.shape.capacityOfAt rfl) hr
      have hc := count_at hm' (i := A.length) (by
        obtain ⟨hlt, _⟩ := List.getElem?_eq_some_iff.1 hf
        simpa using hlt) k3
      have := after_increment (op := .insertMany A.length args) h (by rw [hm.cols]; exact CrsGood.rowList_length_le _ _) k1 k2 (fun _ => rfl)
        (fun _ => rfl)
      simp only [capsAfter]
      rw [hc]
      simp only [caps_append, caps_cons]
      rw [show A.length = A.caps.length by simp [caps], modify_mid]
      rw [show A.length = A.caps.length by simp [caps], hm.cols] at this
      exact this
    · cases hs
  | remove i k =>
    obtain ⟨r, hr, e⟩ := bind_eq_ok.mp e
    cases e
    exact after_stays h (remove_stays hr) rfl (fun _ => rfl)
  | removeMany i ks =>
    obtain ⟨r, hr, e⟩ := bind_eq_ok.mp e
    cases e
    exact after_stays h (removeMany_stays hr) rfl (fun _ => rfl)
  | isEmpty i k =>
    obtain ⟨r, hr, e⟩ := bind_eq_ok.mp e
    cases e
    exact after_stays h (.refl _) rfl (fun _ => rfl)
  | getColumn i k =>
    obtain ⟨r, hr, e⟩ := bind_eq_ok.mp e
    cases e
    exact after_stays h (.refl _) rfl (fun _ => rfl)
  | getEntry i k =>
    obtain ⟨r, hr, e⟩ := bind_eq_ok.mp e
    cases e
    exact after_stays h (.refl _) rfl (fun _ => rfl)
  | setRowCapacity i n =>
    simp only [crsStep] at hs
    obtain ⟨f, hf, _, rfl, rfl⟩ := CrsGood.onRow_some hs
    obtain ⟨A, cap, B, rfl, rfl⟩ := rowAt hf
    obtain ⟨r, hr, e⟩ := bind_eq_ok.mp e
    cases e
    rcases h.setRowCapacity (c := c) (by rw [hm.cols]; exact CrsGood.rowList_length_le _ _) n with ⟨m2, e1, _, e3⟩ | ⟨_, e1⟩
    · rw [e1] at hr
      cases hr
      have r := setCapacity_roomC h e1
      have := after_row (m := m) (op := .setRowCapacity A.length n) e3 (.refl _) (fun _ => rfl) rfl (by
        rw [r]
        simp [total_append, total_cons])
      simp only [capsAfter, caps_append, caps_cons]
      rw [show A.length = A.caps.length by simp [caps], modify_mid, ← hm.cols]
      rw [show A.length = A.caps.length by simp [caps]] at this
      simpa [SpGood.clip_min, Nat.min_comm] using this
    · rw [e1] at hr; cases hr
  | reserveNonZeros i n =>
    simp only [crsStep] at hs
    obtain ⟨f, hf, _, rfl, rfl⟩ := CrsGood.onRow_some hs
    obtain ⟨A, cap, B, rfl, rfl⟩ := rowAt hf
    obtain ⟨r, hr, e⟩ := bind_eq_ok.mp e
    cases e
    unfold Crs.reserveNonZeros at hr
    rw [h.shape.capacityOfAt rfl, bind_ok] at hr
    simp only [capsAfter, caps_append, caps_cons]
    rw [show A.length = A.caps.length by simp [caps], modify_mid, ← hm.cols]
    rw [show A.length = A.caps.length by simp [caps]] at hr
    by_cases hn : n ≤ cap
    · rw [if_pos hn] at hr
      cases hr
      rw [if_neg (by omega)]
      have := after_stays (op := .reserveNonZeros A.caps.length n) h (.refl _) rfl (fun _ => rfl)
      simpa using this
    · rw [if_neg hn] at hr
      rw [if_pos (by omega)]
      rw [show A.caps.length = A.length by simp [caps]] at hr ⊢
      rcases h.setRowCapacity (c := c) (by rw [hm.cols]; exact CrsGood.rowList_length_le _ _) n with ⟨m2, e1, _, e3⟩ | ⟨_, e1⟩
      · rw [e1] at hr
        cases hr
        have r := setCapacity_roomC h e1
        have := after_row (m := m) (op := .reserveNonZeros A.length n) e3 (.refl _) (fun _ => rfl) rfl (by
          rw [r]
          simp [total_append, total_cons])
        simpa [SpGood.clip_min, Nat.min_comm] using this
      · rw [e1] at hr; cases hr
  | reserveNonZerosTotal n =>
    obtain ⟨r, hr, e⟩ := bind_eq_ok.mp e
    cases e
    obtain ⟨k1, k2⟩ := reserveValues_roomC h hr
    refine ⟨?_, ?_⟩
    · rw [k1]; exact ShGood.off h.shape
    · rw [k2]
      simp only [matNeeds]
      rw [matRoom_le (Nat.zero_le _), matRoom_le (Nat.zero_le _), matRoom_one (fun _ => rfl), matRoom_one (fun _ => rfl)]
  | resize r n k =>
    simp only [crsStep] at hs
    split at hs
    · rename_i hr
      simp only [Option.some.injEq, Prod.mk.injEq] at hs
      obtain ⟨rfl, rfl⟩ := hs
      obtain ⟨m1, h1, e⟩ := bind_eq_ok.mp e
      cases e
      have ko : m.shape.offsets.kind = .malloc := (ShGood.off h.shape).2
      have kz : m.shape.sizes.kind = .malloc := (ShGood.siz h.shape).2
      have kr := resize_roomC h.weak ko kz hr.1 h1
      have hcaps : capsAfter M { numCols := n, rows := M.rows.take r ++ List.replicate (r - M.rows.length) (fun _ => none) } L.caps
          (.resize r n k) = caps (L.take r ++ List.replicate (r - L.length) ([], k)) := by
        simp [capsAfter, caps]
      rw [hcaps]
      refine ⟨?_, ?_⟩
      · by_cases hlt : r < L.length
        · have hLr : L = L.take r ++ L.drop r := (List.take_append_drop r L).symm
          have hB : L.drop r ≠ [] := by
            intro e; have := congrArg List.length e; simp at this; omega
          have hw := h.weak
          rw [hLr] at hw
          obtain ⟨m2, q1, _, q3⟩ := hw.resizeShrink (c := c) hB hr.1 k
          rw [List.length_take, Nat.min_eq_left (by omega), h1] at q1
          cases q1
          rw [show r - L.length = 0 by omega]
          simpa using ShGood.off q3.shape
        · rcases h.weak.resizeGrow (c := c) hr.1 r k (by omega) with ⟨m2, q1, _, q3⟩ | ⟨_, q1⟩
          · rw [h1] at q1
            cases q1
            rw [List.take_of_length_le (by omega)]
            exact ShGood.off q3.shape
          · rw [h1] at q1; cases q1
      · rw [kr]
        simp only [matNeeds, caps_sum]
        rw [matRoom_one (fun _ => rfl), matRoom_one (fun _ => rfl), matRoom_one (fun _ => rfl), matRoom_one (fun _ => rfl)]
    · cases hs
  | resizeFromRowCapacities n ks =>
    simp only [crsStep] at hs
    split at hs
    · rename_i hr
      obtain ⟨m1, h1, e⟩ := bind_eq_ok.mp e
      cases e
      obtain ⟨m2, q1, _, q3⟩ := h.weak.resizeFrom (c := c) hr ks
      rw [h1] at q1
      cases q1
      refine ⟨?_, ?_⟩
      · have := ShGood.off q3.shape
        simpa [capsAfter, caps, Function.comp_def] using this
      · rw [resizeFrom_roomC h h1]
        simp only [matNeeds]
        rw [matRoom_one (fun _ => rfl), matRoom_one (fun _ => rfl), matRoom_one (fun _ => rfl), matRoom_one (fun _ => rfl)]
    · cases hs
  | compress =>
    obtain ⟨m1, h1, e⟩ := bind_eq_ok.mp e
    cases e
    obtain ⟨m2, q1, _, q3⟩ := h.compress (c := c)
    rw [h1] at q1
    cases q1
    have hc : capsAfter M M' L.caps .compress = caps (L.map LShape.tight) := by
      simp only [capsAfter]
      rw [counts_eq hm h hL]
      simp [caps, LShape.tight]
    rw [hc]
    have hle : total (L.map LShape.tight) ≤ total L := tight_le (fun r hr => by
      have := h.layC.fits (r.1.map (·.1), r.2) (by unfold mapL; exact List.mem_map.2 ⟨r, hr, rfl⟩)
      simpa using this)
    refine ⟨ShGood.off q3.shape, ?_⟩
    rw [compress_roomC h1]
    simp only [matNeeds, caps_sum]
    have := fitsC h
    have := fitsE h
    rw [matRoom_le (Nat.zero_le _), matRoom_le (Nat.zero_le _), matRoom_le (by omega), matRoom_le (by omega)]
    rfl
  | numNonZeros =>
    obtain ⟨r, hr, e⟩ := bind_eq_ok.mp e
    cases e
    exact after_stays h (.refl _) rfl (fun _ => rfl)
  | setValues v =>
    obtain ⟨r, hr, e⟩ := bind_eq_ok.mp e
    cases e
    exact after_stays h (setValues_stays hr) rfl (fun _ => rfl)
  | addToRow how i args => exact after_stays h (addToRow_stays e) rfl (fun _ => rfl)

/-- A row that gets no more room had enough. -/
theorem count_le_cap {i : Nat} {caps : List Nat} {n : Nat} (hi : i < caps.length) (hc : M'.count i ≤ n)
    (h : caps.modify i (fun cap => if cap < M'.count i then min n (2 * M'.count i) else cap) = caps) : M'.count i ≤ caps[i] := by
  by_cases hlt : caps[i] < M'.count i
  · have := congrArg (·[i]?) h
    simp only [List.getElem?_modify, if_true, List.getElem?_eq_getElem hi, Option.map_eq_map, Option.map_some, Option.some.injEq] at this
    rw [if_pos hlt] at this
    omega
  · omega

theorem count_set {f : Nat → Option V} {i : Nat} (hi : i < M.rows.length) :
    Matrix.count { M with rows := M.rows.set i f } i = (rowList M.numCols f).length := by
  unfold Matrix.count Matrix.counts
  simp [hi, columnsOf_length]

/-- The two versions of `incrementSize` agree when the row is large enough. -/
theorem increment_same {row nnz cap n : Nat} {es : List V} (h : nnz + n ≤ cap) :
    (Crs.target c false row nnz cap es).incrementSize m n = (Crs.target c true row nnz cap es).incrementSize m n := by
  show (errorIf (c.boundsCheck && decide (cap < nnz + n)) >>= fun _ => .ok m) =
    (if cap < nnz + n then m.setRowCapacity c row (2 * (nnz + n)) else .ok m)
  rw [if_neg (by omega), show decide (cap < nnz + n) = false from by simpa using h, Bool.and_false]
  rfl

/-- **Through a view** a legal call that needs no more room does what the call on the matrix does. -/
theorem viewStep_eq {colMax : Nat} (hm : CrsGood m M) (h : CGood m L) (hL : L.map (·.1) = M.rows.map (rowList M.numCols))
    {op : CrsOp V} {out : AoSOut (Nat ⊕ V)} (hv : op.onView = true) (hs : crsStep colMax M op = some (M', out))
    (e : m.step c colMax op = .ok (m', out)) (hm' : CrsGood m' M') (hc : capsAfter M M' L.caps op = L.caps) :
    m.viewStep c op = .ok (m', out) := by
  have hlen : L.length = M.rows.length := by simpa using congrArg List.length hL
  have rowAt : ∀ {i : Nat} {f : Nat → Option V}, M.rows[i]? = some f →
      ∃ (A : Layout (Nat × V)) (cap : Nat) (B : Layout (Nat × V)), A.length = i ∧ L = A ++ (rowList M.numCols f, cap) :: B := by
    intro i f hf
    obtain ⟨hlt, _⟩ := List.getElem?_eq_some_iff.1 hf
    obtain ⟨A, xs, cap, B, rfl, rfl, hx⟩ := split1 (by omega : i < L.length)
    have := congrArg (·[A.length]?) hL
    simp at this
    rw [hf] at this
    have hxs : xs = rowList M.numCols f := (by simpa using this : rowList M.numCols f = xs).symm
    subst hxs
    exact ⟨A, cap, B, rfl, rfl⟩
  cases op with
  | insert i k v =>
    simp only [crsStep] at hs
    split at hs
    · obtain ⟨f, hf, _, rfl, rfl⟩ := CrsGood.onRow_some hs
      obtain ⟨A, cap, B, rfl, rfl⟩ := rowAt hf
      obtain ⟨hlt, _⟩ := List.getElem?_eq_some_iff.1 hf
      have hcap := count_le_cap (by simp) (by rw [count_set hlt]; exact CrsGood.rowList_length_le _ _) hc
      obtain ⟨r, hr, e⟩ := bind_eq_ok.mp e
      obtain ⟨m1, k1, k2, k3⟩ := insert_stays (h.shape.sizeOfAt rfl) (h.shape.capacityOfAt rfl) hr
      have hcount := count_at hm' (i := A.length) (by simpa using hlt) (by
        obtain rfl : r.1 = m' := (Prod.mk.inj (Except.ok.inj e)).1
        exact k3)
      refine bind_eq_ok.mpr ⟨r, ?_, e⟩
      have hr' : m.insertNonZeroIn c.ix c true A.length k v = .ok r := hr
      show m.insertNonZeroIn c.ix c false A.length k v = .ok r
      unfold Crs.insertNonZeroIn at hr' ⊢
      rw [h.shape.sizeOfAt rfl, bind_ok, h.shape.capacityOfAt rfl, bind_ok] at hr' ⊢
      obtain ⟨_, q3, hr'⟩ := bind_eq_ok.mp hr'
      obtain ⟨q, q4, hr'⟩ := bind_eq_ok.mp hr'
      obtain ⟨s, q5, hr'⟩ := bind_eq_ok.mp hr'
      have hq : q.2 = r.2 := by
        injection hr' with h0
        rw [← h0]
      refine bind_eq_ok.mpr ⟨_, q3, bind_eq_ok.mpr ⟨q, insertOne_swap q4 (increment_same ?_), bind_eq_ok.mpr ⟨s, q5, hr'⟩⟩⟩
      rw [hcount] at hcap
      rw [hq]
      simpa using hcap
    · cases hs
  | insertMany i args =>
    simp only [crsStep] at hs
    split at hs
    · obtain ⟨f, hf, _, rfl, rfl⟩ := CrsGood.onRow_some hs
      obtain ⟨A, cap, B, rfl, rfl⟩ := rowAt hf
      obtain ⟨hlt, _⟩ := List.getElem?_eq_some_iff.1 hf
      have hcap := count_le_cap (by simp) (by rw [count_set hlt]; exact CrsGood.rowList_length_le _ _) hc
      obtain ⟨r, hr, e⟩ := bind_eq_ok.mp e
      obtain ⟨m1, k1, k2, k3⟩ := insertMany_stays (h.shape.sizeOfAt rfl) (h.shape.capacityOfAt rfl) hr
      have hcount := count_at hm' (i := A.length) (by simpa using hlt) (by
        obtain rfl : r.1 = m' := (Prod.mk.inj (Except.ok.inj e)).1
        exact k3)
      refine bind_eq_ok.mpr ⟨r, ?_, e⟩
      have hr' : m.insertNonZerosIn c.ix c true A.length (args.map (·.1)) (args.map (·.2)) = .ok r := hr
      show m.insertNonZerosIn c.ix c false A.length (args.map (·.1)) (args.map (·.2)) = .ok r
      unfold Crs.insertNonZerosIn at hr' ⊢
      rw [h.shape.sizeOfAt rfl, bind_ok, h.shape.capacityOfAt rfl, bind_ok] at hr' ⊢
      obtain ⟨_, q3, hr'⟩ := bind_eq_ok.mp hr'
      obtain ⟨q, q4, hr'⟩ := bind_eq_ok.mp hr'
      obtain ⟨s, q5, hr'⟩ := bind_eq_ok.mp hr'
      have hq : q.2 = r.2 := by
        injection hr' with h0
        rw [← h0]
      refine bind_eq_ok.mpr ⟨_, q3, bind_eq_ok.mpr ⟨q, insertRange_swap q4 (increment_same ?_), bind_eq_ok.mpr ⟨s, q5, hr'⟩⟩⟩
      rw [hcount] at hcap
      rw [hq]
      simpa using hcap
    · cases hs
  | setRowCapacity _ _ | reserveNonZeros _ _ | reserveNonZerosTotal _ | resize _ _ _ | resizeFromRowCapacities _ _ | compress => cases hv
  | addToRow how i args => cases how <;> exact e
  | _ => exact e

end

/-- The offsets of a matrix say what the capacities of its rows are. -/
theorem caps_unique {b : Buf Nat} {xs ys : List Nat} (h1 : RepM b (offs xs)) (h2 : RepM b (offs ys)) : xs = ys := by
  have hc : cellsOf (offs xs) = cellsOf (offs ys) := h1.1.1.symm.trans h2.1.1
  have hget : ∀ (i : Nat), (offs xs)[i]? = (offs ys)[i]? := by
    intro i
    have := congrFun hc i
    unfold cellsOf at this
    cases h3 : (offs xs)[i]? <;> cases h4 : (offs ys)[i]? <;> simp_all
  have heq : offs xs = offs ys := List.ext_getElem? hget
  have hl : xs.length = ys.length := by
    have := congrArg List.length heq
    simpa using this
  refine List.ext_getElem hl fun i hi hi' => ?_
  have a1 := hget i
  have a2 := hget (i + 1)
  rw [offs_get xs (by omega), offs_get ys (by omega)] at a1 a2
  have b1 := take_sum_succ xs hi
  have b2 := take_sum_succ ys hi'
  simp only [Option.some.injEq] at a1 a2
  omega

end LvArray.MatrixCaps

import Verif.SetViews
import Verif.SortedArrayLemmas
import Verif.RowCaps

/-!
# How much room a `SortedArray` has after a call, and what a view of it sees

Helper lemmas for the property about views of a `SortedArray`.
-/

namespace LvArray.SetCaps

open LvArray.Spec LvArray.RowCaps LvArray.sortedArrayManipulation
open LvArray.Counted (KeepsCap KeepsCap.bind keepsCap_ok keepsCap_construct keepsCap_forUp)

variable {T : Type} {c : Cfg}

section
variable [LT T] [DecidableLT T] [DecidableEq T]

theorem modify_target {n : Nat} {b : Buf T} {f : Buf T → Nat → R (Buf T)} : (SortedArr.target c n).modify b f = f b 0 := by
  show (f b 0 >>= fun b => Except.ok b) = _
  cases f b 0 <;> rfl

/-- What a single insertion does to the room. -/
theorem insertOne_room {n size : Nat} {b : Buf T} {v : T} {r : Buf T × Bool} (hk : b.kind = .malloc)
    (h : insertOne c (SortedArr.target c n) b size v = .ok r) :
    r.1.cap = if b.cap < n + (if r.2 then 1 else 0) then 2 * (n + (if r.2 then 1 else 0)) else b.cap := by
  unfold insertOne at h
  obtain ⟨_, _, h⟩ := bind_eq_ok.mp h
  obtain ⟨p, _, h⟩ := bind_eq_ok.mp h
  obtain ⟨q, _, h⟩ := bind_eq_ok.mp h
  split at h
  · obtain ⟨b1, h1, h⟩ := bind_eq_ok.mp h
    cases h
    exact (grows_dynamicReserve b n (n + 0) hk b1 h1).1
  · obtain ⟨b1, h1, h⟩ := bind_eq_ok.mp h
    obtain ⟨b2, h2, h⟩ := bind_eq_ok.mp h
    obtain ⟨b3, h3, h⟩ := bind_eq_ok.mp h
    cases h; cases h3
    rw [modify_target] at h2
    rw [if_pos rfl, (keepsCap_emplace b1 _ _ _ _ b2 h2).1]
    exact (grows_dynamicReserve b n (n + 1) hk b1 h1).1

theorem keepsCap_insertLoop {n : Nat} : ∀ (vs : List T) (b : Buf T) (u k : Nat), KeepsCap b (insertLoop c (SortedArr.target c n) vs b u k)
  | [], b, _, _ => keepsCap_ok b
  | v :: vs, b, u, k => by
    rw [insertLoop]
    refine keepsCap_bindVal fun pos => keepsCap_bindVal fun q => ?_
    split
    · exact keepsCap_insertLoop vs b u k
    · simp only [modify_target]
      refine (keepsCap_shiftUp b _ _ _ _).bind fun b1 => KeepsCap.bind ?_ fun b2 => ?_
      · split
        · exact keepsCap_error
        · exact keepsCap_construct b1 _ _
      · exact (keepsCap_ok b2).bind fun b3 => keepsCap_insertLoop vs b3 _ _

theorem insertRange_room [Inhabited T] {n size : Nat} {b : Buf T} {vs : List T} {r : Buf T × Nat} (hk : b.kind = .malloc)
    (h : insertRange c (SortedArr.target c n) b size vs = .ok r) :
    r.1.cap = if b.cap < n + r.2 then 2 * (n + r.2) else b.cap := by
  unfold insertRange at h
  obtain ⟨_, _, h⟩ := bind_eq_ok.mp h
  obtain ⟨_, _, h⟩ := bind_eq_ok.mp h
  split at h
  · obtain ⟨b1, h1, h⟩ := bind_eq_ok.mp h
    obtain ⟨b2, h2, h⟩ := bind_eq_ok.mp h
    cases h
    have k : KeepsCap b1 (forUp vs.length 0 (fun i s => do
      let s ← (SortedArr.target c n).modify s (fun b p => b.construct c (p + i) (vs.getD i default))
      (SortedArr.target c n).set s i i) b1) := by
      refine keepsCap_forUp (fun i b => ?_) _ _ _
      simp only [modify_target]
      exact (keepsCap_construct b _ _).bind fun b' => keepsCap_ok b'
    rw [(k b2 h2).1]
    exact (grows_dynamicReserve b n (n + vs.length) hk b1 h1).1
  · obtain ⟨k, _, h⟩ := bind_eq_ok.mp h
    obtain ⟨b1, h1, h⟩ := bind_eq_ok.mp h
    have g := (grows_dynamicReserve b n (n + k) hk b1 h1).1
    split at h
    · rename_i h0
      cases h
      rw [h0] at g
      exact g
    · obtain ⟨b2, h2, h⟩ := bind_eq_ok.mp h
      cases h
      rw [(keepsCap_insertLoop _ _ _ _ b2 h2).1]
      exact g

theorem removeOne_room {n size : Nat} {b : Buf T} {v : T} {r : Buf T × Bool} (h : removeOne c (SortedArr.target c n) b size v = .ok r) :
    r.1.cap = b.cap := by
  unfold removeOne at h
  obtain ⟨p, _, h⟩ := bind_eq_ok.mp h
  obtain ⟨q, _, h⟩ := bind_eq_ok.mp h
  split at h
  · obtain ⟨b1, h1, h⟩ := bind_eq_ok.mp h
    obtain ⟨b2, h2, h⟩ := bind_eq_ok.mp h
    cases h; cases h2
    rw [modify_target] at h1
    exact (keepsCap_erase b _ _ _ _ b1 h1).1
  · cases h; rfl

theorem removeLoop_room {n size : Nat} : ∀ (fuel : Nat) (b : Buf T) (pos k : Nat) (vs : List T) (r : Buf T × Nat),
    removeLoop c (SortedArr.target c n) size fuel b pos k vs = .ok r → r.1.cap = b.cap
  | _, b, _, _, [], r, h => by rw [removeLoop] at h; cases h; rfl
  | 0, b, _, _, _ :: _, r, h => by rw [removeLoop] at h; cases h; rfl
  | fuel + 1, b, pos, k, _ :: rest, r, h => by
    rw [removeLoop] at h
    obtain ⟨⟨np, nx⟩, _, h⟩ := bind_eq_ok.mp h
    obtain ⟨b1, h1, h⟩ := bind_eq_ok.mp h
    obtain ⟨b2, h2, h⟩ := bind_eq_ok.mp h
    cases h2
    rw [modify_target] at h1
    have e := (keepsCap_shiftDown b _ _ _ _ b1 h1).1
    by_cases hh : (if nx.isEmpty then size else np) = size
    · simp only [if_pos hh] at h
      cases h; exact e
    · simp only [if_neg hh] at h
      rw [removeLoop_room fuel _ _ _ _ r h]; exact e

theorem removeRange_room {n size : Nat} {b : Buf T} {vs : List T} {r : Buf T × Nat}
    (h : removeRange c (SortedArr.target c n) b size vs = .ok r) : r.1.cap = b.cap := by
  unfold removeRange at h
  obtain ⟨_, _, h⟩ := bind_eq_ok.mp h
  obtain ⟨_, _, h⟩ := bind_eq_ok.mp h
  obtain ⟨⟨p, rest⟩, _, h⟩ := bind_eq_ok.mp h
  simp only at h
  split at h
  · cases h; rfl
  · obtain ⟨⟨b1, k⟩, h1, h⟩ := bind_eq_ok.mp h
    obtain ⟨b2, h2, h⟩ := bind_eq_ok.mp h
    cases h
    rw [modify_target] at h2
    rw [(keepsCap_destroy b1 _ _ b2 h2).1]
    exact removeLoop_room _ _ _ _ _ _ h1

end

section
variable [LinearOrder T]

/-- The room after a call. -/
theorem step_room [Inhabited T] {a a' : SortedArr T} {S' : Finset T} {op : SetOp T} {o : SetOut T} (g' : SGood none a' S') (hk : a.buf.kind = .malloc) (h : a.step c op = .ok (a', o)) :
    a'.buf.cap = if a.buf.cap < (roomNeeded op S').1 then (roomNeeded op S').2 else a.buf.cap := by
  have hs := g'.size
  cases op with
  | insert v =>
    obtain ⟨⟨x, y⟩, h1, h⟩ := bind_eq_ok.mp h
    cases h
    unfold SortedArr.insert at h1
    obtain ⟨r, h2, h1⟩ := bind_eq_ok.mp h1
    cases h1
    simp only at hs
    rw [roomNeeded, ← hs]
    exact insertOne_room hk h2
  | insertMany vs =>
    obtain ⟨⟨x, y⟩, h1, h⟩ := bind_eq_ok.mp h
    cases h
    unfold SortedArr.insertMany at h1
    obtain ⟨r, h2, h1⟩ := bind_eq_ok.mp h1
    cases h1
    simp only at hs
    rw [roomNeeded, ← hs]
    exact insertRange_room hk h2
  | remove v =>
    obtain ⟨⟨x, y⟩, h1, h⟩ := bind_eq_ok.mp h
    cases h
    unfold SortedArr.remove at h1
    obtain ⟨r, h2, h1⟩ := bind_eq_ok.mp h1
    cases h1
    simp only [roomNeeded, Nat.not_lt_zero, if_false]
    exact removeOne_room h2
  | removeMany vs =>
    obtain ⟨⟨x, y⟩, h1, h⟩ := bind_eq_ok.mp h
    cases h
    unfold SortedArr.removeMany at h1
    obtain ⟨r, h2, h1⟩ := bind_eq_ok.mp h1
    cases h1
    simp only [roomNeeded, Nat.not_lt_zero, if_false]
    exact removeRange_room h2
  | contains v =>
    obtain ⟨x, _, h⟩ := bind_eq_ok.mp h
    cases h
    simp [roomNeeded]
  | get i =>
    obtain ⟨x, _, h⟩ := bind_eq_ok.mp h
    cases h
    simp [roomNeeded]
  | reserve n =>
    obtain ⟨x, h1, h⟩ := bind_eq_ok.mp h
    cases h
    unfold SortedArr.reserve at h1
    obtain ⟨b, h2, h1⟩ := bind_eq_ok.mp h1
    cases h1
    exact (grows_reserve a.buf _ _ hk b h2).1
  | clear =>
    obtain ⟨x, h1, h⟩ := bind_eq_ok.mp h
    cases h
    unfold SortedArr.clear at h1
    obtain ⟨b, h2, h1⟩ := bind_eq_ok.mp h1
    cases h1
    have := (grows_resize a.buf _ _ _ hk b h2).1
    simpa [roomNeeded] using this

/-- Searching a sorted part. -/
theorem contains_part {read : Nat → R T} {xs : List T} (hs : xs.Pairwise (· < ·)) (h : ∀ i (hi : i < xs.length), read i = .ok xs[i]) (v : T) :
    sortedArrayManipulation.contains c less read xs.length v = .ok (decide (v ∈ xs)) := by
  unfold sortedArrayManipulation.contains
  obtain ⟨f1, f2, hx, hpos, k1, k2⟩ := find_split c id read xs v hs h
  rw [hpos, bind_ok]
  subst hx
  rw [present_eq id _ f1 f2 v h k2 hs]
  congr 2
  apply propext
  rw [List.mem_append]
  constructor
  · rintro ⟨x, h, rfl⟩; exact Or.inr h
  · rintro (h | h)
    · exact absurd (k1 v h) (lt_irrefl v)
    · exact ⟨v, h, rfl⟩

end

end LvArray.SetCaps

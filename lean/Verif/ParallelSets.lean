import Verif.ParallelSorted

/-!
# The member functions of `ArrayOfSetsView`, run alone
-/

namespace LvArray.Parallel

open Prog

variable {T V : Type} {cs : Cfgs} {i : Nat} {e : Buf V}

theorem rowPtr_of_read {a : AoA T} {p : Nat} (h : a.shape.offsets.read i = .ok p) : a.rowPtr i = p := by
  unfold Buf.read at h
  unfold AoA.rowPtr
  split at h
  · split at h
    · cases h
    · rename_i hv; cases h; rw [hv]
    · cases h
  · cases h

theorem setsFits (p sz : Nat) : Fits cs i p (AoA.store (T := T) e) (AoS.target (AoS.checking cs.values i) i)
    (setCallbacks cs.values) sz where
  buf := fun _ => rfl
  ptr := fun _ h => rowPtr_of_read h
  put := fun _ _ => rfl
  incrementSize := fun n s hs => by
    refine ⟨?_, ?_⟩
    · show (capacityCheck cs.values n).run cs (fun _ => i) (s.store e) = _
      rw [run_capacityCheck]
      simp only [AoS.target, AoS.checking, bindR_assoc, bind_ok]
      rfl
    · intro r hr
      obtain ⟨s', h1, h2⟩ := bind_eq_ok.1 hr
      obtain ⟨_, _, h3⟩ := bind_eq_ok.1 h1
      cases h2
      cases h3
      exact hs
  insert := fun _ => Does.ret ()
  set := fun _ _ => Does.ret ()
  insertMany := fun _ _ _ _ => Does.ret ()
  remove := fun _ _ => Does.ret ()
  removeMany := fun _ _ _ => Does.ret ()

variable [LT T] [DecidableLT T] [DecidableEq T]

theorem run_insertIntoSet (a : AoA T) (v : T) :
    (insertIntoSet cs.values v).run cs (fun _ => i) (a.store e) =
      (AoS.insertIntoSet cs.values (AoS.checking cs.values i) a i v >>= fun r => .ok (r.2, r.1.store e)) := by
  simp only [insertIntoSet, AoS.insertIntoSet, bind_def, run_bind, run_checkRow, run_base, run_size, bindR_assoc, bind_ok]
  refine bindR_congr _ fun _ _ => bindR_congr _ fun n _ => bindR_congr (a.shape.offsets.read i) fun p hp => ?_
  rw [(Does.insertOne (setsFits p n) n v a hp).1]
  simp only [bindR_assoc, bind_ok, run_setSize, run_ret]
  rfl

theorem run_insertRangeIntoSet [Inhabited T] (a : AoA T) (vs : List T) :
    (insertRangeIntoSet cs.values vs).run cs (fun _ => i) (a.store e) =
      (AoS.insertRangeIntoSet cs.values (AoS.checking cs.values i) a i vs >>= fun r => .ok (r.2, r.1.store e)) := by
  simp only [insertRangeIntoSet, AoS.insertRangeIntoSet, bind_def, run_bind, run_checkRow, run_base, run_size, bindR_assoc,
    bind_ok]
  refine bindR_congr _ fun _ _ => bindR_congr _ fun n _ => bindR_congr (a.shape.offsets.read i) fun p hp => ?_
  rw [(Does.insertRange (setsFits p n) n vs a hp).1]
  simp only [bindR_assoc, bind_ok, run_setSize, run_ret]
  rfl

theorem run_removeFromSet (a : AoA T) (v : T) :
    (removeFromSet cs.values v).run cs (fun _ => i) (a.store e) =
      (AoS.removeFromSet cs.values a i v >>= fun r => .ok (r.2, r.1.store e)) := by
  simp only [removeFromSet, AoS.removeFromSet, bind_def, run_bind, run_checkRow, run_base, run_size, bindR_assoc, bind_ok]
  refine bindR_congr _ fun _ _ => bindR_congr _ fun n _ => bindR_congr (a.shape.offsets.read i) fun p hp => ?_
  rw [(Does.removeOne (setsFits p n) v a hp).1]
  simp only [bindR_assoc, bind_ok, run_setSize, run_ret]
  rfl

/-- The number of removed values may not exceed the size of the set (it never does for a sorted set). -/
theorem run_removeRangeFromSet (a a' : AoA T) (vs : List T) (n m : Nat) (hn : a.shape.sizeOfArray cs.values i = .ok n)
    (h : AoS.removeRangeFromSet cs.values a i vs = .ok (a', m)) (hm : m ≤ n) :
    (removeRangeFromSet cs.values vs).run cs (fun _ => i) (a.store e) = .ok (m, a'.store e) := by
  obtain ⟨_, h1, h⟩ := bind_eq_ok.1 h
  rw [hn, bind_ok] at h
  obtain ⟨p, h2, h⟩ := bind_eq_ok.1 h
  obtain ⟨⟨b, m'⟩, h3, h⟩ := bind_eq_ok.1 h
  obtain ⟨sh, h4, h⟩ := bind_eq_ok.1 h
  cases h
  have hp : (a.store e).shape.offsets.read i = .ok p := h2
  have r := (Does.removeRange (setsFits (e := e) p n) n vs a b m' hp h3 hm).1
  have h1' : (a.store e).shape.checkBounds cs.values i = .ok () := h1
  have hn' : (a.store e).shape.sizeOfArray cs.values i = .ok n := hn
  simp only [removeRangeFromSet, bind_def, run_bind, run_checkRow, run_base, run_size, bindR_assoc, bind_ok, h1', hn', hp]
  rw [r]
  have h4' : (b.store e).shape.setSize cs.values i (n - m') = .ok sh := h4
  simp only [bind_ok, run_setSize, h4', run_ret]
  rfl

theorem run_contains (a : AoA T) (v : T) :
    (contains cs.values v).run cs (fun _ => i) (a.store e) =
      (AoS.contains cs.values a i v >>= fun r => .ok (r, a.store e)) := by
  simp only [contains, AoS.contains, bind_def, run_bind, run_checkRow, run_base, run_size, bindR_assoc, bind_ok]
  refine bindR_congr _ fun _ _ => bindR_congr _ fun n _ => bindR_congr (a.shape.offsets.read i) fun p hp => ?_
  have h := Reads.seq (Reads.find0 (cs := cs) (i := i) (p := p) (V := V) cs.values sortedArrayManipulation.less n v)
    (fun pos => Reads.isAt n pos v) (a.store e) hp
  rw [run_bind] at h
  rw [h]
  rfl

end LvArray.Parallel

import Verif.ParallelLemmas
import Verif.AoS

/-!
# The member functions of `ArrayOfArraysView` and `ArrayOfSetsView`, run alone

Each program of `Parallel.lean` that runs alone is the function of the sequential model.
-/

namespace LvArray

/-- The store of an array of arrays: its shape and its values; `e` stands for the entries, which are not used. -/
def AoA.store {T V : Type} (e : Buf V) (a : AoA T) : RowStore T V := { shape := a.shape, values := a.values, entries := e }

namespace Parallel

open Prog

variable {T V α : Type} {cs : Cfgs} {i : Nat} {e : Buf V}

theorem run_checkRow (s : RowStore T V) : checkRow.run cs (fun _ => i) s =
    (s.shape.checkBounds cs.values i >>= fun _ => .ok ((), s)) := by
  simp only [checkRow, run, Act.exec, bindR_assoc, bind_ok]

theorem run_base (s : RowStore T V) : base.run cs (fun _ => i) s =
    (s.shape.offsets.read i >>= fun _ => .ok ((), s)) := by
  simp only [base, run, Act.exec, bindR_assoc, bind_ok]

theorem run_size (s : RowStore T V) : size.run cs (fun _ => i) s =
    (s.shape.sizeOfArray cs.values i >>= fun n => .ok (n, s)) := by
  simp only [size, run, Query.exec]

theorem run_capacity (s : RowStore T V) : capacity.run cs (fun _ => i) s =
    (s.shape.capacityOfArray cs.values i >>= fun n => .ok (n, s)) := by
  simp only [capacity, run, Query.exec]

theorem run_setSize (n : Nat) (s : RowStore T V) : (setSize n).run cs (fun _ => i) s =
    (s.shape.setSize cs.values i n >>= fun sh => .ok ((), { s with shape := sh })) := by
  simp only [setSize, run, Act.exec, bindR_assoc, bind_ok]

theorem run_stopIf (b : Bool) (s : RowStore T V) : (stopIf b).run cs (fun _ => i) s =
    (errorIf b >>= fun _ => .ok ((), s)) := by
  cases b <;> rfl

theorem run_onValue {p : Nat} {s : RowStore T V} (b : BufAct T) (h : s.shape.offsets.read i = .ok p) :
    (onValue b).run cs (fun _ => i) s = (b.exec cs.values p s.values >>= fun x => .ok ((), { s with values := x })) :=
  valuesLens.run_on cs i p b s h

theorem run_onEntry {p : Nat} {s : RowStore T V} (b : BufAct V) (h : s.shape.offsets.read i = .ok p) :
    (onEntry b).run cs (fun _ => i) s = (b.exec cs.entries p s.entries >>= fun x => .ok ((), { s with entries := x })) :=
  entriesLens.run_on cs i p b s h

theorem run_ret (x : α) (s : RowStore T V) : (Prog.ret x : Code T V α).run cs (fun _ => i) s = .ok (x, s) := rfl

theorem run_capacityCheck (n : Nat) (s : RowStore T V) : (capacityCheck cs.values n).run cs (fun _ => i) s =
    (s.shape.capacityCheck cs.values i n >>= fun _ => .ok ((), s)) := by
  unfold capacityCheck Shape.capacityCheck
  split
  · simp only [bind_def, run_bind, run_size, run_capacity, run_stopIf, bindR_assoc, bind_ok]
  · rfl

theorem run_checkBounds2 (j : Nat) (s : RowStore T V) : (checkBounds2 cs.values j).run cs (fun _ => i) s =
    (s.shape.checkBounds2 cs.values i j >>= fun _ => .ok ((), s)) := by
  unfold checkBounds2 Shape.checkBounds2
  split
  · rename_i hb
    simp only [bind_def, run_bind, run_checkRow, run_size, run_stopIf, bindR_assoc, bind_ok, Shape.sizeOfArray,
      Shape.checkBounds, hb, Bool.true_and]
    by_cases h : s.shape.numArrays ≤ i <;> simp [h, bindR_assoc]
  · rfl

theorem run_checkInsertBounds2 (j : Nat) (s : RowStore T V) : (checkInsertBounds2 cs.values j).run cs (fun _ => i) s =
    (s.shape.checkInsertBounds2 cs.values i j >>= fun _ => .ok ((), s)) := by
  unfold checkInsertBounds2 Shape.checkInsertBounds2
  split
  · rename_i hb
    simp only [bind_def, run_bind, run_checkRow, run_size, run_stopIf, bindR_assoc, bind_ok, Shape.sizeOfArray,
      Shape.checkBounds, hb, Bool.true_and]
    by_cases h : s.shape.numArrays ≤ i <;> simp [h, bindR_assoc]
  · rfl

/-- Match two sequences of calls. -/
theorem bindR_congr {α β : Type} (x : R α) {f g : α → R β} (h : ∀ a, x = .ok a → f a = g a) : (x >>= f) = (x >>= g) := by
  cases x with
  | error e => rfl
  | ok a => exact h a rfl

variable {c : Cfg}

theorem run_viewEmplaceBack (a : AoA T) (v : T) :
    (viewEmplaceBack cs.values v).run cs (fun _ => i) (a.store e) =
      (a.viewEmplaceBack cs.values i v >>= fun a' => .ok ((), a'.store e)) := by
  simp only [viewEmplaceBack, AoA.viewEmplaceBack, bind_def, run_bind, run_checkRow, run_capacityCheck, run_base, run_size,
    bindR_assoc, bind_ok]
  refine bindR_congr _ fun _ _ => bindR_congr _ fun _ _ => bindR_congr (a.shape.offsets.read i) fun p hp =>
    bindR_congr _ fun n _ => ?_
  rw [run_onValue (s := a.store e) _ hp]
  simp only [arrayManipulation.emplaceBack, bindR_assoc, BufAct.exec, bind_ok]
  refine bindR_congr (arrayManipulation.assertNonNull cs.values a.values p) fun _ _ => ?_
  rw [run_onValue (s := a.store e) _ hp]
  simp only [BufAct.exec, bindR_assoc, bind_ok, run_setSize]
  rfl

theorem run_viewAppendToArray [Inhabited T] (a : AoA T) (vs : List T) :
    (viewAppendToArray cs.values vs).run cs (fun _ => i) (a.store e) =
      (a.viewAppendToArray cs.values i vs >>= fun a' => .ok ((), a'.store e)) := by
  simp only [viewAppendToArray, AoA.viewAppendToArray, bind_def, run_bind, run_checkRow, run_base, run_size,
    bindR_assoc, bind_ok]
  refine bindR_congr _ fun _ _ => bindR_congr (a.shape.offsets.read i) fun p hp => bindR_congr _ fun n _ => ?_
  have h := OnBuf.constructRange (l := valuesLens) (c := cs) (i := i) n vs.length (fun i => vs.getD i default)
    (a.store e) p hp
  simp only [valuesLens] at h
  rw [h]
  simp only [bindR_assoc, bind_ok, run_capacityCheck, run_setSize]
  rfl

theorem run_viewEmplace (a : AoA T) (j : Nat) (v : T) :
    (viewEmplace cs.values j v).run cs (fun _ => i) (a.store e) =
      (a.viewEmplace cs.values i j v >>= fun a' => .ok ((), a'.store e)) := by
  simp only [viewEmplace, AoA.viewEmplace, bind_def, run_bind, run_checkInsertBounds2, run_capacityCheck, run_base, run_size,
    bindR_assoc, bind_ok]
  refine bindR_congr _ fun _ _ => bindR_congr _ fun _ _ => bindR_congr (a.shape.offsets.read i) fun p hp =>
    bindR_congr _ fun n _ => ?_
  have h := OnBuf.emplace (l := valuesLens) (c := cs) (i := i) n j v (a.store e) p hp
  simp only [valuesLens] at h
  rw [h]
  simp only [bindR_assoc, bind_ok, run_setSize]
  rfl

theorem run_viewInsertIntoArray [Inhabited T] (a : AoA T) (j : Nat) (vs : List T) :
    (viewInsertIntoArray cs.values j vs).run cs (fun _ => i) (a.store e) =
      (a.viewInsertIntoArray cs.values i j vs >>= fun a' => .ok ((), a'.store e)) := by
  simp only [viewInsertIntoArray, AoA.viewInsertIntoArray, bind_def, run_bind, run_checkInsertBounds2, run_capacityCheck,
    run_base, run_size, bindR_assoc, bind_ok]
  refine bindR_congr _ fun _ _ => bindR_congr _ fun _ _ => bindR_congr (a.shape.offsets.read i) fun p hp =>
    bindR_congr _ fun n _ => ?_
  have h := OnBuf.insert (l := valuesLens) (c := cs) (i := i) n j vs (a.store e) p hp
  simp only [valuesLens] at h
  rw [h]
  simp only [bindR_assoc, bind_ok, run_setSize]
  rfl

/-- The number of values to erase may not exceed the size, otherwise `ptr + size - n` is not a position of the inner array. -/
theorem run_eraseFromArray (a : AoA T) (j n m : Nat) (hm : a.shape.sizeOfArray cs.values i = .ok m) (hn : n ≤ m) :
    (eraseFromArray cs.values j n).run cs (fun _ => i) (a.store e) =
      (a.eraseFromArray cs.values i j n >>= fun a' => .ok ((), a'.store e)) := by
  simp only [eraseFromArray, AoA.eraseFromArray, bind_def, run_bind, run_checkBounds2, run_base, run_size, bindR_assoc,
    bind_ok]
  refine bindR_congr _ fun _ _ => bindR_congr (a.shape.offsets.read i) fun p hp => bindR_congr _ fun m' hm' => ?_
  have e1 : m' = m := by
    have := hm'.symm.trans hm
    cases this; rfl
  subst e1
  have h := OnBuf.erase (l := valuesLens) (c := cs) (i := i) m' j n hn (a.store e) p hp
  simp only [valuesLens] at h
  rw [h]
  simp only [bindR_assoc, bind_ok, run_setSize]
  rfl

theorem run_setValue (a : AoA T) (j : Nat) (v : T) :
    (setValue cs.values j v).run cs (fun _ => i) (a.store e) =
      (a.set cs.values i j v >>= fun a' => .ok ((), a'.store e)) := by
  simp only [setValue, AoA.set, bind_def, run_bind, run_checkBounds2, run_base, bindR_assoc, bind_ok]
  refine bindR_congr _ fun _ _ => bindR_congr (a.shape.offsets.read i) fun p hp => ?_
  rw [run_onValue (s := a.store e) _ hp]
  simp only [BufAct.exec, bindR_assoc, bind_ok]
  rfl

theorem run_getValue (a : AoA T) (j : Nat) :
    (getValue cs.values j).run cs (fun _ => i) (a.store e) =
      (a.get cs.values i j >>= fun x => .ok (x, a.store e)) := by
  simp only [getValue, AoA.get, bind_def, run_bind, run_checkBounds2, run_base, bindR_assoc, bind_ok]
  refine bindR_congr _ fun _ _ => bindR_congr (a.shape.offsets.read i) fun p hp => ?_
  have hp' : (a.store e).shape.offsets.read i = .ok p := hp
  simp only [value, run, readValue, hp', bind_ok]
  rfl

end Parallel

end LvArray

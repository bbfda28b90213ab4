import Verif.FaultRowCopiesLemmas
import Verif.Props.FaultRows
/-!
# C97: copy assignments of `ArrayOfArrays` that throw
-/

namespace LvArray.Props

open Spec Layout FaultyRows

variable {T : Type} [Inhabited T]

omit [Inhabited T] in
/-- **C97.** If no copy of a value throws, the copy assignment is the one that `C25_copy_assignment_partial` is about. -/
theorem C97_copy_no_throw (c : Cfg) (a src : AoA T) (throws : Nat → Nat → Bool) (h : ∀ i j, throws i j = false) :
    FaultyRows.copyAssign c throws a src = a.copyAssign c src >>= fun a => .ok (a, false) := by
  unfold FaultyRows.copyAssign AoA.copyAssign Shape.copyRows
  simp only [bindAssoc]
  congr 1; funext n; congr 1; funext b; congr 1; funext q; congr 1; funext b1
  rw [copyRowsUntil_none c throws _ _ h, bindAssoc]
  rfl

/-- **C97, disagreement.** If the copy of value `j` of inner array `i` is the first that throws in `dst = src`, then `dst` has the
inner arrays of `src` with their sizes, and of their values only those that had been copied: reading value `j` of inner array `i`
is undefined, and so is the destructor of `dst` unless the values need none. -/
theorem C97_throw_in_copy_breaks_object (c : Cfg) {dst src : AoA T} {L M : List (List T × Nat)} (hd : Reach c dst L)
    (hs : Reach c src M)
    (hr : (M.map (·.2)).sum ≤ dst.values.cap ∨ L = [] ∨
      (c.trivial = true ∧ ((M.take L.length).map (·.2)).sum ≤ dst.values.cap))
    (i j : Nat) (hi : i < M.length) (hj : j < M[i].1.length) (throws : Nat → Nat → Bool)
    (hq : ∀ m (hm : m < i) k, k < M[m].1.length → throws m k = false) (hq' : ∀ k, k < j → throws i k = false)
    (ht : throws i j = true) :
    ∃ dst', FaultyRows.copyAssign c throws dst src = .ok (dst', true) ∧ dst'.shape.numArrays = M.length ∧
      (∀ m (hm : m < M.length), dst'.shape.sizeOfArray c m = .ok M[m].1.length) ∧
      (∀ m (hm : m < i) k (hk : k < M[m].1.length), dst'.get c m k = .ok M[m].1[k]) ∧
      (∀ k (hk : k < j), dst'.get c i k = .ok M[i].1[k]) ∧ dst'.get c i j = .error (.ub .rawRead) ∧
      (c.trivial = false → dst'.free c = .error (.ub .rawDestroy)) := by
  have hgd := reach_good hd
  have hgs := reach_good hs
  have hroom : CopyRoom c dst.values.cap L M := by
    have e : ∀ L : Layout T, (L.map (·.2)).sum = total L := fun L => caps_sum L
    simp only [e] at hr
    rcases hr with h | rfl | ⟨h, h'⟩
    · exact .inl h
    · exact .inr (.inl (by simp [staleOffset]))
    · refine .inr (.inr ⟨h, ?_⟩)
      unfold staleOffset
      split
      · exact h'
      · exact hgd.lay.room
  obtain ⟨A, xs, cap, B, rfl, rfl, hx⟩ := split1 hi
  have hxi : (A ++ (xs, cap) :: B)[A.length].1 = xs := by rw [hx]
  rw [hx] at hj
  replace hj : j < xs.length := hj
  have hfx := hgs.lay.fits (xs, cap) (by simp)
  simp only at hfx
  obtain ⟨s', b3, he, h5', h10⟩ := copyAssign_threw_at c hgd.weak hgs hroom j hj (fun m hm k hk => hq m hm k (by
    rw [List.getElem_append_left hm]; exact hk)) hq' ht
  refine ⟨{ shape := s', values := b3 }, he, by simp only; rw [h5'.num], ?_, ?_, ?_, ?_, ?_⟩
  · exact fun m hm => h5'.sizeOf' hm
  · intro m hm k hk
    have hml : m < (A ++ (xs, cap) :: B).length := by simp; omega
    rw [List.getElem_append_left hm] at hk
    simp only [List.getElem_append_left hm]
    obtain ⟨A1, ys, q, A2, rfl, rfl, hy⟩ := split1 hm
    unfold AoA.get AoA.ptr
    simp only [List.append_assoc, List.cons_append] at h5' h10 ⊢
    simp only [hy] at hk ⊢
    rw [ShGood.checkBounds2 h5' (by simp) (by simpa [szs] using hk), bind_ok, h5'.readOffAt rfl, bind_ok,
      (h10.toWin IsRaw).read_front k hk]
  · intro k hk
    simp only [hx]
    unfold AoA.get AoA.ptr
    simp only
    rw [ShGood.checkBounds2 h5' (by simp) (by simp [szs]; omega), bind_ok, h5'.readOffAt rfl, bind_ok,
      (h10.toWin IsRaw).read_front k (by simp; omega)]
    simp
  · unfold AoA.get AoA.ptr
    simp only
    rw [ShGood.checkBounds2 h5' (by simp) (by simpa [szs] using hj), bind_ok, h5'.readOffAt rfl, bind_ok]
    have hroom := h10.room
    simp only [total_append, total_cons] at hroom
    unfold Buf.read
    rw [if_pos (by omega), (h10.toWin IsRaw).free (total A + j) (by simp; omega) (by omega)]
  · intro hc
    unfold AoA.free
    rw [destroyValues_missing c hc h5' h10 (by simp; omega) hfx]
    rfl

/-! ### The copy constructor -/

/-- **C96.** If no copy of a value throws, the copy constructor of `ArrayOfArrays` makes an object that shows what the source
shows. -/
theorem C96_copied_rows (c : Cfg) {src : AoA T} {M : List (List T × Nat)} (hs : Reach c src M) (throws : Nat → Nat → Bool)
    (h : ∀ i j, throws i j = false) :
    ∃ a, FaultyRows.copied c throws src = .made a ∧ Shows c a (M.map (·.1)) := by
  obtain ⟨a, h1, h2, -⟩ := C25_copy_constructor c hs
  unfold AoA.copyConstruct at h1
  refine ⟨a, ?_, h2⟩
  unfold FaultyRows.copied
  rw [C97_copy_no_throw c _ src throws h, h1]
  rfl

/-- **C96, disagreement.** If the copy of value `j` of inner array `i` is the first that throws in the copy constructor of
`ArrayOfArrays`, none of the values copied before is destroyed, and the memory, which is enough for all values of the source, is not
released. -/
theorem C96_throw_in_copied_rows (c : Cfg) (hc : c.trivial = false) {src : AoA T} {M : List (List T × Nat)} (hs : Reach c src M)
    (i j : Nat) (hi : i < M.length) (hj : j < M[i].1.length) (throws : Nat → Nat → Bool)
    (hq : ∀ m (hm : m < i) k, k < M[m].1.length → throws m k = false) (hq' : ∀ k, k < j → throws i k = false)
    (ht : throws i j = true) :
    ∃ memory, (M.map (·.2)).sum ≤ memory ∧
      FaultyRows.copied c throws src = .threw (((M.take i).map (·.1.length)).sum + j) memory := by
  have hgs := reach_good hs
  obtain ⟨A, xs, cap, B, rfl, rfl, hx⟩ := split1 hi
  rw [hx] at hj
  replace hj : j < xs.length := hj
  obtain ⟨s', b3, he, -, h10⟩ := copyAssign_threw_at c AWeak.fresh hgs (.inr (.inl (by simp [staleOffset]))) j hj
    (fun m hm k hk => hq m hm k (by rw [List.getElem_append_left hm]; exact hk)) hq' ht
  refine ⟨b3.cap, ?_, ?_⟩
  · have := h10.room
    simpa [total, clear, Function.comp_def] using this
  · unfold FaultyRows.copied
    rw [he]
    simp only [h10.lost, Nat.zero_add]
    rw [countL_lay c hc _ b3 b3.cap h10.cell h10.fits h10.room]
    have : ((B.map clear).map (·.1.length)).sum = 0 := by
      simp [clear, Function.comp_def]
    simp only [List.map_append, List.map_cons, List.sum_append, List.sum_cons, this, List.length_take]
    rw [Nat.min_eq_left (by omega)]
    simp

/-! ### Concrete cases -/

private def tracked2 : Cfg := { trivial := false, boundsCheck := true, debug := true }

/-- A source with inner arrays of one and two values, and a destination with one value; the copy of the last value throws. -/
private def copiedRows : R (AoA Nat × Bool) :=
  AoA.mk' tracked2 2 4 >>= fun s => AoA.run tracked2 s [.emplaceBack 0 5, .appendToArray 1 [7, 8]] >>= fun s =>
  AoA.mk' tracked2 2 4 >>= fun d => AoA.run tracked2 d [.emplaceBack 1 1] >>= fun d =>
  FaultyRows.copyAssign tracked2 (fun i j => i == 1 && j == 1) d s

private def sizesAndValues (r : R (AoA Nat × Bool)) : Option (Bool × List Nat × List (Option Nat)) :=
  match r with
  | .ok (a, threw) => some (threw, (List.range a.shape.numArrays).map (fun i => (a.shape.sizeOfArray tracked2 i).toOption.getD 99),
      [(a.get tracked2 0 0).toOption, (a.get tracked2 1 0).toOption, (a.get tracked2 1 1).toOption])
  | .error _ => none

/-- The hypotheses of `C97_throw_in_copy_breaks_object` can be met by objects with values of a type that is not trivially
copyable. -/
example : sizesAndValues copiedRows = some (true, [1, 2], [some 5, some 7, none]) ∧
    (copiedRows >>= fun r => r.1.free tracked2 >>= fun _ => .ok ()) = .error (.ub .rawDestroy) := by decide +kernel

/-- The copy constructor of that source, with the same exception: two values and memory for eight are lost. -/
example : (match AoA.mk' tracked2 2 4 >>= fun s => AoA.run tracked2 s [.emplaceBack 0 5, .appendToArray 1 [7, 8]] with
    | .ok s => (match FaultyRows.copied tracked2 (fun i j => i == 1 && j == 1) (s : AoA Nat) with
      | .threw values memory => some (values, memory)
      | _ => none)
    | .error _ => none) = some (2, 8) := by decide +kernel

end LvArray.Props

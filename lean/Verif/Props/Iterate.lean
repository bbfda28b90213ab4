import Verif.Iterate
import Verif.Props.ArrayResize
import Verif.Spec.Iterate

/-!
# C91: running over an array from `begin()` to `end()`, its first and its last element
-/

namespace LvArray.Props

open indexing Spec bufferManipulation

variable {T : Type}

/-- The position of an element in memory, and what the storage holds there. -/
theorem Wf.at {a : ArrayN T} (h : Wf a) (c : Cfg) {xs : List T} (hr : Rep a.buf xs) {idx : List Int} (hi : InBounds a.dims idx)
    {k : Nat} (hk : k < xs.length) (he : (layout a.perm a.dims).call c idx = .ok (k : Int)) : a.get c idx = .ok xs[k] := by
  rw [call_ok h.isPerm c hi] at he
  exact get_of_cell h.strides h.isPerm c hi (Except.ok.inj he) (by have := hr.2; omega) (by rw [hr.1, cellsOf_lt hk])

theorem Rep.deref {a : ArrayN T} {xs : List T} (hr : Rep a.buf xs) {k : Nat} (hk : k < xs.length) : a.deref (k : Int) = .ok xs[k] := by
  unfold ArrayN.deref Buf.read
  rw [if_neg (by omega), Int.toNat_natCast, if_pos (by have := hr.2; omega), hr.1, cellsOf_lt hk]

theorem span_eq (a : ArrayN T) : (a.last - a.first).toNat = a.dims.prod := by
  unfold ArrayN.last ArrayN.first
  rw [Wf.size]; omega

theorem iterate_eq {a : ArrayN T} {xs : List T} (hr : Rep a.buf xs) (hl : xs.length = a.dims.prod) : a.iterate = .ok xs := by
  unfold ArrayN.iterate
  rw [span_eq, ← hl, forUp_eq (fun k => xs.take k) xs.length 0 (by simp)]
  · simp
  · intro i _ hi
    have hi' : i < xs.length := by omega
    have : a.deref (a.first + (i : Int)) = .ok xs[i] := by
      unfold ArrayN.first; rw [Int.zero_add]; exact Rep.deref hr hi'
    simp only [this, bind_ok, Except.ok.injEq]
    rw [List.take_succ_eq_append_getElem hi']

theorem forEach_eq (c : Cfg) (f : T → T) {a : ArrayN T} {xs : List T} (hr : Rep a.buf xs) (hl : xs.length = a.dims.prod) :
    a.forEach c f = .ok { a with buf := { a.buf with cell := cellsOf (xs.map f) } } := by
  unfold ArrayN.forEach
  rw [span_eq, ← hl]
  have key := forUp_eq (f := fun k (b : ArrayN T) => do
      let x ← b.deref (a.first + (k : Int))
      b.assign c (a.first + k) (f x))
    (fun k => { a with buf := { a.buf with cell := cellsOf ((xs.take k).map f ++ xs.drop k) } }) xs.length 0 (s := a)
    (by
      simp only [List.take_zero, List.map_nil, List.nil_append, List.drop_zero]
      rw [← hr.1])
    (by
      intro i _ hi
      have hi' : i < xs.length := by omega
      have hrep : Rep ({ a with buf := { a.buf with cell := cellsOf ((xs.take i).map f ++ xs.drop i) } } : ArrayN T).buf
          ((xs.take i).map f ++ xs.drop i) := ⟨rfl, by have := hr.2; simp; omega⟩
      have hli : i < ((xs.take i).map f ++ xs.drop i).length := by simp; omega
      have hx : ((xs.take i).map f ++ xs.drop i)[i] = xs[i] := by
        rw [List.getElem_append_right (by simp; omega)]
        simp [Nat.min_eq_left (Nat.le_of_lt hi')]
      have h0 : a.first + (i : Int) = (i : Int) := by unfold ArrayN.first; omega
      simp only [h0]
      rw [Rep.deref hrep hli, bind_ok, hx]
      unfold ArrayN.assign
      rw [if_neg (by omega), Int.toNat_natCast, write_rep c hrep _ _ hli, bind_ok]
      congr 3
      refine congrArg cellsOf ?_
      rw [List.set_append_right _ _ (by simp; omega)]
      simp only [List.length_map, List.length_take, Nat.min_eq_left (Nat.le_of_lt hi'), Nat.sub_self]
      rw [List.drop_eq_getElem_cons hi', List.set_cons_zero, List.take_succ_eq_append_getElem hi', List.map_append, List.append_assoc]
      rfl)
  rw [key]
  simp

/-- **C91, the elements a loop meets.** For every array, whatever its layout and size: the loop `for( T const & x : a )` meets
every element once, in the order of a loop nest that follows the permutation. -/
theorem C91_order (c : Cfg) (a : ArrayN T) (h : Wf a) : ∃ idxs xs,
    InOrder a.perm a.dims idxs ∧ a.iterate = .ok xs ∧ List.Forall₂ (fun idx x => a.get c idx = .ok x) idxs xs := by
  obtain ⟨xs, hr, hl⟩ := h.data
  obtain ⟨-, hin, hinj, hsur⟩ := C01_bijection c a.perm a.dims h.perm h.len
  have hord := (C02_memory_order c a.perm a.dims h.perm h.len).2
  have hex : ∀ k : Nat, ∃ idx, k < xs.length → InBounds a.dims idx ∧ (layout a.perm a.dims).call c idx = .ok (k : Int) := by
    intro k
    by_cases hk : k < xs.length
    · obtain ⟨idx, h1, h2⟩ := hsur k (by omega) (by omega)
      exact ⟨idx, fun _ => ⟨h1, h2⟩⟩
    · exact ⟨[], fun hk' => absurd hk' hk⟩
  obtain ⟨g, hg⟩ := Classical.axiomOfChoice hex
  refine ⟨(List.range xs.length).map g, xs, ⟨fun idx => ?_, ?_⟩, iterate_eq hr hl, ?_⟩
  · rw [List.mem_map]
    constructor
    · rintro ⟨k, hk, rfl⟩
      exact (hg k (List.mem_range.mp hk)).1
    · intro hi
      obtain ⟨p, hp, hp0, hp1⟩ := hin idx hi
      have hk : p.toNat < xs.length := by omega
      refine ⟨p.toNat, List.mem_range.mpr hk, hinj _ _ (hg _ hk).1 hi ?_⟩
      rw [(hg _ hk).2, hp]
      congr 1; omega
  · rw [List.pairwise_map]
    refine (List.pairwise_lt_range (n := xs.length)).imp_of_mem ?_
    intro i j hi hj hlt
    have hi' := hg i (List.mem_range.mp hi)
    have hj' := hg j (List.mem_range.mp hj)
    exact (hord _ _ _ _ hi'.1 hj'.1 hi'.2 hj'.2).mp (by omega)
  · rw [List.forall₂_iff_get]
    refine ⟨by simp, fun i h1 h2 => ?_⟩
    simp only [List.get_eq_getElem, List.getElem_map, List.getElem_range]
    exact h.at c hr (hg i h2).1 h2 (hg i h2).2

/-- **C91, assigning in a loop.** `for( T & x : a ) { x = f( x ); }` applies `f` once to every element and changes nothing
else. -/
theorem C91_assign (c : Cfg) (a : ArrayN T) (h : Wf a) (f : T → T) : ∃ a',
    a.forEach c f = .ok a' ∧ Wf a' ∧ a'.perm = a.perm ∧ a'.dims = a.dims ∧ a'.resizeIndex = a.resizeIndex ∧
    ∀ idx, InBounds a.dims idx → ∃ x, a.get c idx = .ok x ∧ a'.get c idx = .ok (f x) := by
  obtain ⟨xs, hr, hl⟩ := h.data
  have hr' : Rep { a.buf with cell := cellsOf (xs.map f) } (xs.map f) := ⟨rfl, by simpa using hr.2⟩
  have hw : Wf { a with buf := { a.buf with cell := cellsOf (xs.map f) } } :=
    ⟨h.perm, h.len, h.strides, h.index, xs.map f, hr', by simpa using hl⟩
  refine ⟨_, forEach_eq c f hr hl, hw, rfl, rfl, rfl, fun idx hi => ?_⟩
  obtain ⟨-, hin, -, -⟩ := C01_bijection c a.perm a.dims h.perm h.len
  obtain ⟨p, hp, hp0, hp1⟩ := hin idx hi
  have hk : p.toNat < xs.length := by omega
  have hp' : (layout a.perm a.dims).call c idx = .ok (p.toNat : Int) := by rw [hp]; congr 1; omega
  refine ⟨xs[p.toNat], h.at c hr hi hk hp', ?_⟩
  have := hw.at c hr' hi (k := p.toNat) (by simpa using hk) hp'
  rw [this]; simp

theorem reorder_map {p : List Nat} {dims : List Nat} (hp : IsPermutation p dims.length) (f : Nat → Int) :
    reorder p (dims.map f) = (reorder p dims).map f := by
  unfold reorder
  rw [List.map_map]
  refine List.map_congr_left fun k hk => ?_
  have hk' : k < dims.length := List.mem_range.mp ((List.Perm.mem_iff hp).mp hk)
  simp [List.getD_eq_getElem?_getD, List.getElem?_eq_getElem hk']

theorem horner_lowest : ∀ dims : List Nat, horner dims (dims.map fun (_ : Nat) => 0) = 0
  | [] => rfl
  | _ :: ds => by simp only [List.map_cons, horner, horner_lowest ds]; omega

theorem horner_highest : ∀ dims : List Nat, horner dims (dims.map fun (d : Nat) => (d : Int) - 1) = (dims.prod : Int) - 1
  | [] => rfl
  | d :: ds => by
    simp only [List.map_cons, horner, horner_highest ds, List.prod_cons, Int.natCast_mul, Int.sub_mul]; omega

theorem inBounds_map {dims : List Nat} (h : dims.prod ≠ 0) (f : Nat → Int) (hf : ∀ d : Nat, 0 < d → 0 ≤ f d ∧ f d < d) :
    InBounds dims (dims.map f) := by
  induction dims with
  | nil => trivial
  | cons d ds ih =>
    rw [List.prod_cons] at h
    have hd : d ≠ 0 := fun e => h (by rw [e, Nat.zero_mul])
    have hs : ds.prod ≠ 0 := fun e => h (by rw [e, Nat.mul_zero])
    exact ⟨hf d (by omega), ih hs⟩

/-- **C91, the first and the last element.** Of an array that is not empty, whatever its layout: `front()` is the element with
all indices zero, `back()` the one with all indices largest. -/
theorem C91_ends (c : Cfg) (a : ArrayN T) (h : Wf a) (hn : a.dims.prod ≠ 0) :
    (∃ x, a.front = .ok x ∧ a.get c (lowest a.dims) = .ok x) ∧
    ∃ x, a.back = .ok x ∧ a.get c (highest a.dims) = .ok x := by
  obtain ⟨xs, hr, hl⟩ := h.data
  constructor
  · have hi : InBounds a.dims (lowest a.dims) := inBounds_map hn _ fun d hd => by omega
    refine ⟨xs[0]'(by omega), Rep.deref hr (k := 0) _, h.at c hr hi (k := 0) (by omega) ?_⟩
    rw [call_ok h.isPerm c hi]
    unfold lowest
    rw [reorder_map h.isPerm, horner_lowest]; rfl
  · have hi : InBounds a.dims (highest a.dims) := inBounds_map hn _ fun d hd => by omega
    have hk : a.dims.prod - 1 < xs.length := by omega
    have he : (a.size : Int) - 1 = ((a.dims.prod - 1 : Nat) : Int) := by rw [Wf.size]; omega
    refine ⟨xs[a.dims.prod - 1], ?_, h.at c hr hi hk ?_⟩
    · unfold ArrayN.back
      rw [he]; exact Rep.deref hr hk
    · rw [call_ok h.isPerm c hi]
      unfold highest
      rw [reorder_map h.isPerm, horner_highest, reorder_prod h.isPerm]
      congr 1; omega

/-- **C91, an empty array** has no first and no last element: reading either is undefined behaviour. -/
theorem C91_empty (a : ArrayN T) (h : Wf a) (hn : a.dims.prod = 0) :
    a.iterate = .ok [] ∧ (∃ u, a.front = .error (.ub u)) ∧ ∃ u, a.back = .error (.ub u) := by
  obtain ⟨xs, hr, hl⟩ := h.data
  have hx : xs = [] := List.length_eq_zero_iff.mp (by omega)
  subst hx
  refine ⟨iterate_eq hr hl, ?_, .outOfBounds, ?_⟩
  · show ∃ u, a.buf.read 0 = _
    unfold Buf.read
    split
    · rw [hr.1, cellsOf_ge (by simp)]; exact ⟨_, rfl⟩
    · exact ⟨_, rfl⟩
  · unfold ArrayN.back ArrayN.deref
    rw [Wf.size, hn]; rfl

/-- **C91 for all histories.** After any sequence of shape changing calls and checked assignments that does not abort, on an array
of any layout. -/
theorem C91_histories (c : Cfg) (hbc : c.boundsCheck = true) (d : T) (perm : List Nat)
    (hv : typeManipulation.isValidPermutation perm = true) (hne : perm ≠ []) (calls : List (ArrayCall T)) (a : ArrayN T)
    (h : calls.foldlM (ArrayCall.run c d) (ArrayN.init T perm) = .ok a) (f : T → T) :
    (∃ idxs xs, InOrder perm a.dims idxs ∧ a.iterate = .ok xs ∧ List.Forall₂ (fun idx x => a.get c idx = .ok x) idxs xs) ∧
    (∃ a', a.forEach c f = .ok a' ∧ a'.dims = a.dims ∧
      ∀ idx, InBounds a.dims idx → ∃ x, a.get c idx = .ok x ∧ a'.get c idx = .ok (f x)) ∧
    (a.dims.prod ≠ 0 → (∃ x, a.front = .ok x ∧ a.get c (lowest a.dims) = .ok x) ∧
      ∃ x, a.back = .ok x ∧ a.get c (highest a.dims) = .ok x) ∧
    (a.dims.prod = 0 → (∃ u, a.front = .error (.ub u)) ∧ ∃ u, a.back = .error (.ub u)) := by
  rcases C11_histories c hbc d perm hv hne calls with h1 | ⟨a', h1, hw, hp⟩
  · rw [h] at h1; cases h1
  · rw [h] at h1; cases h1
    refine ⟨hp ▸ C91_order c a hw, ?_, C91_ends c a hw, fun hn => (C91_empty a hw hn).2⟩
    obtain ⟨a', g1, -, -, g2, -, g3⟩ := C91_assign c a hw f
    exact ⟨a', g1, g2, g3⟩

/-! ### The hypotheses are met

The 2 x 3 array `[ 0 1 2 ] [ 10 11 12 ]` in both layouts: the loop meets its elements row by row in the one and column by column
in the other, and the ends are the same. -/

def rowsAndColumns (perm : List Nat) : R (ArrayN Int) :=
  [ArrayCall.resize [2, 3], .assign [0, 1] 1, .assign [0, 2] 2, .assign [1, 0] 10, .assign [1, 1] 11, .assign [1, 2] 12].foldlM
    (ArrayCall.run ⟨false, true, false⟩ 0) (ArrayN.init Int perm)

def seen (perm : List Nat) : R (List Int × Int × Int × List Int) := do
  let a ← rowsAndColumns perm
  let xs ← a.iterate
  let x ← a.front
  let y ← a.back
  let a' ← a.forEach ⟨false, true, false⟩ (· + 1)
  let ys ← a'.iterate
  .ok (xs, x, y, ys)

example : seen [0, 1] = .ok ([0, 1, 2, 10, 11, 12], 0, 12, [1, 2, 3, 11, 12, 13]) := by decide +kernel
example : seen [1, 0] = .ok ([0, 10, 1, 11, 2, 12], 0, 12, [1, 11, 2, 12, 3, 13]) := by decide +kernel
example : InOrder [1, 0] [2, 3] [[0, 0], [1, 0], [0, 1], [1, 1], [0, 2], [1, 2]] ↔
    ∀ idx, idx ∈ ([[0, 0], [1, 0], [0, 1], [1, 1], [0, 2], [1, 2]] : List (List Int)) ↔ InBounds [2, 3] idx :=
  ⟨fun h => h.1, fun h => ⟨h, by decide⟩⟩
example : lowest [2, 3] = [0, 0] ∧ highest [2, 3] = [1, 2] := by decide

end LvArray.Props

import Verif.FaultRowsLemmas
import Verif.Spec.FaultRows
import Verif.MachineArray
import Verif.Props.ArrayOfArrays
/-!
# C97: calls on an `ArrayOfArrays` that end in an exception
-/

namespace LvArray.Props

open LvArray Spec Layout FaultyRows

variable {T : Type}

/-! ### The loop of constructors -/

theorem constructUntil_none (c : Cfg) (throws : Nat → Bool) (p : Nat) (v : Nat → T) :
    ∀ (n i : Nat) (b : Buf T), (∀ k, i ≤ k → k < i + n → throws k = false) →
      constructUntil c throws p v n i b =
        forUp n (p + i) (fun m b => b.construct c m (v (m - p))) b >>= fun b => .ok (b, false)
  | 0, i, b, _ => rfl
  | n + 1, i, b, h => by
    unfold constructUntil forUp
    rw [if_neg (by rw [h i (Nat.le_refl _) (by omega)]; simp)]
    simp only [show p + i - p = i by omega]
    cases b.construct c (p + i) (v i) with
    | error e => rfl
    | ok b1 =>
      rw [bind_ok, bind_ok, constructUntil_none c throws p v n (i + 1) b1 (fun k h1 h2 => h k (by omega) (by omega)),
        show p + (i + 1) = p + i + 1 by omega]

theorem constructUntil_first (c : Cfg) (throws : Nat → Bool) (p : Nat) (v : Nat → T) :
    ∀ (k n i : Nat) (b : Buf T), k < n → (∀ m, i ≤ m → m < i + k → throws m = false) → throws (i + k) = true →
      constructUntil c throws p v n i b =
        forUp k (p + i) (fun m b => b.construct c m (v (m - p))) b >>= fun b => .ok (b, true)
  | 0, n + 1, i, b, _, _, ht => by
    unfold constructUntil
    rw [if_pos (by simpa using ht)]
    rfl
  | k + 1, n + 1, i, b, hk, hq, ht => by
    unfold constructUntil forUp
    rw [if_neg (by rw [hq i (Nat.le_refl _) (by omega)]; simp)]
    simp only [show p + i - p = i by omega]
    cases b.construct c (p + i) (v i) with
    | error e => rfl
    | ok b1 =>
      rw [bind_ok, bind_ok, constructUntil_first c throws p v k n (i + 1) b1 (by omega)
        (fun k h1 h2 => hq k (by omega) (by omega)) (by rw [← ht]; congr 1; omega), show p + (i + 1) = p + i + 1 by omega]

theorem bindAssoc {α β γ : Type} (r : R α) (f : α → R β) (g : β → R γ) : (r >>= f) >>= g = r >>= fun x => f x >>= g := by
  cases r <;> rfl

/-! ### Calls in which nothing throws -/

section

variable [Inhabited T]

/-- **C97.** If no constructor throws, a call is the call that `C21_vector_of_vectors` is about, whatever the state of the
object. -/
theorem C97_no_throw (c : Cfg) (a : AoA T) (op : AoAOp T) (throws : Nat → Bool) (h : ∀ k, throws k = false) :
    FaultyRows.step c a op throws = a.step c op >>= fun a => .ok (a, false) := by
  have happ : ∀ (a : AoA T) i vs, FaultyRows.appendToArray c throws a i vs = a.appendToArray c i vs >>= fun a => .ok (a, false) := by
    intro a i vs
    unfold FaultyRows.appendToArray AoA.appendToArray AoA.viewAppendToArray arrayManipulation.append arrayManipulation.constructRange
    simp only [bindAssoc]
    congr 1; funext a1; congr 1; funext _; congr 1; funext p; congr 1; funext n
    rw [constructUntil_none c throws _ _ _ _ _ (fun k _ _ => h k), bindAssoc]
    simp only [Nat.add_zero, bind_ok, finish, Bool.false_eq_true, if_false]
  have hres : ∀ (a : AoA T) i n v, FaultyRows.resizeArray c throws a i n v = a.resizeArray c i n v >>= fun a => .ok (a, false) := by
    intro a i n v
    unfold FaultyRows.resizeArray AoA.resizeArray arrayManipulation.resize arrayManipulation.constructRange
    simp only [bindAssoc]
    congr 1; funext _; congr 1; funext cap; congr 1; funext a1; congr 1; funext m; congr 1; funext _; congr 1; funext p
    congr 1; funext b0
    rw [constructUntil_none c throws _ _ _ _ _ (fun k _ _ => h k), bindAssoc]
    simp only [Nat.add_zero, bind_ok, finish, Bool.false_eq_true, if_false]
  cases op with
  | emplaceBack i v =>
    simp only [FaultyRows.step, AoA.step]
    unfold FaultyRows.emplaceBack AoA.emplaceBack AoA.viewEmplaceBack arrayManipulation.emplaceBack
    simp only [bindAssoc]
    congr 1; funext a1; congr 1; funext _; congr 1; funext _; congr 1; funext p; congr 1; funext n; congr 1; funext _
    rw [constructUntil_none c throws _ _ _ _ _ (fun k _ _ => h k), bindAssoc]
    simp only [Nat.add_zero, bind_ok, finish, Bool.false_eq_true, if_false, forUp]
    cases a1.values.construct c (p + n) v with
    | error e => rfl
    | ok b => rfl
  | appendToArray i vs => exact happ a i vs
  | emplace i j v =>
    simp only [FaultyRows.step, AoA.step]
    unfold FaultyRows.emplace AoA.emplace AoA.viewEmplace arrayManipulation.emplace
    simp only [bindAssoc]
    congr 1; funext a1; congr 1; funext _; congr 1; funext _; congr 1; funext p; congr 1; funext n; congr 1; funext _
    congr 1; funext _; congr 1; funext b0
    rw [constructUntil_none c throws _ _ _ _ _ (fun k _ _ => h k), bindAssoc]
    simp only [Nat.add_zero, bind_ok, finish, Bool.false_eq_true, if_false, forUp]
    cases b0.construct c (p + j) v with
    | error e => rfl
    | ok b => rfl
  | appendArray vs =>
    simp only [FaultyRows.step, AoA.step]
    unfold FaultyRows.appendArray AoA.appendArray
    simp only [bindAssoc]
    congr 1; funext s
    exact happ _ _ _
  | insertArray i vs =>
    simp only [FaultyRows.step, AoA.step]
    unfold FaultyRows.insertArray AoA.insertArray
    simp only [bindAssoc]
    congr 1; funext s
    exact happ _ _ _
  | insertIntoArray i j vs =>
    simp only [FaultyRows.step, AoA.step]
    unfold FaultyRows.insertIntoArray AoA.insertIntoArray AoA.viewInsertIntoArray arrayManipulation.insert
      arrayManipulation.constructRange
    simp only [bindAssoc]
    congr 1; funext a1; congr 1; funext _; congr 1; funext _; congr 1; funext p; congr 1; funext n; congr 1; funext _
    congr 1; funext _; congr 1; funext b0
    rw [constructUntil_none c throws _ _ _ _ _ (fun k _ _ => h k), bindAssoc]
    simp only [Nat.add_zero, bind_ok, finish, Bool.false_eq_true, if_false]
  | resizeArray i n v => exact hres a i n v
  | appendArraySize n =>
    simp only [FaultyRows.step, AoA.step]
    unfold FaultyRows.appendArraySize AoA.appendArraySize
    simp only [bindAssoc]
    congr 1; funext s
    exact hres _ _ _ _
  | _ => rfl

/-! ### Calls in which a constructor throws -/

omit [Inhabited T] in
/-- The rows read as before if the values of each are the first of those in its memory. -/
theorem shows_front {c : Cfg} {a : AoA T} {L M : Layout T} (hs : LShape a.shape L) (hb : Lay a.values M) (hc : caps L = caps M)
    (hp : ∀ i (h1 : i < L.length) (h2 : i < M.length), L[i].1 <+: M[i].1) : Shows c a (L.map (·.1)) := by
  have hlen : L.length = M.length := by simpa [caps] using congrArg List.length hc
  refine ⟨by rw [hs.num]; simp, ?_⟩
  intro i hi
  simp only [List.length_map] at hi
  have hpi := hp i hi (by omega)
  obtain ⟨A, xs, cap, B, rfl, hA, hx⟩ := split1 hi
  obtain ⟨A', ys, cap', B', rfl, hA', hy⟩ := split1 (show i < M.length by omega)
  subst hA
  rw [hx, hy] at hpi
  have ht : total A = total A' := by
    have := congrArg (fun l => (l.take A.length).sum) hc
    simp only [caps_append] at this
    rw [List.take_left' (by simp [caps]), List.take_left' (by simp [caps, hA'])] at this
    simpa using this
  have e : ((A ++ (xs, cap) :: B).map (·.1))[A.length]'(by simp) = xs := by simp
  refine ⟨by rw [e]; exact hs.sizeOfAt rfl, ?_⟩
  intro j hj
  simp only [e] at hj ⊢
  have hj' : j < ys.length := Nat.lt_of_lt_of_le hj hpi.length_le
  unfold AoA.get AoA.ptr
  rw [ShGood.checkBounds2 hs (by simp) (by simpa [szs] using hj), bind_ok, hs.readOffAt rfl, bind_ok, ht,
    (hb.toWin IsRaw).read_front j hj']
  congr 1
  obtain ⟨us, rfl⟩ := hpi
  exact List.getElem_append_left hj

omit [Inhabited T] in
theorem nontrivial_of_noRoom {c : Cfg} {a : AoA T} {L : Layout T} {n : Nat} (h : ¬ Room c a L n) : c.trivial = false := by
  cases hc : c.trivial
  · rfl
  · exact absurd (.inr (.inl hc)) h

omit [Inhabited T] in
theorem emplaceBack_threw (c : Cfg) {a : AoA T} {A B : Layout T} {xs : List T} {cap : Nat} (h : AGood a (A ++ (xs, cap) :: B))
    (v : T) (throws : Nat → Bool) (ht : throws 0 = true) :
    (∃ a', FaultyRows.emplaceBack c throws a A.length v = .ok (a', true) ∧ AGood a' (A ++ (xs, AGood.grownTo xs cap 1) :: B)) ∨
      (c.trivial = false ∧ FaultyRows.emplaceBack c throws a A.length v = .error (.ub .rawRead)) := by
  unfold FaultyRows.emplaceBack
  rcases h.dynamicallyGrow (c := c) 1 with ⟨-, a1, e, hg, -⟩ | ⟨hr, e⟩
  · have hle := AGood.le_grownTo xs cap 1
    have hroom := hg.lay.room
    simp only [total_append, total_cons] at hroom
    rw [e, bind_ok, hg.checkBounds (by simp), bind_ok, hg.capCheck hle, bind_ok, hg.ptr, bind_ok, hg.shape.sizeOfAt rfl, bind_ok,
      arrayManipulation.assertNonNull_ok _ _ _ (by omega), bind_ok,
      constructUntil_first c throws _ _ 0 1 0 _ (by omega) (by omega) ht]
    exact .inl ⟨a1, rfl, hg⟩
  · rw [e]
    exact .inr ⟨nontrivial_of_noRoom hr, rfl⟩

theorem appendToArray_threw (c : Cfg) {a : AoA T} {A B : Layout T} {xs : List T} {cap : Nat} (h : AGood a (A ++ (xs, cap) :: B))
    (vs : List T) (throws : Nat → Bool) (k : Nat) (hk : k < vs.length) (hq : ∀ m, m < k → throws m = false)
    (ht : throws k = true) :
    (∃ a', FaultyRows.appendToArray c throws a A.length vs = .ok (a', true) ∧
      LShape a'.shape (A ++ (xs, AGood.grownTo xs cap vs.length) :: B) ∧
      Lay a'.values (A ++ (xs ++ vs.take k, AGood.grownTo xs cap vs.length) :: B)) ∨
      (c.trivial = false ∧ FaultyRows.appendToArray c throws a A.length vs = .error (.ub .rawRead)) := by
  unfold FaultyRows.appendToArray
  rcases h.dynamicallyGrow (c := c) vs.length with ⟨-, a1, e, hg, -⟩ | ⟨hr, e⟩
  · have hle := AGood.le_grownTo xs cap vs.length
    have htl : (vs.take k).length = k := by simp; omega
    obtain ⟨b1, h1, w⟩ := (hg.lay.toWin IsRaw).appendMany (c := c) (vs.take k) (by omega)
    unfold arrayManipulation.append arrayManipulation.constructRange at h1
    rw [htl] at h1
    rw [e, bind_ok, hg.checkBounds (by simp), bind_ok, hg.ptr, bind_ok, hg.shape.sizeOfAt rfl, bind_ok,
      constructUntil_first c throws _ _ k vs.length 0 _ hk (fun m _ hm => hq m (by omega)) (by simpa using ht), Nat.add_zero,
      forUp_congr k _ _ (g := fun m b => b.construct c m ((vs.take k).getD (m - (total A + xs.length)) default)) (by
        intro m b h1 h2
        simp only at h1 h2
        have hlt : m - (total A + xs.length) < k := by omega
        simp only
        rw [List.getD_eq_getElem?_getD, List.getD_eq_getElem?_getD, List.getElem?_take, if_pos hlt]), h1]
    exact .inl ⟨{ a1 with values := b1 }, rfl, hg.shape, hg.lay.ofWin w⟩
  · rw [e]
    exact .inr ⟨nontrivial_of_noRoom hr, rfl⟩

omit [Inhabited T] in
theorem prefix_rows (A B : Layout T) {xs ys : List T} {cap cap' : Nat} (h : xs <+: ys) (i : Nat)
    (h1 : i < (A ++ (xs, cap) :: B).length) (h2 : i < (A ++ (ys, cap') :: B).length) :
    (A ++ (xs, cap) :: B)[i].1 <+: (A ++ (ys, cap') :: B)[i].1 := by
  by_cases hj : i < A.length
  · simp [List.getElem_append_left hj]
  · by_cases hj2 : i = A.length
    · subst hj2; simpa using h
    · obtain ⟨m, rfl⟩ : ∃ m, i = A.length + (m + 1) := ⟨i - A.length - 1, by omega⟩
      simp

/-- `free` (the destructor) ends, releases the memory of the values, and `n` values have not been destroyed by then (none if
they need no destructor). -/
def DtorLoses (c : Cfg) (a : AoA T) (n : Nat) : Prop :=
  ∃ a', a.free c = .ok a' ∧ a'.values.lostLive = (if c.trivial then 0 else n) ∧ a'.values.cap = 0

/-- **C97, disagreement.** If the constructor of the `k`-th value of `appendToArray` throws, all inner arrays read as before, or
the call was undefined because the values had to be moved (see `C21_any_type_partial`).  The `k` values constructed before are
never destroyed. -/
theorem C97_throw_in_append (c : Cfg) {a : AoA T} {L : List (List T × Nat)} (h : Reach c a L) (i : Nat) (hi : i < L.length)
    (vs : List T) (throws : Nat → Bool) (k : Nat) (hk : k < vs.length) (hq : ∀ m, m < k → throws m = false)
    (ht : throws k = true) :
    (∃ a', FaultyRows.step c a (.appendToArray i vs) throws = .ok (a', true) ∧ Shows c a' (L.map (·.1)) ∧
      DtorLoses c a' k) ∨
      (c.trivial = false ∧ FaultyRows.step c a (.appendToArray i vs) throws = .error (.ub .rawRead)) := by
  have hg := reach_good h
  obtain ⟨A, xs, cap, B, rfl, rfl, -⟩ := split1 hi
  rcases appendToArray_threw c hg vs throws k hk hq ht with ⟨a', e, hs, hl⟩ | e
  · have hf := LeftRow.free_left (c := c) hs hl
    rw [List.length_take, Nat.min_eq_left (by omega)] at hf
    refine .inl ⟨a', e, ?_, hf⟩
    have := shows_front (c := c) hs hl (by simp) (by
      intro j h1 h2
      by_cases hj : j < A.length
      · simp [List.getElem_append_left hj]
      · by_cases hj2 : j = A.length
        · subst hj2; simp
        · obtain ⟨m, rfl⟩ : ∃ m, j = A.length + (m + 1) := ⟨j - A.length - 1, by omega⟩
          simp)
    simpa using this
  · exact .inr e

/-- **C97, disagreement.** If the constructor of a value throws in `emplace` in front of a value, the sizes are as before and
reading the position of the insertion is undefined. -/
theorem C97_throw_in_emplace_breaks_row (c : Cfg) {a : AoA T} {L : List (List T × Nat)} (h : Reach c a L) (i j : Nat)
    (hi : i < L.length) (hj : j < L[i].1.length) (v : T) (throws : Nat → Bool) (ht : throws 0 = true) :
    (∃ a', FaultyRows.step c a (.emplace i j v) throws = .ok (a', true) ∧ a'.shape.numArrays = L.length ∧
      (∀ m (hm : m < L.length), a'.shape.sizeOfArray c m = .ok L[m].1.length) ∧ a'.get c i j = .error (.ub .rawRead)) ∨
      (c.trivial = false ∧ FaultyRows.step c a (.emplace i j v) throws = .error (.ub .rawRead)) := by
  have hg := reach_good h
  obtain ⟨A, xs, cap, B, rfl, rfl, hx⟩ := split1 hi
  rw [hx] at hj
  replace hj : j < xs.length := hj
  simp only [FaultyRows.step]
  unfold FaultyRows.emplace
  rcases hg.dynamicallyGrow (c := c) 1 with ⟨-, a1, e, hg, -⟩ | ⟨hr, e⟩
  · have hle := AGood.le_grownTo xs cap 1
    have hroom := hg.lay.room
    simp only [total_append, total_cons] at hroom
    have hw := hg.lay.toWin IsRaw
    have hsh := arrayManipulation.shiftUp_eq c a1.values (total A) xs.length j 1 (by omega) (by omega)
      (fun k h1 h2 => hw.isLive_front (by omega) (by omega)) (fun k h1 h2 => hw.free k (by simp; omega) (by omega))
    rw [e, bind_ok, ShGood.checkInsertBounds2 hg.shape (by simp) (by simp [szs]; omega), bind_ok, hg.capCheck hle, bind_ok,
      hg.ptr, bind_ok, hg.shape.sizeOfAt rfl, bind_ok, arrayManipulation.assertNonNull_ok _ _ _ (by omega), bind_ok,
      arrayManipulation.checkInsertBounds_ok _ _ _ (by simp only; omega), bind_ok, hsh, bind_ok,
      constructUntil_first c throws _ _ 0 1 0 _ (by omega) (by omega) ht]
    refine .inl ⟨_, rfl, by simp only; rw [hg.shape.num]; simp, ?_, ?_⟩
    · intro m hm
      have hsz := (shows_of_good (c := c) hg).2 m (by simpa using hm)
      simp only [List.getElem_map] at hsz
      rw [hsz.1]
      congr 2
      by_cases hj : m < A.length
      · simp [List.getElem_append_left hj]
      · by_cases hj2 : m = A.length
        · subst hj2; simp
        · obtain ⟨q, rfl⟩ : ∃ q, m = A.length + (q + 1) := ⟨m - A.length - 1, by omega⟩
          simp
    · unfold AoA.get AoA.ptr
      simp only
      rw [ShGood.checkBounds2 hg.shape (by simp) (by simpa [szs] using hj), bind_ok, hg.shape.readOffAt rfl, bind_ok]
      unfold Buf.read
      simp only
      rw [if_pos (by omega), if_neg (by omega), if_pos (by omega)]
  · rw [e]
    exact .inr ⟨nontrivial_of_noRoom hr, rfl⟩

/-- **C97.** If the constructor of the value throws in `emplace` behind the last value of an inner array, nothing has
changed, or the call was undefined because the values had to be moved. -/
theorem C97_throw_in_emplace_at_end (c : Cfg) {a : AoA T} {L : List (List T × Nat)} (h : Reach c a L) (i : Nat)
    (hi : i < L.length) (v : T) (throws : Nat → Bool) (ht : throws 0 = true) :
    (∃ a', FaultyRows.step c a (.emplace i L[i].1.length v) throws = .ok (a', true) ∧ Shows c a' (L.map (·.1)) ∧
      DtorLoses c a' 0) ∨
      (c.trivial = false ∧ FaultyRows.step c a (.emplace i L[i].1.length v) throws = .error (.ub .rawRead)) := by
  have hg := reach_good h
  obtain ⟨A, xs, cap, B, rfl, rfl, hx⟩ := split1 hi
  rw [hx]
  simp only [FaultyRows.step]
  unfold FaultyRows.emplace
  rcases hg.dynamicallyGrow (c := c) 1 with ⟨-, a1, e, hg, -⟩ | ⟨hr, e⟩
  · have hle := AGood.le_grownTo xs cap 1
    have hroom := hg.lay.room
    simp only [total_append, total_cons] at hroom
    have hsh : arrayManipulation.shiftUp c a1.values (total A) xs.length xs.length 1 = .ok a1.values := by
      simp [arrayManipulation.shiftUp, arrayManipulation.checkInsertBounds, errorIf, forDown]
      rw [if_neg (by omega), Nat.sub_self]
      rfl
    rw [e, bind_ok, ShGood.checkInsertBounds2 hg.shape (by simp) (by simp [szs]), bind_ok, hg.capCheck hle, bind_ok,
      hg.ptr, bind_ok, hg.shape.sizeOfAt rfl, bind_ok, arrayManipulation.assertNonNull_ok _ _ _ (by omega), bind_ok,
      arrayManipulation.checkInsertBounds_ok _ _ _ (Nat.le_refl _), bind_ok, hsh, bind_ok,
      constructUntil_first c throws _ _ 0 1 0 _ (by omega) (by omega) ht]
    have hf := LeftRow.free_left (c := c) (us := []) hg.shape (by simpa using hg.lay)
    have hs := shows_of_good (c := c) hg
    exact .inl ⟨a1, rfl, by simpa using hs, by simpa [DtorLoses] using hf⟩
  · rw [e]
    exact .inr ⟨nontrivial_of_noRoom hr, rfl⟩

/-- **C97, disagreement.** If the constructor of a value throws in `appendArray`, the new inner array is there, without values,
and the `k` values constructed before are never destroyed. -/
theorem C97_throw_in_appendArray_adds_row (c : Cfg) {a : AoA T} {L : List (List T × Nat)} (h : Reach c a L) (vs : List T)
    (throws : Nat → Bool) (k : Nat) (hk : k < vs.length) (hq : ∀ m, m < k → throws m = false) (ht : throws k = true) :
    (∃ a', FaultyRows.step c a (.appendArray vs) throws = .ok (a', true) ∧ Shows c a' (L.map (·.1) ++ [[]]) ∧
      DtorLoses c a' k) ∨
      (c.trivial = false ∧ FaultyRows.step c a (.appendArray vs) throws = .error (.ub .rawRead)) := by
  have hg := reach_good h
  simp only [FaultyRows.step]
  unfold FaultyRows.appendArray
  obtain ⟨s', h1, h2, h3⟩ := hg.appendRow (c := c)
  rw [h1, bind_ok, h2, Nat.add_sub_cancel]
  rcases appendToArray_threw c h3 vs throws k hk hq ht with ⟨a', e, hs, hl⟩ | e
  · have hf := LeftRow.free_left (c := c) hs hl
    rw [List.length_take, Nat.min_eq_left (by omega)] at hf
    refine .inl ⟨a', e, ?_, hf⟩
    have := shows_front (c := c) hs hl (by simp) (by
      intro j h1 h2
      by_cases hj : j < L.length
      · simp [List.getElem_append_left hj]
      · have : j = L.length := by simp at h1; omega
        subst this; simp)
    simpa using this
  · exact .inr e

/-- **C97, disagreement.** If the constructor of a value throws in `insertArray`, the new inner array is there, without values,
and the `k` values constructed before are never destroyed. -/
theorem C97_throw_in_insertArray_adds_row (c : Cfg) {a : AoA T} {L : List (List T × Nat)} (h : Reach c a L) (i : Nat)
    (hi : i ≤ L.length) (vs : List T) (throws : Nat → Bool) (k : Nat) (hk : k < vs.length) (hq : ∀ m, m < k → throws m = false)
    (ht : throws k = true) :
    (∃ a', FaultyRows.step c a (.insertArray i vs) throws = .ok (a', true) ∧
      Shows c a' ((L.map (·.1)).take i ++ [] :: (L.map (·.1)).drop i) ∧ DtorLoses c a' k) ∨
      (c.trivial = false ∧ FaultyRows.step c a (.insertArray i vs) throws = .error (.ub .rawRead)) := by
  have hg : AGood a (L.take i ++ L.drop i) := by rw [List.take_append_drop]; exact reach_good h
  have hl : (L.take i).length = i := by simp; omega
  simp only [FaultyRows.step]
  unfold FaultyRows.insertArray
  obtain ⟨s', h1, h3⟩ := hg.insertRow (c := c)
  rw [hl] at h1
  rw [h1, bind_ok]
  have key := appendToArray_threw c h3 vs throws k hk hq ht
  rw [hl] at key
  rcases key with ⟨a', e, hs, hb⟩ | e
  · have hf := LeftRow.free_left (c := c) hs hb
    rw [List.length_take, Nat.min_eq_left (by omega)] at hf
    refine .inl ⟨a', e, ?_, hf⟩
    have := shows_front (c := c) hs hb (by simp) (prefix_rows _ _ (List.prefix_append _ _))
    simpa using this
  · exact .inr e

theorem resizeArray_threw (c : Cfg) {a : AoA T} {A B : Layout T} {xs : List T} {cap : Nat} (h : AGood a (A ++ (xs, cap) :: B))
    (n : Nat) (v : T) (throws : Nat → Bool) (k : Nat) (hk : xs.length + k < n) (hq : ∀ m, m < k → throws m = false)
    (ht : throws k = true) :
    (∃ a', FaultyRows.resizeArray c throws a A.length n v = .ok (a', true) ∧ LShape a'.shape (A ++ (xs, max cap n) :: B) ∧
      Lay a'.values (A ++ (xs ++ List.replicate k v, max cap n) :: B)) ∨
      (c.trivial = false ∧ FaultyRows.resizeArray c throws a A.length n v = .error (.ub .rawRead)) := by
  have hfx := h.lay.fits (xs, cap) (by simp)
  simp only at hfx
  unfold FaultyRows.resizeArray
  rw [h.checkBounds (by simp), bind_ok, h.shape.capacityOfAt rfl, bind_ok]
  have hgrow : Out a.values.cap (Room c a (A ++ (xs, cap) :: B) (total (A ++ (xs, max cap n) :: B)))
      (AoA.growIf c (decide (cap < n)) a A.length n) (A ++ (xs, max cap n) :: B) := by
    unfold AoA.growIf
    by_cases hg : cap < n
    · simp only [hg, decide_true, if_true]
      have := h.setCapacity (c := c) n
      rw [List.take_of_length_le (by omega)] at this
      rw [Nat.max_eq_right (by omega)]
      exact this
    · simp only [hg, decide_false, if_false, Bool.false_eq_true]
      rw [Nat.max_eq_left (by omega)]
      exact .inl ⟨.inl h.lay.room, a, rfl, h, Nat.le_refl _⟩
  rcases hgrow with ⟨-, a1, e, hg, -⟩ | ⟨hr, e⟩
  · have htl : (List.replicate k v).length = k := by simp
    obtain ⟨b1, h1, w⟩ := (hg.lay.toWin IsRaw).appendMany (c := c) (List.replicate k v) (by omega)
    unfold arrayManipulation.append arrayManipulation.constructRange at h1
    rw [htl] at h1
    have hd : arrayManipulation.destroy c a1.values (total A + n) (xs.length - n) = .ok a1.values := by
      rw [show xs.length - n = 0 by omega]; rfl
    rw [e, bind_ok, hg.shape.sizeOfAt rfl, bind_ok, hg.checkBounds (by simp), bind_ok, hg.ptr, bind_ok, hd, bind_ok,
      constructUntil_first c throws _ _ k (n - xs.length) 0 _ (by omega) (fun m _ hm => hq m (by omega)) (by simpa using ht),
      Nat.add_zero,
      forUp_congr k _ _ (g := fun m b => b.construct c m ((List.replicate k v).getD (m - (total A + xs.length)) default)) (by
        intro m b h1 h2
        simp only at h1 h2
        have hlt : m - (total A + xs.length) < k := by omega
        rw [List.getD_eq_getElem?_getD, List.getElem?_replicate, if_pos hlt]
        rfl), h1]
    exact .inl ⟨{ a1 with values := b1 }, rfl, hg.shape, hg.lay.ofWin w⟩
  · rw [e]
    exact .inr ⟨nontrivial_of_noRoom hr, rfl⟩

/-- **C97, disagreement.** If the constructor of the `k`-th new value of `resizeArray` throws, all inner arrays read as before,
and the `k` values constructed before are never destroyed. -/
theorem C97_throw_in_resizeArray (c : Cfg) {a : AoA T} {L : List (List T × Nat)} (h : Reach c a L) (i : Nat) (hi : i < L.length)
    (n : Nat) (v : T) (throws : Nat → Bool) (k : Nat) (hk : L[i].1.length + k < n) (hq : ∀ m, m < k → throws m = false)
    (ht : throws k = true) :
    (∃ a', FaultyRows.step c a (.resizeArray i n v) throws = .ok (a', true) ∧ Shows c a' (L.map (·.1)) ∧ DtorLoses c a' k) ∨
      (c.trivial = false ∧ FaultyRows.step c a (.resizeArray i n v) throws = .error (.ub .rawRead)) := by
  have hg := reach_good h
  obtain ⟨A, xs, cap, B, rfl, rfl, hx⟩ := split1 hi
  rw [hx] at hk
  rcases resizeArray_threw c hg n v throws k hk hq ht with ⟨a', e, hs, hl⟩ | e
  · have hf := LeftRow.free_left (c := c) hs hl
    rw [List.length_replicate] at hf
    refine .inl ⟨a', e, ?_, hf⟩
    have := shows_front (c := c) hs hl (by simp) (prefix_rows _ _ (List.prefix_append _ _))
    simpa using this
  · exact .inr e

/-- **C97, disagreement.** If the constructor of a value throws in `appendArray( n )`, the new inner array is there, without
values, and the `k` values constructed before are never destroyed. -/
theorem C97_throw_in_sized_appendArray_adds_row (c : Cfg) {a : AoA T} {L : List (List T × Nat)} (h : Reach c a L) (n : Nat)
    (throws : Nat → Bool) (k : Nat) (hk : k < n) (hq : ∀ m, m < k → throws m = false) (ht : throws k = true) :
    (∃ a', FaultyRows.step c a (.appendArraySize n) throws = .ok (a', true) ∧ Shows c a' (L.map (·.1) ++ [[]]) ∧
      DtorLoses c a' k) ∨
      (c.trivial = false ∧ FaultyRows.step c a (.appendArraySize n) throws = .error (.ub .rawRead)) := by
  have hg := reach_good h
  simp only [FaultyRows.step]
  unfold FaultyRows.appendArraySize
  obtain ⟨s', h1, h2, h3⟩ := hg.appendRow (c := c)
  rw [h1, bind_ok, h2, Nat.add_sub_cancel]
  rcases resizeArray_threw c h3 n default throws k (by simpa using hk) hq ht with ⟨a', e, hs, hl⟩ | e
  · have hf := LeftRow.free_left (c := c) hs hl
    rw [List.length_replicate] at hf
    refine .inl ⟨a', e, ?_, hf⟩
    have := shows_front (c := c) hs hl (by simp) (prefix_rows _ _ (List.prefix_append _ _))
    simpa using this
  · exact .inr e

/-- **C97, disagreement.** If the constructor of the `k`-th value throws in `insertIntoArray` in front of a value, the sizes are
as before, the inner array shows the `k` values constructed before as far as its size reaches, and reading the next position is
undefined. -/
theorem C97_throw_in_insertIntoArray_breaks_row (c : Cfg) {a : AoA T} {L : List (List T × Nat)} (h : Reach c a L) (i j : Nat)
    (hi : i < L.length) (hj : j < L[i].1.length) (vs : List T) (throws : Nat → Bool) (k : Nat) (hk : k < vs.length)
    (hq : ∀ m, m < k → throws m = false) (ht : throws k = true) :
    (∃ a', FaultyRows.step c a (.insertIntoArray i j vs) throws = .ok (a', true) ∧ a'.shape.numArrays = L.length ∧
      (∀ m (hm : m < L.length), a'.shape.sizeOfArray c m = .ok L[m].1.length) ∧
      (∀ m (hm : m < k), j + m < L[i].1.length → a'.get c i (j + m) = .ok vs[m]) ∧
      (j + k < L[i].1.length → a'.get c i (j + k) = .error (.ub .rawRead))) ∨
      (c.trivial = false ∧ FaultyRows.step c a (.insertIntoArray i j vs) throws = .error (.ub .rawRead)) := by
  have hg := reach_good h
  obtain ⟨A, xs, cap, B, rfl, rfl, hx⟩ := split1 hi
  rw [hx] at hj ⊢
  replace hj : j < xs.length := hj
  simp only [FaultyRows.step]
  unfold FaultyRows.insertIntoArray
  rcases hg.dynamicallyGrow (c := c) vs.length with ⟨-, a1, e, hg, -⟩ | ⟨hr, e⟩
  · have hle := AGood.le_grownTo xs cap vs.length
    have hroom := hg.lay.room
    simp only [total_append, total_cons] at hroom
    have hw := hg.lay.toWin IsRaw
    have hsh := arrayManipulation.shiftUp_eq c a1.values (total A) xs.length j vs.length (by omega) (by omega)
      (fun k h1 h2 => hw.isLive_front (by omega) (by omega)) (fun k h1 h2 => hw.free k (by simp; omega) (by omega))
    rw [e, bind_ok, ShGood.checkInsertBounds2 hg.shape (by simp) (by simp [szs]; omega), bind_ok, hg.capCheck hle, bind_ok,
      hg.ptr, bind_ok, hg.shape.sizeOfAt rfl, bind_ok, arrayManipulation.assertNonNull_ok _ _ _ (by omega), bind_ok,
      arrayManipulation.checkInsertBounds_ok _ _ _ (by simp only; omega), bind_ok, hsh, bind_ok,
      constructUntil_first c throws _ _ k vs.length 0 _ hk (fun m _ hm => hq m (by omega)) (by simpa using ht)]
    have hcr := arrayManipulation.constructRange_eq c { a1.values with
        cell := fun q =>
          if q < total A + j then a1.values.cell q
          else if q < total A + j + vs.length then .raw
          else if q < total A + xs.length + vs.length then a1.values.cell (q - vs.length)
          else a1.values.cell q
        lostMoved := a1.values.lostMoved + arrayManipulation.shiftUpLost c xs.length j vs.length
        moves := a1.values.moves + arrayManipulation.shiftMoves xs.length j vs.length }
      (total A + j) k (fun m => vs.getD m default) (.inr (by simp only; omega))
      (fun q h1 h2 => by simp only; rw [if_neg (by omega), if_pos (by omega)])
    unfold arrayManipulation.constructRange at hcr
    rw [Nat.add_zero, hcr, bind_ok]
    refine .inl ⟨_, rfl, by simp only; rw [hg.shape.num]; simp, ?_, ?_, ?_⟩
    · intro m hm
      have hsz := (shows_of_good (c := c) hg).2 m (by simpa using hm)
      simp only [List.getElem_map] at hsz
      rw [hsz.1]
      congr 2
      by_cases hj : m < A.length
      · simp [List.getElem_append_left hj]
      · by_cases hj2 : m = A.length
        · subst hj2; simp
        · obtain ⟨q, rfl⟩ : ∃ q, m = A.length + (q + 1) := ⟨m - A.length - 1, by omega⟩
          simp
    · intro m hm hlt
      replace hlt : j + m < xs.length := hlt
      unfold AoA.get AoA.ptr
      simp only
      rw [ShGood.checkBounds2 hg.shape (by simp) (by simpa [szs] using hlt), bind_ok, hg.shape.readOffAt rfl, bind_ok]
      unfold Buf.read
      simp only
      rw [if_pos (by omega), if_pos (by omega), show total A + (j + m) - (total A + j) = m by omega]
      simp [List.getD_eq_getElem?_getD, List.getElem?_eq_getElem (show m < vs.length by omega)]
    · intro hlt
      replace hlt : j + k < xs.length := hlt
      unfold AoA.get AoA.ptr
      simp only
      rw [ShGood.checkBounds2 hg.shape (by simp) (by simpa [szs] using hlt), bind_ok, hg.shape.readOffAt rfl, bind_ok]
      unfold Buf.read
      simp only
      rw [if_pos (by omega), if_neg (by omega), if_neg (by omega), if_pos (by omega)]
  · rw [e]
    exact .inr ⟨nontrivial_of_noRoom hr, rfl⟩

/-! ### Histories in which only harmless calls throw -/

omit [Inhabited T] in
theorem shiftUp_end (c : Cfg) (b : Buf T) (p n q : Nat) : arrayManipulation.shiftUp c b p n n q = .ok b := by
  simp [arrayManipulation.shiftUp, arrayManipulation.checkInsertBounds, errorIf, forDown]
  intro _
  by_cases h : n + q < n
  · omega
  · rw [if_neg h, Nat.sub_self]; rfl

omit [Inhabited T] in
theorem emplace_threw_at_end (c : Cfg) {a : AoA T} {A B : Layout T} {xs : List T} {cap : Nat} (h : AGood a (A ++ (xs, cap) :: B))
    (v : T) (throws : Nat → Bool) (ht : throws 0 = true) :
    (∃ a', FaultyRows.emplace c throws a A.length xs.length v = .ok (a', true) ∧
      AGood a' (A ++ (xs, AGood.grownTo xs cap 1) :: B)) ∨
      (c.trivial = false ∧ FaultyRows.emplace c throws a A.length xs.length v = .error (.ub .rawRead)) := by
  unfold FaultyRows.emplace
  rcases h.dynamicallyGrow (c := c) 1 with ⟨-, a1, e, hg, -⟩ | ⟨hr, e⟩
  · have hle := AGood.le_grownTo xs cap 1
    have hroom := hg.lay.room
    simp only [total_append, total_cons] at hroom
    rw [e, bind_ok, ShGood.checkInsertBounds2 hg.shape (by simp) (by simp [szs]), bind_ok, hg.capCheck hle, bind_ok,
      hg.ptr, bind_ok, hg.shape.sizeOfAt rfl, bind_ok, arrayManipulation.assertNonNull_ok _ _ _ (by omega), bind_ok,
      arrayManipulation.checkInsertBounds_ok _ _ _ (Nat.le_refl _), bind_ok, shiftUp_end, bind_ok,
      constructUntil_first c throws _ _ 0 1 0 _ (by omega) (by omega) ht]
    exact .inl ⟨a1, rfl, hg⟩
  · rw [e]
    exact .inr ⟨nontrivial_of_noRoom hr, rfl⟩

theorem insertIntoArray_threw_at_end (c : Cfg) {a : AoA T} {A B : Layout T} {xs : List T} {cap : Nat}
    (h : AGood a (A ++ (xs, cap) :: B)) (vs : List T) (hv : vs ≠ []) (throws : Nat → Bool) (ht : throws 0 = true) :
    (∃ a', FaultyRows.insertIntoArray c throws a A.length xs.length vs = .ok (a', true) ∧
      AGood a' (A ++ (xs, AGood.grownTo xs cap vs.length) :: B)) ∨
      (c.trivial = false ∧ FaultyRows.insertIntoArray c throws a A.length xs.length vs = .error (.ub .rawRead)) := by
  have hvl := List.length_pos_iff.mpr hv
  unfold FaultyRows.insertIntoArray
  rcases h.dynamicallyGrow (c := c) vs.length with ⟨-, a1, e, hg, -⟩ | ⟨hr, e⟩
  · have hle := AGood.le_grownTo xs cap vs.length
    have hroom := hg.lay.room
    simp only [total_append, total_cons] at hroom
    rw [e, bind_ok, ShGood.checkInsertBounds2 hg.shape (by simp) (by simp [szs]), bind_ok, hg.capCheck hle, bind_ok,
      hg.ptr, bind_ok, hg.shape.sizeOfAt rfl, bind_ok, arrayManipulation.assertNonNull_ok _ _ _ (by omega), bind_ok,
      arrayManipulation.checkInsertBounds_ok _ _ _ (Nat.le_refl _), bind_ok, shiftUp_end, bind_ok,
      constructUntil_first c throws _ _ 0 vs.length 0 _ hvl (by omega) ht]
    exact .inl ⟨a1, rfl, hg⟩
  · rw [e]
    exact .inr ⟨nontrivial_of_noRoom hr, rfl⟩

/-- A call whose first constructor throws and that constructs at the end of an inner array. -/
theorem threw_at_end (c : Cfg) {a : AoA T} {L : Layout T} (h : AGood a L) (op : AoAOp T) (throws : Nat → Bool)
    {rows1 : List (List T)} (h1 : vvStep (L.map (·.1)) op = some rows1) (he : ConstructsAtEnd (L.map (·.1)) op)
    (ht : throws 0 = true) :
    (∃ a1 L1, FaultyRows.step c a op throws = .ok (a1, true) ∧ AGood a1 L1 ∧ L1.map (·.1) = L.map (·.1)) ∨
      (c.trivial = false ∧ FaultyRows.step c a op throws = .error (.ub .rawRead)) := by
  have hin : ∀ i ok f, onRow (L.map (·.1)) i ok f = some rows1 → i < L.length := by
    intro i ok f hf
    unfold onRow at hf
    cases hl : (L.map (·.1))[i]? with
    | none => rw [hl] at hf; cases hf
    | some r => have := (List.getElem?_eq_some_iff.mp hl).1; simpa using this
  cases op with
  | emplaceBack i v =>
    obtain ⟨A, xs, cap, B, rfl, rfl, -⟩ := split1 (hin _ _ _ h1)
    rcases emplaceBack_threw c h v throws ht with ⟨a', e, hg⟩ | e
    · exact .inl ⟨a', _, e, hg, by simp⟩
    · exact .inr e
  | appendToArray i vs =>
    obtain ⟨A, xs, cap, B, rfl, rfl, -⟩ := split1 (hin _ _ _ h1)
    rcases appendToArray_threw c h vs throws 0 (List.length_pos_iff.mpr he) (by omega) ht with ⟨a', e, hs', hl⟩ | e
    · exact .inl ⟨a', _, e, ⟨hs', by simpa using hl⟩, by simp⟩
    · exact .inr e
  | emplace i j v =>
    obtain ⟨A, xs, cap, B, rfl, rfl, -⟩ := split1 (hin _ _ _ h1)
    obtain rfl : xs.length = j := by simpa [ConstructsAtEnd] using he
    rcases emplace_threw_at_end c h v throws ht with ⟨a', e, hg⟩ | e
    · exact .inl ⟨a', _, e, hg, by simp⟩
    · exact .inr e
  | insertIntoArray i j vs =>
    obtain ⟨A, xs, cap, B, rfl, rfl, -⟩ := split1 (hin _ _ _ h1)
    obtain ⟨hv, he⟩ := he
    obtain rfl : xs.length = j := by simpa using he
    rcases insertIntoArray_threw_at_end c h vs hv throws ht with ⟨a', e, hg⟩ | e
    · exact .inl ⟨a', _, e, hg, by simp⟩
    · exact .inr e
  | resizeArray i n v =>
    obtain ⟨A, xs, cap, B, rfl, rfl, -⟩ := split1 (hin _ _ _ h1)
    obtain ⟨r, hr, hn⟩ := he
    obtain rfl : xs = r := by simpa using hr
    rcases resizeArray_threw c h n v throws 0 (by omega) (by omega) ht with ⟨a', e, hs', hl⟩ | e
    · exact .inl ⟨a', _, e, ⟨hs', by simpa using hl⟩, by simp⟩
    · exact .inr e
  | _ => exact absurd he (by simp [ConstructsAtEnd])

theorem faultyRows_run (c : Cfg) {rows0 rows : List (List T)} {ops : List (AoAOp T × (Nat → Bool))} {threw : List Bool}
    (hs : RowsAfter rows0 ops rows threw) (hd : NoEmptyInsert c (ops.map (·.1))) {a : AoA T} {L : Layout T} (h : AGood a L)
    (hL : L.map (·.1) = rows0) :
    (∃ a' L', FaultyRows.run c a ops = .ok (a', threw) ∧ AGood a' L' ∧ L'.map (·.1) = rows) ∨
      (c.trivial = false ∧ FaultyRows.run c a ops = .error (.ub .rawRead)) := by
  induction hs generalizing a L with
  | done rows => exact .inl ⟨a, L, rfl, h, hL⟩
  | @returns rows0 rows1 rows' op throws ops threw legal never rest ih =>
    subst hL
    have hd' : NoEmptyInsert c (ops.map (·.1)) := fun hh o ho => hd hh o (by simp at ho ⊢; exact .inr ho)
    obtain ⟨L1, h3, h4⟩ := vvcRun_of_vvRun (L := L) (ops := [op]) (rows := rows1) (by simp [vvRun, legal])
    have h5 : vvcStep L op = some L1 := by
      unfold vvcRun at h3
      cases hx : vvcStep L op with
      | none => rw [hx] at h3; cases h3
      | some y => rw [hx] at h3; exact h3
    unfold FaultyRows.run
    rw [C97_no_throw c a op throws never]
    rcases step_exact c h op h5 (fun hh => hd hh op (by simp)) with ⟨_, a1, h6, h7, _⟩ | ⟨h6, h7⟩
    · rw [h6, bind_ok, bind_ok]
      rcases ih hd' h7 h4 with ⟨a', L', e', hg', hL'⟩ | ⟨hc, e'⟩
      · rw [e', bind_ok]
        exact .inl ⟨a', L', rfl, hg', hL'⟩
      · rw [e']
        exact .inr ⟨hc, rfl⟩
    · rw [h7]
      exact .inr ⟨nontrivial_of_noRoom h6, rfl⟩
  | @throws rows0 rows1 rows' op throws ops threw legal atEnd first rest ih =>
    subst hL
    have hd' : NoEmptyInsert c (ops.map (·.1)) := fun hh o ho => hd hh o (by simp at ho ⊢; exact .inr ho)
    unfold FaultyRows.run
    rcases threw_at_end c h op throws legal atEnd first with ⟨a1, L1, e, hg, hL1⟩ | ⟨hc, e⟩
    · rw [e, bind_ok]
      rcases ih hd' hg hL1 with ⟨a', L', e', hg', hL'⟩ | ⟨hc, e'⟩
      · rw [e', bind_ok]
        exact .inl ⟨a', L', rfl, hg', hL'⟩
      · rw [e']
        exact .inr ⟨hc, rfl⟩
    · rw [e]
      exact .inr ⟨hc, rfl⟩

/-- **C97, partial.** In a history in which the only calls that throw construct at the end of an inner array and throw at the
first value (`RowsAfter`), exactly those calls throw, the object shows the rows of the history without them, and no value is
lost; or, if the type of the values is not trivially copyable, the history may be undefined because values have to be moved (see
`C21_any_type_partial`).  Missing: the other calls that throw, where the claim is false (see the theorems above). -/
theorem C97_harmless_throws_partial (c : Cfg) (n d : Nat) (ops : List (AoAOp T × (Nat → Bool)))
    (hd : NoEmptyInsert c (ops.map (·.1))) (rows : List (List T)) (threw : List Bool)
    (hs : RowsAfter (List.replicate n []) ops rows threw) :
    ∃ a, AoA.mk' c n d = .ok a ∧
      ((∃ a', FaultyRows.run c a ops = .ok (a', threw) ∧ Shows c a' rows ∧ DtorLoses c a' 0) ∨
       (c.trivial = false ∧ FaultyRows.run c a ops = .error (.ub .rawRead))) := by
  obtain ⟨a, h1, h2⟩ := mk_good (T := T) c n d
  refine ⟨a, h1, ?_⟩
  rcases faultyRows_run c hs hd h2 (by simp) with ⟨a', L', e, hg, rfl⟩ | e
  · refine .inl ⟨a', e, shows_of_good hg, ?_⟩
    obtain ⟨b, h1, h2, _⟩ := hg.weak.destroyAll (c := c)
    refine ⟨_, by rw [AoA.free, h1, bind_ok], ?_, by simp [Buf.release, h2.kind]⟩
    have hz : b.countL c b.cap = 0 := countL_zero c b _ (.inr fun k _ => by rw [h2.cell]; rfl)
    simp [Buf.release, h2.kind, h2.lost, hz]
  · exact .inr e

end

/-! ### Concrete cases -/

/-- The second constructor of a call throws, or the first, or none. -/
private def second : Nat → Bool := (· == 1)

private def first : Nat → Bool := (· == 0)

private def never : Nat → Bool := fun _ => false

private def tracked : Cfg := { trivial := false, boundsCheck := true, debug := true }

/-- A history with two calls that throw, inner arrays with room for four values of a type that is not trivially copyable. -/
private def rowHistory : List (AoAOp Nat × (Nat → Bool)) :=
  [(.emplaceBack 0 5, never), (.emplaceBack 0 6, first), (.appendToArray 1 [7, 8], first), (.appendToArray 1 [9, 9], never),
   (.emplace 1 2 4, first), (.resizeArray 0 3 1, first), (.insertIntoArray 1 2 [1], first), (.emplace 1 0 3, never),
   (.clearArray 0, never)]

/-- Sizes, a value of each inner array, and which calls threw. -/
private def summary (r : R (AoA Nat × List Bool)) : Option (List Nat × List (Option Nat) × List Bool) :=
  match r with
  | .ok (a, threw) =>
    some ((List.range a.shape.numArrays).map (fun i => (a.shape.sizeOfArray tracked i).toOption.getD 99),
      (List.range a.shape.numArrays).map (fun i => (a.get tracked i 0).toOption), threw)
  | .error _ => none

private def rowsMade (ops : List (AoAOp Nat × (Nat → Bool))) : R (AoA Nat × List Bool) :=
  AoA.mk' tracked 2 4 >>= fun a => FaultyRows.run tracked a ops

/-- The values whose storage is released without running their destructor. -/
private def neverDestroyed (r : R (AoA Nat × List Bool)) : Option Nat :=
  match r >>= fun q => q.1.free tracked with
  | .ok a => some a.values.lostLive
  | .error _ => none

/-- The hypotheses of `C97_harmless_throws_partial` hold, and the first of its alternatives. -/
example : RowsAfter [[], []] rowHistory [[], [3, 9, 9]] [false, true, true, false, true, true, true, false, false] ∧
    summary (rowsMade rowHistory) = some ([0, 3], [none, some 3], [false, true, true, false, true, true, true, false, false]) ∧
    neverDestroyed (rowsMade rowHistory) = some 0 := by
  refine ⟨?_, by decide +kernel, by decide +kernel⟩
  refine .returns (rows1 := [[5], []]) (by decide) (fun _ => rfl) ?_
  refine .throws (rows1 := [[5, 6], []]) (by decide) trivial rfl ?_
  refine .throws (rows1 := [[5], [7, 8]]) (by decide) (by simp [ConstructsAtEnd]) rfl ?_
  refine .returns (rows1 := [[5], [9, 9]]) (by decide) (fun _ => rfl) ?_
  refine .throws (rows1 := [[5], [9, 9, 4]]) (by decide) (by simp [ConstructsAtEnd]) rfl ?_
  refine .throws (rows1 := [[5, 1, 1], [9, 9]]) (by decide) (by simp [ConstructsAtEnd]) rfl ?_
  refine .throws (rows1 := [[5], [9, 9, 1]]) (by decide) (by simp [ConstructsAtEnd]) rfl ?_
  refine .returns (rows1 := [[5], [3, 9, 9]]) (by decide) (fun _ => rfl) ?_
  refine .returns (rows1 := [[], [3, 9, 9]]) (by decide) (fun _ => rfl) ?_
  exact .done _

/-- `appendToArray` whose second value throws: the inner array is as before, and the first value is never destroyed. -/
example : summary (rowsMade [(.emplaceBack 0 5, never), (.appendToArray 0 [7, 8], second)]) =
      some ([1, 0], [some 5, none], [false, true]) ∧
    neverDestroyed (rowsMade [(.emplaceBack 0 5, never), (.appendToArray 0 [7, 8], second)]) = some 1 := by decide +kernel

/-- `emplace` in front of a value that throws: the inner array still has one value, reading it is undefined, and so is the
destructor. -/
example : summary (rowsMade [(.emplaceBack 0 5, never), (.emplace 0 0 7, first)]) =
      some ([1, 0], [none, none], [false, true]) ∧
    neverDestroyed (rowsMade [(.emplaceBack 0 5, never), (.emplace 0 0 7, first)]) = none := by decide +kernel

/-- `appendArray` that throws: there is one more inner array. -/
example : summary (AoA.mk' tracked 0 0 >>= fun a => FaultyRows.run tracked a
      [(.reserveValues 30, never), (.resize 2 4, never), (.emplaceBack 0 5, never), (.appendArray [7, 8], first)]) =
      some ([1, 0, 0], [some 5, none, none], [false, false, false, true]) := by decide +kernel

/-- `insertIntoArray` whose second value throws: the inner array of two values shows the first new one and nothing behind it. -/
example : summary (rowsMade [(.appendToArray 0 [5, 6], never), (.insertIntoArray 0 0 [7, 8], second)]) =
      some ([2, 0], [some 7, none], [false, true]) ∧
    neverDestroyed (rowsMade [(.appendToArray 0 [5, 6], never), (.insertIntoArray 0 0 [7, 8], second)]) = none := by decide +kernel

/-- `resizeArray` whose second value throws: the inner array is as before, and one value is never destroyed. -/
example : summary (rowsMade [(.emplaceBack 0 5, never), (.resizeArray 0 3 7, second)]) =
      some ([1, 0], [some 5, none], [false, true]) ∧
    neverDestroyed (rowsMade [(.emplaceBack 0 5, never), (.resizeArray 0 3 7, second)]) = some 1 := by decide +kernel

/-- The state of the other theorems can be reached: two inner arrays, one with two values. -/
example (c : Cfg) (ht : c.trivial = true) : ∃ a, Reach (T := Nat) c a [([1, 2], 4), ([], 4)] := by
  obtain ⟨a, h⟩ := reach_of_history (T := Nat) c ht 2 4 [.appendToArray 0 [1, 2]] (L := [([1, 2], 4), ([], 4)])
    (hd := fun _ op hop => by
      simp only [List.mem_cons, List.not_mem_nil, or_false] at hop
      subst hop; simp [AoAOp.nonEmptyInsert])
    (h := by decide)
  exact ⟨a, h⟩

end LvArray.Props

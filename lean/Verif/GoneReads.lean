import Verif.SetListCaps

/-!
# Calls on values that are gone

When none of the values of a set that is not empty can be read, the functions of `sortedArrayManipulation` do not return.
-/

namespace LvArray.Props

open LvArray Spec sortedArrayManipulation

variable {T : Type} {c : Cfg} {n : Nat}

theorem gone_assertRange {read : Nat → R T} (h : ∀ k, read k = .error (.ub .outOfBounds)) (h0 : n ≠ 0) (p : List T → Bool) :
    assertRange c read n p = .ok () ∨ assertRange c read n p = .error (.ub .outOfBounds) := by
  unfold assertRange
  cases c.debug
  · exact .inl rfl
  · right
    obtain ⟨m, rfl⟩ := Nat.exists_eq_succ_of_ne_zero h0
    simp only [if_true, readAll, List.range_succ_eq_map, List.mapM_cons, h, bind_err]

variable [LinearOrder T]

theorem gone_find {read : Nat → R T} (h : ∀ k, read k = .error (.ub .outOfBounds)) (h0 : n ≠ 0) (v : T) :
    find c less read n v = .error (.ub .outOfBounds) := by
  unfold find
  rcases gone_assertRange (c := c) h h0 (isSorted less) with e | e
  · rw [e, bind_ok]
    obtain ⟨m, rfl⟩ := Nat.exists_eq_succ_of_ne_zero h0
    unfold findLoop
    rw [if_neg (by omega)]
    simp only [h, bind_err]
  · rw [e, bind_err]

theorem gone_contains {read : Nat → R T} (h : ∀ k, read k = .error (.ub .outOfBounds)) (h0 : n ≠ 0) (v : T) :
    contains c less read n v = .error (.ub .outOfBounds) := by
  unfold contains
  rw [gone_find h h0, bind_err]

theorem gone_removeOne {σ : Type} {t : Target σ T} {s : σ} (h : ∀ k, t.read s k = .error (.ub .outOfBounds)) (h0 : n ≠ 0) (v : T) :
    removeOne c t s n v = .error (.ub .outOfBounds) := by
  unfold removeOne
  rw [gone_find h h0, bind_err]

theorem gone_insertOne {σ : Type} {t : Target σ T} {s : σ} (h : ∀ k, t.read s k = .error (.ub .outOfBounds)) (h0 : n ≠ 0) (v : T) :
    insertOne c t s n v = .error (.ub .outOfBounds) := by
  unfold insertOne insertPosition
  rcases gone_assertRange (c := c) h h0 (isSortedUnique less) with e | e
  · rw [e, bind_ok, if_neg h0, h, bind_err, bind_err]
  · rw [e, bind_err]

theorem gone_order {vs : List T} (hv : sortedUnique vs) : errorIf (c.debug && !isSortedUnique less vs) = .ok () := by
  have : isSortedUnique less vs = true := by
    refine isSortedUnique_of_pairwise (List.Pairwise.imp ?_ hv)
    intro a b hab
    simp only [less, decide_eq_true_eq, decide_eq_false_iff_not]
    exact ⟨hab, fun h => absurd (lt_trans hab h) (lt_irrefl _)⟩
  rw [this]
  simp [errorIf]

theorem gone_removeRange {σ : Type} {t : Target σ T} {s : σ} (h : ∀ k, t.read s k = .error (.ub .outOfBounds)) (h0 : n ≠ 0)
    {vs : List T} (hv : sortedUnique vs) (hne : vs ≠ []) : removeRange c t s n vs = .error (.ub .outOfBounds) := by
  obtain ⟨v, vs, rfl⟩ := List.exists_cons_of_ne_nil hne
  unfold removeRange
  rcases gone_assertRange (c := c) h h0 (isSortedUnique less) with e | e
  · rw [e, bind_ok, gone_order hv, bind_ok]
    unfold seek
    rw [gone_find (fun k => h _) (by omega), bind_err, bind_err]
  · rw [e, bind_err]

theorem gone_insertRange [Inhabited T] {σ : Type} {t : Target σ T} {s : σ} (h : ∀ k, t.read s k = .error (.ub .outOfBounds))
    (h0 : n ≠ 0) {vs : List T} (hv : sortedUnique vs) (hne : vs ≠ []) : insertRange c t s n vs = .error (.ub .outOfBounds) := by
  obtain ⟨v, ws, hr⟩ := List.exists_cons_of_ne_nil (show vs.reverse ≠ [] by simpa using hne)
  unfold insertRange
  rcases gone_assertRange (c := c) h h0 (isSortedUnique less) with e | e
  · rw [e, bind_ok, gone_order hv, bind_ok, if_neg h0, hr]
    unfold countLoop
    rw [gone_find h h0, bind_err, bind_err]
  · rw [e, bind_err]

end LvArray.Props

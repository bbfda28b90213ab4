import Verif.RowCaps

/-!
# Lemmas about views of an `ArrayOfArrays`
-/

namespace LvArray

open Layout Spec RowCaps

variable {T : Type} {c : Cfg}

/-! ## The number of arrays matters only for the bounds checks -/

/-- The same with another number of arrays. -/
def Shape.withNum (s : Shape) (n : Nat) : Shape := { s with numArrays := n }

/-- The same with another number of arrays. -/
def AoA.withNum (a : AoA T) (n : Nat) : AoA T := { a with shape := a.shape.withNum n }

namespace RowViews

variable {s : Shape} {a : AoA T} {i n : Nat}

theorem checkBounds_num (h1 : i < n) (h2 : i < s.numArrays) : (s.withNum n).checkBounds c i = s.checkBounds c i := by
  unfold Shape.checkBounds Shape.withNum
  simp only
  rw [decide_eq_false (by omega : ¬ n ≤ i), decide_eq_false (by omega : ¬ s.numArrays ≤ i)]

theorem sizeOfArray_num (h1 : i < n) (h2 : i < s.numArrays) : (s.withNum n).sizeOfArray c i = s.sizeOfArray c i := by
  unfold Shape.sizeOfArray
  rw [checkBounds_num h1 h2]
  rfl

theorem capacityOfArray_num (h1 : i < n) (h2 : i < s.numArrays) : (s.withNum n).capacityOfArray c i = s.capacityOfArray c i := by
  unfold Shape.capacityOfArray
  rw [checkBounds_num h1 h2]
  rfl

theorem checkBounds2_num (h1 : i < n) (h2 : i < s.numArrays) (j : Nat) : (s.withNum n).checkBounds2 c i j = s.checkBounds2 c i j := by
  unfold Shape.checkBounds2 Shape.withNum
  simp only
  rw [if_neg (by omega : ¬ n ≤ i), if_neg (by omega : ¬ s.numArrays ≤ i)]

theorem checkInsertBounds2_num (h1 : i < n) (h2 : i < s.numArrays) (j : Nat) :
    (s.withNum n).checkInsertBounds2 c i j = s.checkInsertBounds2 c i j := by
  unfold Shape.checkInsertBounds2 Shape.withNum
  simp only
  rw [if_neg (by omega : ¬ n ≤ i), if_neg (by omega : ¬ s.numArrays ≤ i)]

theorem capacityCheck_num (h1 : i < n) (h2 : i < s.numArrays) (k : Nat) :
    (s.withNum n).capacityCheck c i k = s.capacityCheck c i k := by
  unfold Shape.capacityCheck
  rw [sizeOfArray_num h1 h2, capacityOfArray_num h1 h2]

theorem setSize_num (k : Nat) : (s.withNum n).setSize c i k = (s.setSize c i k).map (·.withNum n) := by
  unfold Shape.setSize Shape.withNum
  simp only
  cases s.sizes.write c.ix i k <;> rfl

theorem get_num (h1 : i < n) (h2 : i < a.shape.numArrays) (j : Nat) : (a.withNum n).get c i j = a.get c i j := by
  unfold AoA.get
  rw [show (a.withNum n).shape = a.shape.withNum n from rfl, checkBounds2_num h1 h2]
  rfl

theorem afterSet_num (x : R (Buf T)) (k : Nat) :
    (x >>= fun values => (a.shape.withNum n).setSize c i k >>= fun shape => .ok { shape := shape, values := values } : R (AoA T)) =
      (x >>= fun values => a.shape.setSize c i k >>= fun shape => .ok { shape := shape, values := values } : R (AoA T)).map
        (fun a => a.withNum n) := by
  cases x with
  | error e => rfl
  | ok b =>
    rw [bind_ok, bind_ok, setSize_num]
    cases a.shape.setSize c i k <;> rfl

theorem map_bind {α β γ : Type} (x : R α) (f : α → R β) (g : β → γ) : (x >>= f).map g = (x >>= fun a => (f a).map g) := by
  cases x <;> rfl

/-- A function of the view does the same whatever number of arrays the view takes there to be. -/
theorem edit_num [Inhabited T] (e : RowEdit T) (h1 : e.row < n) (h2 : e.row < a.shape.numArrays) :
    (a.withNum n).edit c e = (a.edit c e).map (·.withNum n) := by
  cases e with
  | set i j v =>
    have h1 : i < n := h1
    have h2 : i < a.shape.numArrays := h2
    simp only [AoA.edit, AoA.set]
    rw [show (a.withNum n).shape = a.shape.withNum n from rfl, checkBounds2_num h1 h2, map_bind]
    congr 1; funext _
    rw [map_bind]
    refine congrArg (Bind.bind (a.ptr i)) (funext fun p => ?_)
    rw [map_bind]
    rfl
  | emplaceBack i v =>
    have h1 : i < n := h1
    have h2 : i < a.shape.numArrays := h2
    simp only [AoA.edit, AoA.viewEmplaceBack]
    rw [show (a.withNum n).shape = a.shape.withNum n from rfl, checkBounds_num h1 h2, capacityCheck_num h1 h2,
      sizeOfArray_num h1 h2, map_bind]
    congr 1; funext _
    rw [map_bind]
    congr 1; funext _
    rw [map_bind]
    refine congrArg (Bind.bind (a.ptr i)) (funext fun p => ?_)
    rw [map_bind]
    congr 1; funext k
    exact afterSet_num _ _
  | appendToArray i vs =>
    have h1 : i < n := h1
    have h2 : i < a.shape.numArrays := h2
    simp only [AoA.edit, AoA.viewAppendToArray]
    rw [show (a.withNum n).shape = a.shape.withNum n from rfl, checkBounds_num h1 h2, capacityCheck_num h1 h2,
      sizeOfArray_num h1 h2, map_bind]
    congr 1; funext _
    rw [map_bind]
    refine congrArg (Bind.bind (a.ptr i)) (funext fun p => ?_)
    rw [map_bind]
    congr 1; funext k
    rw [map_bind]
    refine congrArg (Bind.bind (arrayManipulation.append c a.values p k vs)) (funext fun b => ?_)
    rw [map_bind]
    congr 1; funext _
    exact afterSet_num (.ok b) _
  | emplace i j v =>
    have h1 : i < n := h1
    have h2 : i < a.shape.numArrays := h2
    simp only [AoA.edit, AoA.viewEmplace]
    rw [show (a.withNum n).shape = a.shape.withNum n from rfl, checkInsertBounds2_num h1 h2, capacityCheck_num h1 h2,
      sizeOfArray_num h1 h2, map_bind]
    congr 1; funext _
    rw [map_bind]
    congr 1; funext _
    rw [map_bind]
    refine congrArg (Bind.bind (a.ptr i)) (funext fun p => ?_)
    rw [map_bind]
    congr 1; funext k
    exact afterSet_num _ _
  | insertIntoArray i j vs =>
    have h1 : i < n := h1
    have h2 : i < a.shape.numArrays := h2
    simp only [AoA.edit, AoA.viewInsertIntoArray]
    rw [show (a.withNum n).shape = a.shape.withNum n from rfl, checkInsertBounds2_num h1 h2, capacityCheck_num h1 h2,
      sizeOfArray_num h1 h2, map_bind]
    congr 1; funext _
    rw [map_bind]
    congr 1; funext _
    rw [map_bind]
    refine congrArg (Bind.bind (a.ptr i)) (funext fun p => ?_)
    rw [map_bind]
    congr 1; funext k
    exact afterSet_num _ _
  | eraseFromArray i j k =>
    have h1 : i < n := h1
    have h2 : i < a.shape.numArrays := h2
    simp only [AoA.edit, AoA.eraseFromArray]
    rw [show (a.withNum n).shape = a.shape.withNum n from rfl, checkBounds2_num h1 h2, sizeOfArray_num h1 h2, map_bind]
    congr 1; funext _
    rw [map_bind]
    refine congrArg (Bind.bind (a.ptr i)) (funext fun p => ?_)
    rw [map_bind]
    congr 1; funext k
    exact afterSet_num _ _

/-! ## Functions of the view against the specification -/

variable {L L' : Layout T}

theorem answer_ok (h : AGood a L) {q : RowQuery} {x : RowAnswer T} (hx : Spec.answer L n q = some x) :
    (a.withNum n).answer c q = .ok x := by
  have hnum : a.shape.numArrays = L.length := by rw [ShGood.num h.shape]; simp
  cases q with
  | size =>
    simp only [Spec.answer, Option.some.injEq] at hx
    subst hx
    rfl
  | sizeOfArray i =>
    simp only [Spec.answer, Option.ite_none_right_eq_some, Option.map_eq_some_iff] at hx
    obtain ⟨hi, r, hr, rfl⟩ := hx
    obtain ⟨hi', hr⟩ := List.getElem?_eq_some_iff.1 hr
    obtain ⟨A, xs, cap, B, rfl, rfl, _⟩ := split1 hi'
    have : r = (xs, cap) := by rw [← hr]; simp
    subst this
    simp only [AoA.answer]
    rw [show (a.withNum n).shape = a.shape.withNum n from rfl, sizeOfArray_num hi (by omega), h.shape.sizeOfAt rfl, bind_ok]
  | capacityOfArray i =>
    simp only [Spec.answer, Option.ite_none_right_eq_some, Option.map_eq_some_iff] at hx
    obtain ⟨hi, r, hr, rfl⟩ := hx
    obtain ⟨hi', hr⟩ := List.getElem?_eq_some_iff.1 hr
    obtain ⟨A, xs, cap, B, rfl, rfl, _⟩ := split1 hi'
    have : r = (xs, cap) := by rw [← hr]; simp
    subst this
    simp only [AoA.answer]
    rw [show (a.withNum n).shape = a.shape.withNum n from rfl, capacityOfArray_num hi (by omega), h.shape.capacityOfAt rfl, bind_ok]
  | get i j =>
    simp only [Spec.answer, Option.ite_none_right_eq_some, Option.bind_eq_some_iff, Option.map_eq_some_iff] at hx
    obtain ⟨hi, r, hr, v, hv, rfl⟩ := hx
    obtain ⟨hi', hr⟩ := List.getElem?_eq_some_iff.1 hr
    obtain ⟨A, xs, cap, B, rfl, rfl, _⟩ := split1 hi'
    have : r = (xs, cap) := by rw [← hr]; simp
    subst this
    obtain ⟨hj, hv⟩ := List.getElem?_eq_some_iff.1 hv
    simp only at hj hv
    simp only [AoA.answer]
    rw [get_num hi (by omega), h.get j hj, bind_ok, hv]

theorem caps_mid {A B : Layout T} {r r' : List T × Nat} (h : (A ++ r' :: B).map (·.2) = (A ++ r :: B).map (·.2)) : r'.2 = r.2 := by
  simpa using h

/-- In a debug build, inserting an empty range through a view is legal only once something has been allocated. -/
def _root_.LvArray.RowEdit.nonEmptyInsert : RowEdit T → Prop
  | .insertIntoArray _ _ vs => vs ≠ []
  | _ => True

theorem edit_ok [Inhabited T] (h : AGood a L) {e : RowEdit T} (he : Spec.edited L n e = some L')
    (hd : c.debug = true → e.nonEmptyInsert) :
    ∃ a', (a.withNum n).edit c e = .ok (a'.withNum n) ∧ AGood a' L' ∧ roomOf a' = roomOf a ∧
      a'.shape.numArrays = a.shape.numArrays ∧ a'.shape.offsets = a.shape.offsets ∧ L'.length = L.length := by
  have hnum : a.shape.numArrays = L.length := by rw [ShGood.num h.shape]; simp
  unfold Spec.edited at he
  simp only [Option.ite_none_right_eq_some, Option.bind_eq_some_iff] at he
  obtain ⟨hrow, L1, h1, h2, h3⟩ := he
  cases h3
  have key : ∃ a', a.edit c e = .ok a' ∧ AGood a' L' ∧ e.row < L.length ∧ L'.length = L.length := by
    cases e with
    | set i j v =>
      simp only [RowEdit.asCall, vvcStep] at h1
      obtain ⟨A, xs, cap, B, rfl, rfl, hj, rfl⟩ := onRowC_some h1
      obtain ⟨a', k1, k2, _⟩ := h.set (c := c) j (by simpa using hj) v
      exact ⟨a', k1, k2, by simp [RowEdit.row], by simp⟩
    | emplaceBack i v =>
      simp only [RowEdit.asCall, vvcStep] at h1
      obtain ⟨A, xs, cap, B, rfl, rfl, hj, rfl⟩ := onRowC_some h1
      have hc : Spec.grown cap (xs.length + 1) = cap := caps_mid h2
      have hr : xs.length + 1 ≤ cap := by unfold Spec.grown at hc; split at hc <;> omega
      obtain ⟨a', k1, k2, _⟩ := h.viewEmplaceBack (c := c) v hr
      exact ⟨a', k1, by rw [hc]; exact k2, by simp [RowEdit.row], by simp⟩
    | appendToArray i vs =>
      simp only [RowEdit.asCall, vvcStep] at h1
      obtain ⟨A, xs, cap, B, rfl, rfl, hj, rfl⟩ := onRowC_some h1
      have hc : Spec.grown cap (xs.length + vs.length) = cap := caps_mid h2
      have hr : xs.length + vs.length ≤ cap := by unfold Spec.grown at hc; split at hc <;> omega
      obtain ⟨a', k1, k2, _⟩ := h.viewAppend (c := c) vs hr
      exact ⟨a', k1, by rw [hc]; exact k2, by simp [RowEdit.row], by simp⟩
    | emplace i j v =>
      simp only [RowEdit.asCall, vvcStep] at h1
      obtain ⟨A, xs, cap, B, rfl, rfl, hj, rfl⟩ := onRowC_some h1
      have hc : Spec.grown cap (xs.length + 1) = cap := caps_mid h2
      have hr : xs.length + 1 ≤ cap := by unfold Spec.grown at hc; split at hc <;> omega
      obtain ⟨a', k1, k2, _⟩ := h.viewEmplace (c := c) j (by simpa using hj) v hr
      exact ⟨a', k1, by rw [hc]; exact k2, by simp [RowEdit.row], by simp⟩
    | insertIntoArray i j vs =>
      simp only [RowEdit.asCall, vvcStep] at h1
      obtain ⟨A, xs, cap, B, rfl, rfl, hj, rfl⟩ := onRowC_some h1
      have hc : Spec.grown cap (xs.length + vs.length) = cap := caps_mid h2
      have hr : xs.length + vs.length ≤ cap := by unfold Spec.grown at hc; split at hc <;> omega
      obtain ⟨a', k1, k2, _⟩ := h.viewInsert (c := c) j (by simpa using hj) vs hr (fun hdb => .inl (hd hdb))
      exact ⟨a', k1, by rw [hc]; exact k2, by simp [RowEdit.row], by simp⟩
    | eraseFromArray i j k =>
      simp only [RowEdit.asCall, vvcStep] at h1
      obtain ⟨A, xs, cap, B, rfl, rfl, hj, rfl⟩ := onRowC_some h1
      simp only [decide_eq_true_eq] at hj
      obtain ⟨a', k1, k2, _⟩ := h.eraseFromArray (c := c) j k hj.1 hj.2
      exact ⟨a', k1, k2, by simp [RowEdit.row], by simp⟩
  obtain ⟨a', k1, k2, k3, k4⟩ := key
  refine ⟨a', ?_, k2, edit_room k1, ?_, ?_, k4⟩
  · rw [edit_num e hrow (by omega), k1]; rfl
  · rw [hnum, ← k4, ShGood.num k2.shape]; simp
  · -- no function of the view touches the offsets
    cases e with
    | set i j v =>
      obtain ⟨_, _, h⟩ := bind_eq_ok.mp (show (a.set c i j v) = .ok a' from k1)
      obtain ⟨p, _, h⟩ := bind_eq_ok.mp h
      obtain ⟨b, hb, h⟩ := bind_eq_ok.mp h
      cases h; rfl
    | emplaceBack i v =>
      obtain ⟨_, _, h⟩ := bind_eq_ok.mp (show (a.viewEmplaceBack c i v) = .ok a' from k1)
      obtain ⟨_, _, h⟩ := bind_eq_ok.mp h
      obtain ⟨p, _, h⟩ := bind_eq_ok.mp h
      obtain ⟨n, _, h⟩ := bind_eq_ok.mp h
      obtain ⟨b, _, h⟩ := bind_eq_ok.mp h
      obtain ⟨s, hs, h⟩ := bind_eq_ok.mp h
      cases h; exact (setSize_room hs).2
    | appendToArray i vs =>
      obtain ⟨_, _, h⟩ := bind_eq_ok.mp (show (a.viewAppendToArray c i vs) = .ok a' from k1)
      obtain ⟨p, _, h⟩ := bind_eq_ok.mp h
      obtain ⟨n, _, h⟩ := bind_eq_ok.mp h
      obtain ⟨b, hb, h⟩ := bind_eq_ok.mp h
      obtain ⟨_, _, h⟩ := bind_eq_ok.mp h
      obtain ⟨s, hs, h⟩ := bind_eq_ok.mp h
      cases h; exact (setSize_room hs).2
    | emplace i j v =>
      obtain ⟨_, _, h⟩ := bind_eq_ok.mp (show (a.viewEmplace c i j v) = .ok a' from k1)
      obtain ⟨_, _, h⟩ := bind_eq_ok.mp h
      obtain ⟨p, _, h⟩ := bind_eq_ok.mp h
      obtain ⟨n, _, h⟩ := bind_eq_ok.mp h
      obtain ⟨b, _, h⟩ := bind_eq_ok.mp h
      obtain ⟨s, hs, h⟩ := bind_eq_ok.mp h
      cases h; exact (setSize_room hs).2
    | insertIntoArray i j vs =>
      obtain ⟨_, _, h⟩ := bind_eq_ok.mp (show (a.viewInsertIntoArray c i j vs) = .ok a' from k1)
      obtain ⟨_, _, h⟩ := bind_eq_ok.mp h
      obtain ⟨p, _, h⟩ := bind_eq_ok.mp h
      obtain ⟨n, _, h⟩ := bind_eq_ok.mp h
      obtain ⟨b, _, h⟩ := bind_eq_ok.mp h
      obtain ⟨s, hs, h⟩ := bind_eq_ok.mp h
      cases h; exact (setSize_room hs).2
    | eraseFromArray i j k =>
      obtain ⟨_, _, h⟩ := bind_eq_ok.mp (show (a.eraseFromArray c i j k) = .ok a' from k1)
      obtain ⟨p, _, h⟩ := bind_eq_ok.mp h
      obtain ⟨n, _, h⟩ := bind_eq_ok.mp h
      obtain ⟨b, _, h⟩ := bind_eq_ok.mp h
      obtain ⟨s, hs, h⟩ := bind_eq_ok.mp h
      cases h; exact (setSize_room hs).2

end RowViews

end LvArray

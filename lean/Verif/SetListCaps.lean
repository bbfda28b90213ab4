import Verif.SetListViews
import Verif.AoSLemmas
import Verif.MatrixCaps

/-!
# How much room an `ArrayOfSets` has after a call

Helper lemmas for the property about views of an `ArrayOfSets`.
-/

namespace LvArray.SetCaps

open LvArray.Spec LvArray.RowCaps LvArray.MatrixCaps LvArray.sortedArrayManipulation LvArray.Layout
open LvArray.Counted (KeepsCap keepsCap_resize)

variable {T : Type} [LinearOrder T] [Inhabited T] {c : Cfg} {a a' : AoA T} {L A B : Layout T} {xs : List T} {cap : Nat}
  {sets sets' : List (Finset T)}

/-- What a change of the values of a set leaves alone. -/
def fixed (a : AoA T) : Shape × Nat := (a.shape, a.values.cap)

omit [LinearOrder T] [Inhabited T] in
theorem frame {inc : AoA T → Nat → R (AoA T)} {i : Nat} : Frame (AoS.target inc i) (fixed (T := T)) where
  modify := fun s f s' hf h => by
    obtain ⟨b, h1, h⟩ := bind_eq_ok.mp h
    cases h
    show fixed { s with values := b } = _
    unfold fixed
    simp only
    rw [show b.cap = s.values.cap from (hf _ _ b h1).1]
  insert := fun s i s' h => by cases h; rfl
  set := fun s i j s' h => by cases h; rfl
  insertMany := fun s i j k l s' h => by cases h; rfl
  remove := fun s i s' h => by cases h; rfl
  removeMany := fun s i j k s' h => by cases h; rfl

/-- The sets start where they started, in as much room. -/
structure Still (a a' : AoA T) : Prop where
  offsets : a'.shape.offsets = a.shape.offsets
  room : roomOf a' = roomOf a

omit [LinearOrder T] [Inhabited T] in
theorem still_setSize {i n : Nat} {s : Shape} (hf : fixed a' = fixed a) (h : a'.shape.setSize c i n = .ok s) :
    Still a { a' with shape := s } := by
  unfold fixed at hf
  simp only [Prod.mk.injEq] at hf
  obtain ⟨h1, h2⟩ := hf
  obtain ⟨h3, h4⟩ := setSize_room h
  exact ⟨by simp only; rw [h4, h1], by unfold roomOf; simp only; rw [h3, h4, h1, h2]⟩

omit [Inhabited T] in
theorem insert_still {inc : AoA T → Nat → R (AoA T)} {i n : Nat} {v : T} {r : AoA T × Bool} (h1 : a.shape.sizeOfArray c i = .ok n)
    (h : AoS.insertIntoSet c inc a i v = .ok r) :
    ∃ a1, inc a (if r.2 then 1 else 0) = .ok a1 ∧ Still a1 r.1 ∧ r.1.shape.sizes.read i = .ok (n + if r.2 then 1 else 0) := by
  unfold AoS.insertIntoSet at h
  obtain ⟨_, _, h⟩ := bind_eq_ok.mp h
  rw [h1, bind_ok] at h
  obtain ⟨_, _, h⟩ := bind_eq_ok.mp h
  obtain ⟨q, hq, h⟩ := bind_eq_ok.mp h
  obtain ⟨s, hs, h⟩ := bind_eq_ok.mp h
  cases h
  obtain ⟨a1, k1, k2⟩ := frame.insertOne hq
  exact ⟨a1, k1, still_setSize k2 hs, setSize_read hs⟩

theorem insertMany_still {inc : AoA T → Nat → R (AoA T)} {i n : Nat} {vs : List T} {r : AoA T × Nat}
    (h1 : a.shape.sizeOfArray c i = .ok n) (h : AoS.insertRangeIntoSet c inc a i vs = .ok r) :
    ∃ a1, inc a r.2 = .ok a1 ∧ Still a1 r.1 ∧ r.1.shape.sizes.read i = .ok (n + r.2) := by
  unfold AoS.insertRangeIntoSet at h
  obtain ⟨_, _, h⟩ := bind_eq_ok.mp h
  rw [h1, bind_ok] at h
  obtain ⟨_, _, h⟩ := bind_eq_ok.mp h
  obtain ⟨q, hq, h⟩ := bind_eq_ok.mp h
  obtain ⟨s, hs, h⟩ := bind_eq_ok.mp h
  cases h
  obtain ⟨a1, k1, k2⟩ := frame.insertRange hq
  exact ⟨a1, k1, still_setSize k2 hs, setSize_read hs⟩

omit [Inhabited T] in
theorem remove_still {i : Nat} {v : T} {r : AoA T × Bool} (h : AoS.removeFromSet c a i v = .ok r) : Still a r.1 := by
  unfold AoS.removeFromSet at h
  obtain ⟨_, _, h⟩ := bind_eq_ok.mp h
  obtain ⟨_, _, h⟩ := bind_eq_ok.mp h
  obtain ⟨_, _, h⟩ := bind_eq_ok.mp h
  obtain ⟨q, hq, h⟩ := bind_eq_ok.mp h
  obtain ⟨s, hs, h⟩ := bind_eq_ok.mp h
  cases h
  exact still_setSize (frame.removeOne hq) hs

omit [Inhabited T] in
theorem removeMany_still {i : Nat} {vs : List T} {r : AoA T × Nat} (h : AoS.removeRangeFromSet c a i vs = .ok r) : Still a r.1 := by
  unfold AoS.removeRangeFromSet at h
  obtain ⟨_, _, h⟩ := bind_eq_ok.mp h
  obtain ⟨_, _, h⟩ := bind_eq_ok.mp h
  obtain ⟨_, _, h⟩ := bind_eq_ok.mp h
  obtain ⟨q, hq, h⟩ := bind_eq_ok.mp h
  obtain ⟨s, hs, h⟩ := bind_eq_ok.mp h
  cases h
  exact still_setSize (frame.removeRange hq) hs

omit [LinearOrder T] in
theorem clear_still {i : Nat} (h : AoS.clearSet c a i = .ok a') : Still a a' := by
  unfold AoS.clearSet at h
  obtain ⟨_, _, h⟩ := bind_eq_ok.mp h
  obtain ⟨_, _, h⟩ := bind_eq_ok.mp h
  obtain ⟨_, _, h⟩ := bind_eq_ok.mp h
  obtain ⟨b, hb, h⟩ := bind_eq_ok.mp h
  obtain ⟨s, hs, h⟩ := bind_eq_ok.mp h
  cases h
  refine still_setSize (a' := { a with values := b }) ?_ hs
  unfold fixed
  simp only
  rw [(keepsCap_resize _ _ _ _ _ b hb).1]

/-- After a call, the room for every set and the storages are what the specification says. -/
structure SetAfter (a a' : AoA T) (op : AoSOp T) (caps : List Nat) : Prop where
  offsets : RepM a'.shape.offsets (offs caps)
  room : roomOf a' = ⟨setRoom op a.shape.sizes.cap (setNeeds op caps).sizes, setRoom op a.shape.offsets.cap (setNeeds op caps).offsets,
    setRoom op a.values.cap (setNeeds op caps).values⟩

omit [LinearOrder T] [Inhabited T] in
theorem setRoom_le {op : AoSOp T} {room need : Nat} (h : need ≤ room) : setRoom op room need = room := by
  unfold setRoom
  rw [show tooSmall room need = false from by unfold tooSmall; simpa using h]
  rfl

omit [LinearOrder T] [Inhabited T] in
theorem setRoom_two {op : AoSOp T} {room need : Nat} (h : ∀ n, setGrowth op n = 2 * n) : setRoom op room need = grownBy 2 room need := by
  unfold setRoom tooSmall grownBy
  simp only [decide_eq_true_eq, h]

omit [LinearOrder T] [Inhabited T] in
/-- A call on a set. -/
theorem after_grown {op : AoSOp T} {a1 : AoA T} (h : AGood a1 L) (hst : Still a1 a') (hg : ∀ n, setGrowth op n = 2 * n)
    (hn : setNeeds op L.caps = ⟨0, 0, L.caps.sum⟩) (hr : roomOf a1 = { roomOf a with values := grownBy 2 a.values.cap (total L) }) :
    SetAfter a a' op L.caps := by
  refine ⟨by rw [hst.offsets]; exact ShGood.off h.shape, ?_⟩
  rw [hst.room, hr, hn]
  simp only
  rw [setRoom_le (Nat.zero_le _), setRoom_le (Nat.zero_le _), setRoom_two hg, caps_sum]
  rfl

omit [LinearOrder T] [Inhabited T] in
theorem after_still {op : AoSOp T} (h : AGood a L) (hst : Still a a') (hn : setNeeds op L.caps = ⟨0, 0, L.caps.sum⟩) :
    SetAfter a a' op L.caps := by
  refine ⟨by rw [hst.offsets]; exact ShGood.off h.shape, ?_⟩
  rw [hst.room, hn]
  simp only
  rw [setRoom_le (Nat.zero_le _), setRoom_le (Nat.zero_le _), setRoom_le (by rw [caps_sum]; exact h.lay.room)]
  rfl

omit [LinearOrder T] in
/-- A call inherited from the parent class. -/
theorem after_parent {op : AoSOp T} {op' : AoAOp T} {L' : Layout T} (h : AGood a L) (h1 : vvcStep L op' = some L')
    (hd : op'.nonEmptyInsert) (h2 : a.step c op' = .ok a') (hn : needs op' L L' = setNeeds op L'.caps)
    (hg : ∀ n, growth op' n = setGrowth op n) : SetAfter a a' op L'.caps := by
  have hr := step_room h op' h1 h2
  rcases step_exact c h op' h1 (fun _ => hd) with ⟨_, a1, k1, k2, _⟩ | ⟨_, k1⟩
  · rw [h2] at k1
    cases k1
    refine ⟨ShGood.off k2.shape, ?_⟩
    rw [hr, hn]
    have e : ∀ r n, roomAfter op' r n = setRoom op r n := by
      intro r n
      unfold roomAfter setRoom
      rw [hg]
    rw [e, e, e]
  · rw [h2] at k1; cases k1

omit [Inhabited T] in
theorem card_at (hS : SetsGood a' sets') {i n : Nat} (hi : i < sets'.length) (h : a'.shape.sizes.read i = .ok n) :
    cardAt sets' i = n := by
  obtain ⟨A, cap, B, rfl, hg, _⟩ := hS.at (List.getElem?_eq_getElem hi)
  have k := hg.shape.sizeOfAt (c := ⟨true, false, false⟩) rfl
  unfold Shape.sizeOfArray Shape.checkBounds errorIf at k
  simp only [Bool.false_and, Bool.false_eq_true, if_false, bind_ok] at k
  rw [h] at k
  cases k
  unfold cardAt
  rw [List.getElem?_eq_getElem hi]
  simp

omit [LinearOrder T] [Inhabited T] in
theorem modify_caps (A B : Layout T) (xs ys : List T) (cap : Nat) (f : Nat → Nat) :
    (A ++ (xs, cap) :: B).caps.modify A.length f = (A ++ (ys, f cap) :: B).caps := by
  induction A with
  | nil => rfl
  | cons r A ih => exact congrArg (r.2 :: ·) ih

omit [Inhabited T] in
/-- The set a call concerns. -/
theorem setAt (hL : L.map (·.1) = sets.map (·.sort (· ≤ ·))) {i : Nat} {S : Finset T} (hi : sets[i]? = some S) :
    ∃ (A : Layout T) (cap : Nat) (B : Layout T), A.length = i ∧ L = A ++ (S.sort (· ≤ ·), cap) :: B := by
  have hlen : L.length = sets.length := by simpa using congrArg List.length hL
  obtain ⟨hlt, _⟩ := List.getElem?_eq_some_iff.1 hi
  obtain ⟨A, xs, cap, B, rfl, rfl, hx⟩ := split1 (by omega : i < L.length)
  have := congrArg (·[A.length]?) hL
  simp at this
  rw [hi] at this
  have hxs : xs = S.sort (· ≤ ·) := (by simpa using this : S.sort (· ≤ ·) = xs).symm
  subst hxs
  exact ⟨A, cap, B, rfl, rfl⟩

/-- Growing and changing a set. -/
theorem after_insert {op : AoSOp T} {n k : Nat} {a1 : AoA T} (h : AGood a (A ++ (xs, cap) :: B))
    (h1 : AoS.growing c A.length a k = .ok a1) (hst : Still a1 a') (hn : n = xs.length + k) (hg : ∀ n, setGrowth op n = 2 * n)
    (hnd : ∀ caps, setNeeds op caps = ⟨0, 0, caps.sum⟩) :
    SetAfter a a' op ((A ++ (xs, cap) :: B).caps.modify A.length fun cap => if cap < n then 2 * n else cap) := by
  rw [modify_caps A B xs xs cap]
  subst hn
  have hr := dynamicallyGrow_room h h1
  rcases h.dynamicallyGrow (c := c) k with ⟨_, a2, k1, k2, _⟩ | ⟨_, k1⟩
  · unfold AoS.growing at h1
    rw [h1] at k1
    cases k1
    exact after_grown k2 hst hg (hnd _) hr
  · unfold AoS.growing at h1
    rw [h1] at k1; cases k1

/-- **Every legal call** leaves the room that the specification says. -/
theorem step_setAfter (h : AGood a L) (hL : L.map (·.1) = sets.map (·.sort (· ≤ ·))) {op : AoSOp T} {out : AoSOut T}
    (hs : aosStep sets op = some (sets', out)) (e : AoS.step c a op = .ok (a', out)) (h' : SetsGood a' sets') :
    SetAfter a a' op (setCaps sets' L.caps op) := by
  have hlen : L.length = sets.length := by simpa using congrArg List.length hL
  have ko : a.shape.offsets.kind = .malloc := (ShGood.off h.shape).2
  have kz : a.shape.sizes.kind = .malloc := (ShGood.siz h.shape).2
  have hnum : a.shape.numArrays = L.length := by rw [ShGood.num h.shape]; simp
  cases op with
  | insert i v =>
    simp only [aosStep, onSet, Option.map_eq_some_iff, Prod.mk.injEq] at hs
    obtain ⟨S, hS, rfl, rfl⟩ := hs
    obtain ⟨hlt, _⟩ := List.getElem?_eq_some_iff.1 hS
    obtain ⟨A, cap, B, rfl, rfl⟩ := setAt hL hS
    obtain ⟨r, hr, e⟩ := bind_eq_ok.mp e
    obtain ⟨a1, k1, k2, k3⟩ := insert_still (h.shape.sizeOfAt rfl) hr
    obtain rfl : r.1 = a' := (Prod.mk.inj (Except.ok.inj e)).1
    exact after_insert h k1 k2 (card_at h' (by simpa using hlt) k3) (fun _ => rfl) (fun _ => rfl)
  | insertMany i vs =>
    simp only [aosStep] at hs
    split at hs
    · simp only [onSet, Option.map_eq_some_iff, Prod.mk.injEq] at hs
      obtain ⟨S, hS, rfl, rfl⟩ := hs
      obtain ⟨hlt, _⟩ := List.getElem?_eq_some_iff.1 hS
      obtain ⟨A, cap, B, rfl, rfl⟩ := setAt hL hS
      obtain ⟨r, hr, e⟩ := bind_eq_ok.mp e
      obtain ⟨a1, k1, k2, k3⟩ := insertMany_still (h.shape.sizeOfAt rfl) hr
      obtain rfl : r.1 = a' := (Prod.mk.inj (Except.ok.inj e)).1
      exact after_insert h k1 k2 (card_at h' (by simpa using hlt) k3) (fun _ => rfl) (fun _ => rfl)
    · cases hs
  | remove i v =>
    obtain ⟨r, hr, e⟩ := bind_eq_ok.mp e
    obtain rfl : r.1 = a' := (Prod.mk.inj (Except.ok.inj e)).1
    exact after_still h (remove_still hr) rfl
  | removeMany i vs =>
    obtain ⟨r, hr, e⟩ := bind_eq_ok.mp e
    obtain rfl : r.1 = a' := (Prod.mk.inj (Except.ok.inj e)).1
    exact after_still h (removeMany_still hr) rfl
  | contains i v =>
    obtain ⟨r, hr, e⟩ := bind_eq_ok.mp e
    obtain rfl : a = a' := (Prod.mk.inj (Except.ok.inj e)).1
    exact after_still h ⟨rfl, rfl⟩ rfl
  | get i j =>
    obtain ⟨r, hr, e⟩ := bind_eq_ok.mp e
    obtain rfl : a = a' := (Prod.mk.inj (Except.ok.inj e)).1
    exact after_still h ⟨rfl, rfl⟩ rfl
  | clearSet i =>
    obtain ⟨a1, h1, e⟩ := bind_eq_ok.mp e
    obtain rfl : a1 = a' := (Prod.mk.inj (Except.ok.inj e)).1
    exact after_still h (clear_still h1) rfl
  | setCapacityOfSet i n =>
    simp only [aosStep, onSet, Option.map_eq_some_iff, Prod.mk.injEq] at hs
    obtain ⟨S, hS, rfl, rfl⟩ := hs
    obtain ⟨A, cap, B, rfl, rfl⟩ := setAt hL hS
    obtain ⟨a1, h1, e⟩ := bind_eq_ok.mp e
    obtain rfl : a1 = a' := (Prod.mk.inj (Except.ok.inj e)).1
    simp only [setCaps]
    rw [modify_caps A B _ ((S.sort (· ≤ ·)).take n) cap]
    refine after_parent (op' := .setCapacityOfArray A.length n) h ?_ trivial h1 rfl (fun _ => rfl)
    simp [vvcStep, onRowC]
  | reserveCapacityOfSet i n =>
    simp only [aosStep, onSet, Option.map_eq_some_iff, Prod.mk.injEq] at hs
    obtain ⟨S, hS, rfl, rfl⟩ := hs
    obtain ⟨A, cap, B, rfl, rfl⟩ := setAt hL hS
    obtain ⟨a1, h1, e⟩ := bind_eq_ok.mp e
    obtain rfl : a1 = a' := (Prod.mk.inj (Except.ok.inj e)).1
    simp only [setCaps]
    unfold AoS.reserveCapacityOfSet AoA.growIf at h1
    rw [h.checkBounds (by simp), bind_ok, h.shape.capacityOfAt rfl, bind_ok] at h1
    simp only [decide_eq_true_eq] at h1
    by_cases hn : cap < n
    · rw [if_pos hn] at h1
      rw [modify_caps A B _ ((S.sort (· ≤ ·)).take n) cap, Nat.max_eq_right (by omega)]
      refine after_parent (op' := .setCapacityOfArray A.length n) h ?_ trivial h1 rfl (fun _ => rfl)
      simp [vvcStep, onRowC]
    · rw [if_neg hn] at h1
      cases h1
      rw [modify_caps A B _ (S.sort (· ≤ ·)) cap, Nat.max_eq_left (by omega)]
      exact after_still h ⟨rfl, rfl⟩ rfl
  | appendSet n =>
    obtain ⟨a1, h1, e⟩ := bind_eq_ok.mp e
    obtain rfl : a1 = a' := (Prod.mk.inj (Except.ok.inj e)).1
    obtain ⟨s, hs', h1⟩ := bind_eq_ok.mp h1
    obtain ⟨s', e1, e2, e3⟩ := h.appendRow (c := c)
    rw [hs'] at e1
    cases e1
    rw [e2, Nat.add_sub_cancel] at h1
    obtain ⟨k1, k2⟩ := appendRow_room ko kz hs'
    have hr := setCapacity_room e3 h1
    rcases e3.setCapacity (c := c) n with ⟨_, a2, k3, k4, _⟩ | ⟨_, k3⟩
    · rw [h1] at k3
      cases k3
      have hc : (L ++ [(([] : List T).take n, n)]).caps = setCaps sets' L.caps (.appendSet n) := by simp [setCaps]
      rw [← hc]
      refine ⟨ShGood.off k4.shape, ?_⟩
      rw [hr]
      simp only [setNeeds, caps_length, caps_sum]
      rw [setRoom_two (fun _ => rfl), setRoom_two (fun _ => rfl), setRoom_two (fun _ => rfl)]
      unfold roomOf
      simp only [k1, k2, hnum, List.length_append, List.length_singleton]
    · rw [h1] at k3; cases k3
  | insertSet i n =>
    simp only [aosStep] at hs
    split at hs
    · rename_i hi
      cases hs
      obtain ⟨a1, h1, e⟩ := bind_eq_ok.mp e
      obtain rfl : a1 = a' := (Prod.mk.inj (Except.ok.inj e)).1
      obtain ⟨A, B, rfl, rfl⟩ : ∃ A B : Layout T, L = A ++ B ∧ A.length = i :=
        ⟨L.take i, L.drop i, by simp, by simp; omega⟩
      obtain ⟨s, hs', h1⟩ := bind_eq_ok.mp h1
      obtain ⟨s', e1, e3⟩ := h.insertRow (c := c)
      rw [hs'] at e1
      cases e1
      obtain ⟨k1, k2⟩ := insertRow_room ko kz hs'
      have hr := setCapacity_room e3 h1
      rcases e3.setCapacity (c := c) n with ⟨_, a2, k3, k4, _⟩ | ⟨_, k3⟩
      · rw [h1] at k3
        cases k3
        have hc : (A ++ (([] : List T).take n, n) :: B).caps =
            setCaps (sets.take A.length ++ ∅ :: sets.drop A.length) (A ++ B).caps (.insertSet A.length n) := by
          simp only [setCaps, caps_append, caps_cons]
          rw [List.take_left' (by simp), List.drop_left' (by simp)]
        rw [← hc]
        refine ⟨ShGood.off k4.shape, ?_⟩
        rw [hr]
        simp only [setNeeds, caps_length, caps_sum]
        rw [setRoom_two (fun _ => rfl), setRoom_two (fun _ => rfl), setRoom_two (fun _ => rfl)]
        unfold roomOf
        simp only [k1, k2, hnum, List.length_append, List.length_cons, Nat.add_assoc]
      · rw [h1] at k3; cases k3
    · cases hs
  | eraseSet i =>
    simp only [aosStep] at hs
    split at hs
    · rename_i hi
      cases hs
      obtain ⟨a1, h1, e⟩ := bind_eq_ok.mp e
      obtain rfl : a1 = a' := (Prod.mk.inj (Except.ok.inj e)).1
      have hc : Layout.caps (L.eraseIdx i) = setCaps (sets.eraseIdx i) L.caps (.eraseSet i) := by
        simp [setCaps, Layout.caps, List.eraseIdx_map]
      rw [← hc]
      refine after_parent (op' := .eraseArray i) h ?_ trivial h1 rfl (fun _ => rfl)
      simp only [vvcStep]
      rw [if_pos (by omega)]
    · cases hs
  | resize n d =>
    obtain ⟨a1, h1, e⟩ := bind_eq_ok.mp e
    obtain rfl : a1 = a' := (Prod.mk.inj (Except.ok.inj e)).1
    have hc : Layout.caps (L.take n ++ List.replicate (n - L.length) ([], d)) = setCaps sets' L.caps (.resize n d) := by
      simp [setCaps, Layout.caps]
    rw [← hc]
    refine after_parent (op' := .resize n d) h rfl trivial h1 ?_ (fun _ => rfl)
    have : (L.take n ++ List.replicate (n - L.length) (([] : List T), d)).length = n := by simp; omega
    simp only [needs, setNeeds, caps_length, this]
    rfl
  | resizeFromCapacities cs =>
    obtain ⟨a1, h1, e⟩ := bind_eq_ok.mp e
    obtain rfl : a1 = a' := (Prod.mk.inj (Except.ok.inj e)).1
    have hc : Layout.caps (cs.map fun n => (([] : List T), n)) = setCaps sets' L.caps (.resizeFromCapacities cs) := by
      simp [setCaps, Layout.caps, Function.comp_def]
    rw [← hc]
    refine after_parent (op' := .resizeFromCapacities cs) h rfl trivial h1 ?_ (fun _ => rfl)
    simp only [needs, setNeeds, caps_length]
    rfl
  | reserve n =>
    obtain ⟨a1, h1, e⟩ := bind_eq_ok.mp e
    obtain rfl : a1 = a' := (Prod.mk.inj (Except.ok.inj e)).1
    exact after_parent (op' := .reserve n) h rfl trivial h1 rfl (fun _ => rfl)
  | reserveValues n =>
    obtain ⟨a1, h1, e⟩ := bind_eq_ok.mp e
    obtain rfl : a1 = a' := (Prod.mk.inj (Except.ok.inj e)).1
    exact after_parent (op' := .reserveValues n) h rfl trivial h1 rfl (fun _ => rfl)
  | compress =>
    simp only [aosStep, Option.some.injEq, Prod.mk.injEq] at hs
    obtain ⟨rfl, rfl⟩ := hs
    obtain ⟨a1, h1, e⟩ := bind_eq_ok.mp e
    obtain rfl : a1 = a' := (Prod.mk.inj (Except.ok.inj e)).1
    have hc : Layout.caps (L.map fun r => (r.1, r.1.length)) = setCaps sets L.caps .compress := by
      have := congrArg (List.map List.length) hL
      simp only [List.map_map] at this
      simp only [setCaps, Layout.caps, List.map_map]
      rw [show ((fun x : List T × Nat => x.2) ∘ fun r : List T × Nat => (r.1, r.1.length)) = List.length ∘ (·.1) from rfl, this]
      simp [Function.comp_def]
    rw [← hc]
    exact after_parent (op' := .compress) h rfl trivial h1 rfl (fun _ => rfl)

/-! ## Through a view -/

omit [LinearOrder T] [Inhabited T] in
theorem checking_growing {k : Nat} (h : AGood a (A ++ (xs, cap) :: B)) (hk : xs.length + k ≤ cap) :
    AoS.checking c A.length a k = AoS.growing c A.length a k := by
  have e1 : AoS.checking c A.length a k = .ok a := by
    unfold AoS.checking
    rw [h.shape.capacityCheck (by simp) (by simpa [Layout.szs, Layout.caps] using hk), bind_ok]
  have e2 : AoS.growing c A.length a k = .ok a := by
    unfold AoS.growing AoA.dynamicallyGrowArray AoA.growIf
    rw [h.shape.sizeOfAt rfl, bind_ok, h.shape.capacityOfAt rfl, bind_ok]
    simp only [decide_eq_true_eq]
    rw [if_neg (by omega)]
  rw [e1, e2]

/-- A set that gets no more room had enough. -/
theorem card_le_cap {n : Nat} (h : (A ++ (xs, cap) :: B).caps.modify A.length (fun cap => if cap < n then 2 * n else cap) =
    (A ++ (xs, cap) :: B).caps) : n ≤ cap := by
  rw [modify_caps A B xs xs cap] at h
  simp only [caps_append, caps_cons, List.append_cancel_left_eq, List.cons.injEq, and_true] at h
  split at h <;> omega

/-- **Through a view** a legal call that needs no more room does what the call on the object does. -/
theorem setViewStep_eq (h : AGood a L) (hL : L.map (·.1) = sets.map (·.sort (· ≤ ·))) {op : AoSOp T} {out : AoSOut T}
    (hv : op.onView = true) (hs : aosStep sets op = some (sets', out)) (e : AoS.step c a op = .ok (a', out))
    (h' : SetsGood a' sets') (hc : setCaps sets' L.caps op = L.caps) : AoS.viewStep c a op = .ok (a', out) := by
  cases op with
  | insert i v =>
    simp only [aosStep, onSet, Option.map_eq_some_iff, Prod.mk.injEq] at hs
    obtain ⟨S, hS, rfl, rfl⟩ := hs
    obtain ⟨hlt, _⟩ := List.getElem?_eq_some_iff.1 hS
    obtain ⟨A, cap, B, rfl, rfl⟩ := setAt hL hS
    obtain ⟨r, hr, e⟩ := bind_eq_ok.mp e
    obtain ⟨a1, k1, k2, k3⟩ := insert_still (h.shape.sizeOfAt rfl) hr
    have hcard := card_at h' (i := A.length) (by simpa using hlt) (by
      obtain rfl : r.1 = a' := (Prod.mk.inj (Except.ok.inj e)).1
      exact k3)
    have hcap := card_le_cap hc
    rw [hcard] at hcap
    refine bind_eq_ok.mpr ⟨r, ?_, e⟩
    unfold AoS.insertIntoSet at hr ⊢
    obtain ⟨_, q1, hr⟩ := bind_eq_ok.mp hr
    obtain ⟨n, q2, hr⟩ := bind_eq_ok.mp hr
    obtain ⟨_, q3, hr⟩ := bind_eq_ok.mp hr
    obtain ⟨q, q4, hr⟩ := bind_eq_ok.mp hr
    obtain ⟨s, q5, hr⟩ := bind_eq_ok.mp hr
    have hq : q.2 = r.2 := by
      injection hr with h0
      rw [← h0]
    exact bind_eq_ok.mpr ⟨_, q1, bind_eq_ok.mpr ⟨n, q2, bind_eq_ok.mpr ⟨_, q3, bind_eq_ok.mpr ⟨q,
      insertOne_swap q4 (checking_growing h (by rw [hq]; exact hcap)), bind_eq_ok.mpr ⟨s, q5, hr⟩⟩⟩⟩⟩
  | insertMany i vs =>
    simp only [aosStep] at hs
    split at hs
    · simp only [onSet, Option.map_eq_some_iff, Prod.mk.injEq] at hs
      obtain ⟨S, hS, rfl, rfl⟩ := hs
      obtain ⟨hlt, _⟩ := List.getElem?_eq_some_iff.1 hS
      obtain ⟨A, cap, B, rfl, rfl⟩ := setAt hL hS
      obtain ⟨r, hr, e⟩ := bind_eq_ok.mp e
      obtain ⟨a1, k1, k2, k3⟩ := insertMany_still (h.shape.sizeOfAt rfl) hr
      have hcard := card_at h' (i := A.length) (by simpa using hlt) (by
        obtain rfl : r.1 = a' := (Prod.mk.inj (Except.ok.inj e)).1
        exact k3)
      have hcap := card_le_cap hc
      rw [hcard] at hcap
      refine bind_eq_ok.mpr ⟨r, ?_, e⟩
      unfold AoS.insertRangeIntoSet at hr ⊢
      obtain ⟨_, q1, hr⟩ := bind_eq_ok.mp hr
      obtain ⟨n, q2, hr⟩ := bind_eq_ok.mp hr
      obtain ⟨_, q3, hr⟩ := bind_eq_ok.mp hr
      obtain ⟨q, q4, hr⟩ := bind_eq_ok.mp hr
      obtain ⟨s, q5, hr⟩ := bind_eq_ok.mp hr
      have hq : q.2 = r.2 := by
        injection hr with h0
        rw [← h0]
      exact bind_eq_ok.mpr ⟨_, q1, bind_eq_ok.mpr ⟨n, q2, bind_eq_ok.mpr ⟨_, q3, bind_eq_ok.mpr ⟨q,
        insertRange_swap q4 (checking_growing h (by rw [hq]; exact hcap)), bind_eq_ok.mpr ⟨s, q5, hr⟩⟩⟩⟩⟩
    · cases hs
  | remove _ _ | removeMany _ _ | contains _ _ | get _ _ => exact e
  | _ => cases hv

end LvArray.SetCaps

import Verif.AoAStep
import Verif.CountedAppend
import Verif.RowViews

/-!
# How much room the buffers of an `ArrayOfArrays` have after a call

Helper lemmas for the property about views of an `ArrayOfArrays`.
-/

namespace LvArray.RowCaps

open LvArray.Spec LvArray.Layout LvArray.Counted

variable {T X : Type} {c : Cfg}

/-! ## Functions that stay in the allocation -/

theorem keepsCap_bindUnit {b : Buf X} {x : R Unit} {y : R (Buf X)} (h : KeepsCap b y) : KeepsCap b (x >>= fun _ => y) := fun b' e => by
  obtain ⟨_, _, h2⟩ := bind_eq_ok.mp e
  exact h b' h2

theorem keepsCap_bindVal {α : Type} {b : Buf X} {x : R α} {y : α → R (Buf X)} (h : ∀ a, KeepsCap b (y a)) : KeepsCap b (x >>= y) :=
  fun b' e => by
    obtain ⟨a, _, h2⟩ := bind_eq_ok.mp e
    exact h a b' h2

theorem keepsCap_moveAssign (b : Buf X) (i j : Nat) : KeepsCap b (b.moveAssign c i j) := fun b' h => by
  unfold Buf.moveAssign at h
  split at h
  · split at h
    · cases h
    · split at h
      · split at h <;> first | (cases h; exact ⟨rfl, rfl⟩) | cases h
      · cases h; exact ⟨rfl, rfl⟩
      · cases h; exact ⟨rfl, rfl⟩
  · cases h

theorem keepsCap_destroy (b : Buf X) (p n : Nat) : KeepsCap b (arrayManipulation.destroy c b p n) :=
  keepsCap_forUp (fun i b => keepsCap_destroyAt b i) _ _ _

theorem keepsCap_constructRange (b : Buf X) (p n : Nat) (v : Nat → X) : KeepsCap b (arrayManipulation.constructRange c b p n v) :=
  keepsCap_forUp (fun i b => keepsCap_construct b i _) _ _ _

theorem keepsCap_error {b : Buf X} {e : Err} : KeepsCap b (.error e) := fun _ h => by cases h

theorem keepsCap_uninitializedShiftDown (b : Buf X) (p size n : Nat) :
    KeepsCap b (arrayManipulation.uninitializedShiftDown c b p size n) := by
  unfold arrayManipulation.uninitializedShiftDown
  split
  · exact keepsCap_ok b
  · refine keepsCap_forUp (fun j b => ?_) _ _ _
    split
    · exact keepsCap_error
    · exact (keepsCap_moveConstruct b _ _).bind fun b' => keepsCap_destroyAt b' _

theorem keepsCap_uninitializedShiftUp (b : Buf X) (p size n : Nat) :
    KeepsCap b (arrayManipulation.uninitializedShiftUp c b p size n) := by
  unfold arrayManipulation.uninitializedShiftUp
  split
  · exact keepsCap_ok b
  · exact keepsCap_forDown (fun j b => (keepsCap_moveConstruct b _ _).bind fun b' => keepsCap_destroyAt b' _) _ _ _

theorem keepsCap_shiftUp (b : Buf X) (p size i n : Nat) : KeepsCap b (arrayManipulation.shiftUp c b p size i n) := by
  unfold arrayManipulation.shiftUp
  refine keepsCap_bindUnit ?_
  split
  · exact keepsCap_ok b
  · exact (keepsCap_forDown (fun j b => keepsCap_moveConstruct b _ _) _ _ _).bind fun b' => keepsCap_destroy b' _ _

theorem keepsCap_shiftDown (b : Buf X) (p size i n : Nat) : KeepsCap b (arrayManipulation.shiftDown c b p size i n) := by
  unfold arrayManipulation.shiftDown
  refine keepsCap_bindUnit (keepsCap_bindUnit ?_)
  split
  · exact keepsCap_ok b
  · refine keepsCap_forUp (fun j b => ?_) _ _ _
    split
    · exact keepsCap_error
    · exact keepsCap_moveAssign b _ _

theorem keepsCap_erase (b : Buf X) (p size i n : Nat) : KeepsCap b (arrayManipulation.erase c b p size i n) := by
  unfold arrayManipulation.erase
  split
  · exact keepsCap_ok b
  · exact keepsCap_bindUnit (keepsCap_bindUnit ((keepsCap_shiftDown b _ _ _ _).bind fun b' => keepsCap_destroy b' _ _))

theorem keepsCap_emplace (b : Buf X) (p size i : Nat) (v : X) : KeepsCap b (arrayManipulation.emplace c b p size i v) := by
  unfold arrayManipulation.emplace
  exact keepsCap_bindUnit (keepsCap_bindUnit ((keepsCap_shiftUp b _ _ _ _).bind fun b' => keepsCap_construct b' _ _))

theorem keepsCap_insert [Inhabited X] (b : Buf X) (p size i : Nat) (vs : List X) :
    KeepsCap b (arrayManipulation.insert c b p size i vs) := by
  unfold arrayManipulation.insert
  exact keepsCap_bindUnit (keepsCap_bindUnit ((keepsCap_shiftUp b _ _ _ _).bind fun b' => keepsCap_constructRange b' _ _ _))

/-! ## Functions that may reallocate -/

/-- The result, if there is one, has room for `n`, and no new allocation was made if there was enough room. -/
def Grows (b : Buf X) (x : R (Buf X)) (need n : Nat) : Prop :=
  b.kind = .malloc → ∀ b', x = .ok b' → b'.cap = (if b.cap < need then n else b.cap) ∧ b'.kind = .malloc

theorem Grows.bind {b : Buf X} {x : R (Buf X)} {f : Buf X → R (Buf X)} {need n : Nat} (h : Grows b x need n)
    (hf : ∀ b', KeepsCap b' (f b')) : Grows b (x >>= f) need n := fun hk b' e => by
  obtain ⟨b1, h1, h2⟩ := bind_eq_ok.mp e
  obtain ⟨h3, h4⟩ := h hk b1 h1
  obtain ⟨h5, h6⟩ := hf b1 b' h2
  exact ⟨by rw [h5, h3], by rw [h6, h4]⟩

theorem Grows.after {α : Type} {b : Buf X} {x : R α} {y : α → R (Buf X)} {need n : Nat} (h : ∀ a, Grows b (y a) need n) :
    Grows b (x >>= y) need n := fun hk b' e => by
  obtain ⟨a, _, h2⟩ := bind_eq_ok.mp e
  exact h a hk b' h2

theorem grows_setCapacity (b : Buf X) (size n : Nat) :
    b.kind = .malloc → ∀ b', bufferManipulation.setCapacity c b size n = .ok b' → b'.cap = n ∧ b'.kind = .malloc := by
  intro hk b' e
  unfold bufferManipulation.setCapacity at e
  obtain ⟨_, _, e⟩ := bind_eq_ok.mp e
  unfold Buf.reallocate at e
  rw [hk] at e
  obtain ⟨⟨nb, ob⟩, h1, h2⟩ := bind_eq_ok.mp e
  obtain ⟨ob', _, h4⟩ := bind_eq_ok.mp h2
  cases h4
  have h5 := forUp_moveAcross_cap _ _ _ _ h1
  have h6 : ∀ (n lo : Nat) (s s' : Buf X × Buf X), LvArray.forUp n lo (moveAcross c) s = .ok s' → s'.1.kind = s.1.kind := by
    intro n
    induction n with
    | zero => intro lo s s' h; cases h; rfl
    | succ n ih =>
      intro lo s s' h
      obtain ⟨s1, e1, e2⟩ := bind_eq_ok.mp (show (moveAcross c lo s >>= LvArray.forUp n (lo + 1) (moveAcross c)) = .ok s' from h)
      rw [ih _ _ _ e2]
      obtain ⟨d, q⟩ := s
      unfold moveAcross at e1
      simp only at e1
      split at e1
      · split at e1
        · split at e1 <;> first | (cases e1; rfl) | cases e1
        · cases e1; rfl
        · cases e1; rfl
      · cases e1
  exact ⟨h5, h6 _ _ _ _ h1⟩

theorem grows_reserve (b : Buf X) (size n : Nat) : Grows b (bufferManipulation.reserve c b size n) n n := by
  intro hk b' e
  unfold bufferManipulation.reserve at e
  obtain ⟨_, _, e⟩ := bind_eq_ok.mp e
  split at e
  · rename_i h; rw [if_pos h]; exact grows_setCapacity b size n hk b' e
  · rename_i h; rw [if_neg h]; cases e; exact ⟨rfl, hk⟩

theorem grows_dynamicReserve (b : Buf X) (size n : Nat) : Grows b (bufferManipulation.dynamicReserve c b size n) n (2 * n) := by
  intro hk b' e
  unfold bufferManipulation.dynamicReserve at e
  obtain ⟨_, _, e⟩ := bind_eq_ok.mp e
  split at e
  · rename_i h; rw [if_pos h]; exact grows_setCapacity b size (2 * n) hk b' e
  · rename_i h; rw [if_neg h]; cases e; exact ⟨rfl, hk⟩

theorem grows_resize (b : Buf X) (size n : Nat) (v : X) : Grows b (bufferManipulation.resize c b size n v) n n := by
  unfold bufferManipulation.resize
  exact Grows.after fun _ => (grows_reserve b size n).bind fun b' => keepsCap_resize b' _ _ _ _

theorem grows_emplaceBack (b : Buf X) (size : Nat) (v : X) :
    Grows b (bufferManipulation.emplaceBack c b size v) (size + 1) (2 * (size + 1)) := by
  unfold bufferManipulation.emplaceBack
  exact Grows.after fun _ => (grows_dynamicReserve b size (size + 1)).bind fun b' => keepsCap_emplaceBack b' _ _ _

theorem grows_emplace (b : Buf X) (size pos : Nat) (v : X) :
    Grows b (bufferManipulation.emplace c b size pos v) (size + 1) (2 * (size + 1)) := by
  unfold bufferManipulation.emplace
  exact Grows.after fun _ => (grows_dynamicReserve b size (size + 1)).bind fun b' => keepsCap_emplace b' _ _ _ _

theorem keepsCap_bufferErase (b : Buf X) (size pos : Nat) : KeepsCap b (bufferManipulation.erase c b size pos) := by
  unfold bufferManipulation.erase
  exact keepsCap_bindUnit (keepsCap_bindUnit (keepsCap_erase b _ _ _ _))

/-! ## The three buffers -/

/-- How much room the buffers have. -/
def roomOf (a : AoA T) : Three Nat := ⟨a.shape.sizes.cap, a.shape.offsets.cap, a.values.cap⟩

/-- The room after a call with these needs, for calls that give exactly what is needed (`k = 1`) or twice that (`k = 2`). -/
def grownBy (k room need : Nat) : Nat := if room < need then k * need else room

theorem setSize_room {s s' : Shape} {i n : Nat} (h : s.setSize c i n = .ok s') :
    s'.sizes.cap = s.sizes.cap ∧ s'.offsets = s.offsets := ⟨(setSize_caps h).2, (setSize_caps h).1⟩

/-- A function of the view: it stays in the allocations. -/
theorem view_room {a : AoA T} {i n : Nat} {x : R (Buf T)} {a' : AoA T} (hx : KeepsCap a.values x)
    (h : (x >>= fun values => a.shape.setSize c i n >>= fun shape => .ok { shape := shape, values := values }) = .ok a') :
    roomOf a' = roomOf a := by
  obtain ⟨b, h1, h⟩ := bind_eq_ok.mp h
  obtain ⟨s, h2, h⟩ := bind_eq_ok.mp h
  cases h
  unfold roomOf
  simp only
  rw [(setSize_room h2).1, (setSize_room h2).2, (hx b h1).1]

theorem edit_room [Inhabited T] {a a' : AoA T} {e : RowEdit T} (h : a.edit c e = .ok a') : roomOf a' = roomOf a := by
  cases e with
  | set i j v =>
    obtain ⟨_, _, h⟩ := bind_eq_ok.mp (show (a.set c i j v) = .ok a' from h)
    obtain ⟨p, _, h⟩ := bind_eq_ok.mp h
    obtain ⟨b, hb, h⟩ := bind_eq_ok.mp h
    cases h
    unfold roomOf
    simp only
    rw [(keepsCap_write _ _ _ _ hb).1]
  | emplaceBack i v =>
    obtain ⟨_, _, h⟩ := bind_eq_ok.mp (show (a.viewEmplaceBack c i v) = .ok a' from h)
    obtain ⟨_, _, h⟩ := bind_eq_ok.mp h
    obtain ⟨p, _, h⟩ := bind_eq_ok.mp h
    obtain ⟨n, _, h⟩ := bind_eq_ok.mp h
    exact view_room (keepsCap_emplaceBack _ _ _ _) h
  | appendToArray i vs =>
    obtain ⟨_, _, h⟩ := bind_eq_ok.mp (show (a.viewAppendToArray c i vs) = .ok a' from h)
    obtain ⟨p, _, h⟩ := bind_eq_ok.mp h
    obtain ⟨n, _, h⟩ := bind_eq_ok.mp h
    obtain ⟨b, hb, h⟩ := bind_eq_ok.mp h
    obtain ⟨_, _, h⟩ := bind_eq_ok.mp h
    refine view_room (x := .ok b) ?_ h
    intro b' hb'
    cases hb'
    exact keepsCap_append (c := c) _ _ _ _ b hb
  | emplace i j v =>
    obtain ⟨_, _, h⟩ := bind_eq_ok.mp (show (a.viewEmplace c i j v) = .ok a' from h)
    obtain ⟨_, _, h⟩ := bind_eq_ok.mp h
    obtain ⟨p, _, h⟩ := bind_eq_ok.mp h
    obtain ⟨n, _, h⟩ := bind_eq_ok.mp h
    exact view_room (keepsCap_emplace _ _ _ _ _) h
  | insertIntoArray i j vs =>
    obtain ⟨_, _, h⟩ := bind_eq_ok.mp (show (a.viewInsertIntoArray c i j vs) = .ok a' from h)
    obtain ⟨_, _, h⟩ := bind_eq_ok.mp h
    obtain ⟨p, _, h⟩ := bind_eq_ok.mp h
    obtain ⟨n, _, h⟩ := bind_eq_ok.mp h
    exact view_room (keepsCap_insert _ _ _ _ _) h
  | eraseFromArray i j n =>
    obtain ⟨_, _, h⟩ := bind_eq_ok.mp (show (a.eraseFromArray c i j n) = .ok a' from h)
    obtain ⟨p, _, h⟩ := bind_eq_ok.mp h
    obtain ⟨k, _, h⟩ := bind_eq_ok.mp h
    exact view_room (keepsCap_erase _ _ _ _ _) h

/-! ## Making room in an array -/

variable {a a' : AoA T} {L A B : Layout T} {xs : List T} {cap : Nat}

theorem growRow_room {s : Shape} {b b' : Buf X} {M : Layout X} {i d : Nat} (h : LShape s M) (hk : b.kind = .malloc)
    (hg : s.growRow c i d b = .ok b') : b'.cap = grownBy 2 b.cap (total M + d) := by
  unfold Shape.growRow at hg
  have hread : s.offsets.read s.numArrays = .ok (total M) := ShGood.readLast h
  rw [hread, bind_ok] at hg
  exact ((grows_dynamicReserve b (total M) (total M + d)).bind (f := s.shiftRowsUp c i d) (fun b' => by
    unfold Shape.shiftRowsUp
    refine keepsCap_forDown (fun j b => ?_) _ _ _
    exact keepsCap_bindVal fun _ => keepsCap_bindVal fun _ => keepsCap_uninitializedShiftUp _ _ _ _) hk b' hg).1

theorem setCapacity_room (h : AGood a (A ++ (xs, cap) :: B)) {n : Nat} (ha : a.setCapacityOfArray c A.length n = .ok a') :
    roomOf a' = { roomOf a with values := grownBy 2 a.values.cap (total (A ++ (xs.take n, n) :: B)) } := by
  have hroom := h.lay.room
  simp only [total_append, total_cons] at hroom
  unfold AoA.setCapacityOfArray at ha
  rw [h.checkBounds (by simp), bind_ok, h.shape.capacityOfAt rfl, bind_ok] at ha
  simp only at ha
  split at ha
  · cases ha
    rename_i e
    subst e
    unfold roomOf grownBy
    simp only [total_append, total_cons]
    rw [if_neg (by omega)]
  · split at ha
    · rename_i hlt
      obtain ⟨b, hb, ha⟩ := bind_eq_ok.mp ha
      obtain ⟨s, hs, ha⟩ := bind_eq_ok.mp ha
      cases ha
      obtain ⟨h1, h2⟩ := updateOffsets_cap hs
      have h3 := growRow_room h.shape h.lay.kind hb
      unfold roomOf
      simp only
      rw [h1, h2, h3]
      simp only [total_append, total_cons]
      rw [show total A + (cap + total B) + (n - cap) = total A + (n + total B) by omega]
    · obtain ⟨_, _, ha⟩ := bind_eq_ok.mp ha
      obtain ⟨_, _, ha⟩ := bind_eq_ok.mp ha
      obtain ⟨s1, hs1, ha⟩ := bind_eq_ok.mp ha
      obtain ⟨b, hb, ha⟩ := bind_eq_ok.mp ha
      obtain ⟨s, hs, ha⟩ := bind_eq_ok.mp ha
      cases ha
      obtain ⟨h1, h2⟩ := updateOffsets_cap hs
      obtain ⟨h3, h4⟩ := setSize_room hs1
      have h5 : b.cap = a.values.cap := by
        unfold Shape.shrinkRow at hb
        refine (((keepsCap_destroy (c := c) a.values _ _).bind fun b' => ?_) b hb).1
        unfold Shape.shiftRowsDown
        exact keepsCap_forUp (fun j b => keepsCap_bindVal fun _ => keepsCap_bindVal fun _ =>
          keepsCap_uninitializedShiftDown _ _ _ _) _ _ _
      unfold roomOf grownBy
      simp only [total_append, total_cons]
      rw [h1, h2, h3, h4, h5, if_neg (by omega)]

theorem dynamicallyGrow_room (h : AGood a (A ++ (xs, cap) :: B)) {k : Nat} (ha : a.dynamicallyGrowArray c A.length k = .ok a') :
    roomOf a' = { roomOf a with values := grownBy 2 a.values.cap (total (A ++ (xs, Spec.grown cap (xs.length + k)) :: B)) } := by
  have hroom := h.lay.room
  simp only [total_append, total_cons] at hroom
  unfold AoA.dynamicallyGrowArray AoA.growIf at ha
  rw [h.shape.sizeOfAt rfl, bind_ok, h.shape.capacityOfAt rfl, bind_ok] at ha
  simp only at ha
  unfold Spec.grown
  by_cases hg : cap < xs.length + k
  · simp only [hg, decide_true, if_true] at ha ⊢
    rw [setCapacity_room h ha]
    simp only [total_append, total_cons]
  · simp only [hg, decide_false, if_false, Bool.false_eq_true] at ha ⊢
    cases ha
    unfold roomOf grownBy
    simp only [total_append, total_cons]
    rw [if_neg (by omega)]

/-- Growing an array and then a function of the view. -/
theorem grow_edit_room [Inhabited T] (h : AGood a (A ++ (xs, cap) :: B)) {k : Nat} {e : RowEdit T}
    (ha : (a.dynamicallyGrowArray c A.length k >>= fun a => a.edit c e) = .ok a') :
    roomOf a' = { roomOf a with values := grownBy 2 a.values.cap (total (A ++ (xs, Spec.grown cap (xs.length + k)) :: B)) } := by
  obtain ⟨a1, h1, h2⟩ := bind_eq_ok.mp ha
  rw [edit_room h2, dynamicallyGrow_room h h1]

theorem resizeArray_room (h : AGood a (A ++ (xs, cap) :: B)) {n : Nat} {v : T} (ha : a.resizeArray c A.length n v = .ok a') :
    roomOf a' = { roomOf a with values := grownBy 2 a.values.cap (total (A ++ (xs, max cap n) :: B)) } := by
  have hroom := h.lay.room
  simp only [total_append, total_cons] at hroom
  unfold AoA.resizeArray at ha
  rw [h.checkBounds (by simp), bind_ok, h.shape.capacityOfAt rfl, bind_ok] at ha
  obtain ⟨a1, h1, ha⟩ := bind_eq_ok.mp ha
  obtain ⟨_, _, ha⟩ := bind_eq_ok.mp ha
  obtain ⟨_, _, ha⟩ := bind_eq_ok.mp ha
  obtain ⟨_, _, ha⟩ := bind_eq_ok.mp ha
  rw [view_room (keepsCap_resize _ _ _ _ _) ha]
  unfold AoA.growIf at h1
  simp only at h1
  by_cases hg : cap < n
  · simp only [hg, decide_true, if_true] at h1
    rw [setCapacity_room h h1, Nat.max_eq_right (by omega)]
    simp only [total_append, total_cons]
  · simp only [hg, decide_false, if_false, Bool.false_eq_true] at h1
    cases h1
    rw [Nat.max_eq_left (by omega)]
    unfold roomOf grownBy
    simp only [total_append, total_cons]
    rw [if_neg (by omega)]

/-! ## The list of arrays -/

theorem appendRow_room {s s' : Shape} (h1 : s.offsets.kind = .malloc) (h2 : s.sizes.kind = .malloc) (h : s.appendRow c = .ok s') :
    s'.sizes.cap = grownBy 2 s.sizes.cap (s.numArrays + 1) ∧ s'.offsets.cap = grownBy 2 s.offsets.cap (s.numArrays + 2) := by
  unfold Shape.appendRow at h
  obtain ⟨m, _, h⟩ := bind_eq_ok.mp h
  obtain ⟨o, ho, h⟩ := bind_eq_ok.mp h
  obtain ⟨z, hz, h⟩ := bind_eq_ok.mp h
  cases h
  exact ⟨(grows_emplaceBack _ _ _ h2 z hz).1, (grows_emplaceBack _ _ _ h1 o ho).1⟩

theorem insertRow_room {s s' : Shape} {i : Nat} (h1 : s.offsets.kind = .malloc) (h2 : s.sizes.kind = .malloc)
    (h : s.insertRow c i = .ok s') :
    s'.sizes.cap = grownBy 2 s.sizes.cap (s.numArrays + 1) ∧ s'.offsets.cap = grownBy 2 s.offsets.cap (s.numArrays + 2) := by
  unfold Shape.insertRow at h
  obtain ⟨_, _, h⟩ := bind_eq_ok.mp h
  obtain ⟨m, _, h⟩ := bind_eq_ok.mp h
  obtain ⟨o, ho, h⟩ := bind_eq_ok.mp h
  obtain ⟨z, hz, h⟩ := bind_eq_ok.mp h
  cases h
  exact ⟨(grows_emplace _ _ _ _ h2 z hz).1, (grows_emplace _ _ _ _ h1 o ho).1⟩

theorem eraseRow_room {s s' : Shape} {i : Nat} (h : s.eraseRow c i = .ok s') :
    s'.sizes.cap = s.sizes.cap ∧ s'.offsets.cap = s.offsets.cap := by
  unfold Shape.eraseRow at h
  obtain ⟨o, ho, h⟩ := bind_eq_ok.mp h
  obtain ⟨z, hz, h⟩ := bind_eq_ok.mp h
  cases h
  exact ⟨(keepsCap_bufferErase _ _ _ z hz).1, (keepsCap_bufferErase _ _ _ o ho).1⟩

theorem reserve_room {s s' : Shape} {n : Nat} (h1 : s.offsets.kind = .malloc) (h2 : s.sizes.kind = .malloc)
    (h : s.reserve c n = .ok s') :
    s'.sizes.cap = grownBy 1 s.sizes.cap n ∧ s'.offsets.cap = grownBy 1 s.offsets.cap (n + 1) := by
  unfold Shape.reserve at h
  obtain ⟨o, ho, h⟩ := bind_eq_ok.mp h
  obtain ⟨z, hz, h⟩ := bind_eq_ok.mp h
  cases h
  unfold grownBy
  rw [Nat.one_mul, Nat.one_mul]
  exact ⟨(grows_reserve _ _ _ h2 z hz).1, (grows_reserve _ _ _ h1 o ho).1⟩

theorem dropRows_room {s s' : Shape} {n : Nat} (h1 : s.offsets.kind = .malloc) (h2 : s.sizes.kind = .malloc)
    (h : s.dropRows c n = .ok s') :
    s'.sizes.cap = grownBy 1 s.sizes.cap n ∧ s'.offsets.cap = grownBy 1 s.offsets.cap (n + 1) := by
  unfold Shape.dropRows at h
  obtain ⟨o, ho, h⟩ := bind_eq_ok.mp h
  obtain ⟨z, hz, h⟩ := bind_eq_ok.mp h
  cases h
  unfold grownBy
  rw [Nat.one_mul, Nat.one_mul]
  exact ⟨(grows_resize _ _ _ _ h2 z hz).1, (grows_resize _ _ _ _ h1 o ho).1⟩

theorem addRows_room {s s' : Shape} {n d : Nat} (h1 : s.offsets.kind = .malloc) (h2 : s.sizes.kind = .malloc)
    (h : s.addRows c n d = .ok s') :
    s'.sizes.cap = grownBy 1 s.sizes.cap n ∧ s'.offsets.cap = grownBy 1 s.offsets.cap (n + 1) := by
  unfold Shape.addRows at h
  obtain ⟨m, _, h⟩ := bind_eq_ok.mp h
  obtain ⟨o, ho, h⟩ := bind_eq_ok.mp h
  obtain ⟨z, hz, h⟩ := bind_eq_ok.mp h
  have ho' := (grows_resize _ _ _ _ h1 o ho).1
  have hz' := (grows_resize _ _ _ _ h2 z hz).1
  unfold grownBy
  rw [Nat.one_mul, Nat.one_mul]
  simp only at h
  split at h
  · unfold Shape.spreadOffsets at h
    obtain ⟨o', hs, h⟩ := bind_eq_ok.mp h
    cases h
    exact ⟨hz', by rw [← ho']; exact (keepsCap_forUp (fun i b => keepsCap_write b _ _) _ _ _ _ hs).1⟩
  · cases h
    exact ⟨hz', ho'⟩

theorem fromCapacities_room {s s' : Shape} {cs : List Nat} (h1 : s.offsets.kind = .malloc) (h2 : s.sizes.kind = .malloc)
    (h : s.fromCapacities c cs = .ok s') :
    s'.sizes.cap = grownBy 1 s.sizes.cap cs.length ∧ s'.offsets.cap = grownBy 1 s.offsets.cap (cs.length + 1) := by
  unfold Shape.fromCapacities at h
  obtain ⟨z, hz, h⟩ := bind_eq_ok.mp h
  obtain ⟨z1, hz1, h⟩ := bind_eq_ok.mp h
  obtain ⟨z2, hz2, h⟩ := bind_eq_ok.mp h
  obtain ⟨o, ho, h⟩ := bind_eq_ok.mp h
  obtain ⟨o1, ho1, h⟩ := bind_eq_ok.mp h
  obtain ⟨o2, ho2, h⟩ := bind_eq_ok.mp h
  cases h
  unfold grownBy
  rw [Nat.one_mul, Nat.one_mul]
  refine ⟨?_, ?_⟩
  · simp only
    rw [(keepsCap_forUp (fun i b => keepsCap_write b _ _) _ _ _ _ hz2).1, (keepsCap_destroy _ _ _ _ hz1).1,
      (grows_reserve _ _ _ h2 z hz).1]
  · simp only
    unfold Shape.scanOffsets at ho2
    obtain ⟨o3, ho3, ho4⟩ := bind_eq_ok.mp ho2
    rw [(keepsCap_forUp (fun i b => keepsCap_write b _ _) _ _ _ _ ho4).1, (keepsCap_write _ _ _ _ ho3).1,
      (keepsCap_destroy _ _ _ _ ho1).1, (grows_reserve _ _ _ h1 o ho).1]

theorem destroyValues_room {s : Shape} {i j : Nat} {b b' : Buf X} (h : s.destroyValues c i j b = .ok b') :
    b'.cap = b.cap ∧ b'.kind = b.kind := by
  unfold Shape.destroyValues at h
  exact keepsCap_bindUnit (keepsCap_bindUnit (keepsCap_forUp (fun i b => keepsCap_bindVal fun _ => keepsCap_bindVal fun _ =>
    keepsCap_destroy b _ _) _ _ _)) b' h

theorem compress_room {s s' : Shape} {b b' : Buf X} (h : s.compress c b = .ok (s', b')) :
    s'.sizes = s.sizes ∧ s'.offsets.cap = s.offsets.cap ∧ b'.cap = b.cap := by
  unfold Shape.compress at h
  split at h
  · cases h; exact ⟨rfl, rfl, rfl⟩
  · obtain ⟨⟨o, b1⟩, h1, h⟩ := bind_eq_ok.mp h
    simp only at h
    obtain ⟨_, _, h⟩ := bind_eq_ok.mp h
    obtain ⟨_, _, h⟩ := bind_eq_ok.mp h
    obtain ⟨o1, h2, h⟩ := bind_eq_ok.mp h
    cases h
    have key : ∀ (n lo : Nat) (st st' : Buf Nat × Buf X), forUp n lo (s.compressStep c) st = .ok st' →
        st'.1.cap = st.1.cap ∧ st'.2.cap = st.2.cap := by
      intro n
      induction n with
      | zero => intro lo st st' h; cases h; exact ⟨rfl, rfl⟩
      | succ n ih =>
        intro lo st st' h
        obtain ⟨st1, e1, e2⟩ := bind_eq_ok.mp (show (s.compressStep c lo st >>= forUp n (lo + 1) (s.compressStep c)) = .ok st' from h)
        obtain ⟨i1, i2⟩ := ih _ _ _ e2
        obtain ⟨o, q⟩ := st
        unfold Shape.compressStep at e1
        simp only at e1
        obtain ⟨_, _, e1⟩ := bind_eq_ok.mp e1
        obtain ⟨_, _, e1⟩ := bind_eq_ok.mp e1
        obtain ⟨_, _, e1⟩ := bind_eq_ok.mp e1
        obtain ⟨_, _, e1⟩ := bind_eq_ok.mp e1
        obtain ⟨q1, k1, e1⟩ := bind_eq_ok.mp e1
        obtain ⟨_, _, e1⟩ := bind_eq_ok.mp e1
        obtain ⟨o1, k2, e1⟩ := bind_eq_ok.mp e1
        cases e1
        exact ⟨by rw [i1]; exact (keepsCap_write _ _ _ _ k2).1, by rw [i2]; exact (keepsCap_uninitializedShiftDown _ _ _ _ _ k1).1⟩
    obtain ⟨k1, k2⟩ := key _ _ _ _ h1
    exact ⟨rfl, by simp only; rw [(keepsCap_write _ _ _ _ h2).1]; exact k1, k2⟩

/-! ## Calls on the object -/

theorem resize_room (h : AWeak a L) (h1 : a.shape.offsets.kind = .malloc) (h2 : a.shape.sizes.kind = .malloc) {n d : Nat}
    (ha : a.resize c n d = .ok a') :
    roomOf a' = ⟨grownBy 1 a.shape.sizes.cap n, grownBy 1 a.shape.offsets.cap (n + 1),
      grownBy 1 a.values.cap (total (L.take n ++ List.replicate (n - L.length) ([], d)))⟩ := by
  have hroom := h.lay.room
  unfold AoA.resize at ha
  rw [h.numArrays] at ha
  split at ha
  · rename_i hn
    obtain ⟨b, hb, ha⟩ := bind_eq_ok.mp ha
    obtain ⟨s, hs, ha⟩ := bind_eq_ok.mp ha
    cases ha
    obtain ⟨k1, k2⟩ := dropRows_room h1 h2 hs
    unfold roomOf
    simp only
    rw [k1, k2, (destroyValues_room hb).1, show n - L.length = 0 by omega]
    have : total (L.take n) + total (L.drop n) = total L := by rw [← total_append, List.take_append_drop]
    simp only [List.replicate_zero, List.append_nil]
    rw [show grownBy 1 a.values.cap (total (L.take n)) = a.values.cap by unfold grownBy; rw [if_neg (by omega)]]
  · rename_i hn
    obtain ⟨s, hs, ha⟩ := bind_eq_ok.mp ha
    obtain ⟨b, hb, ha⟩ := bind_eq_ok.mp ha
    cases ha
    obtain ⟨k1, k2⟩ := addRows_room h1 h2 hs
    unfold roomOf
    simp only
    rw [k1, k2, List.take_of_length_le (by omega)]
    congr 1
    obtain ⟨s', e1, e2, e3⟩ := h.shape.addRows (c := c) (n := n) (by simpa using (by omega : L.length ≤ n)) d
    rw [hs] at e1
    cases e1
    have e5 : L.caps ++ List.replicate (n - L.caps.length) d = caps (L ++ List.replicate (n - L.length) (([] : List T), d)) := by
      simp [caps]
    rw [e5] at e3
    unfold Shape.addRowsReserve at hb
    split at hb
    · have r1 : s.offsets.read n = .ok (total (L ++ List.replicate (n - L.length) (([] : List T), d))) := by
        have := ShGood.readLast e3
        rw [caps_sum] at this
        exact this
      rw [r1, bind_ok] at hb
      obtain ⟨_, _, hb⟩ := bind_eq_ok.mp hb
      unfold grownBy
      rw [Nat.one_mul]
      exact (grows_reserve _ _ _ h.lay.kind b hb).1
    · rename_i hd
      cases hb
      have hd0 : d = 0 := by omega
      subst hd0
      have ht : Layout.total (L ++ List.replicate (n - L.length) (([] : List T), 0)) = Layout.total L := by simp [Layout.total]
      unfold grownBy
      rw [ht, if_neg (by omega)]

theorem tight_le (h : ∀ r ∈ L, r.1.length ≤ r.2) : total (L.map fun r => (r.1, r.1.length)) ≤ total L := by
  induction L with
  | nil => simp
  | cons r L ih =>
    have h1 := h r (by simp)
    have h2 := ih (fun q hq => h q (by simp [hq]))
    simp only [List.map_cons, total_cons] at h2 ⊢
    omega

theorem roomAfter_one {op : AoAOp T} (h : ∀ n, growth op n = n) (room need : Nat) : roomAfter op room need = grownBy 1 room need := by
  unfold roomAfter grownBy tooSmall
  rw [h, Nat.one_mul]
  simp

theorem roomAfter_two {op : AoAOp T} (h : ∀ n, growth op n = 2 * n) (room need : Nat) :
    roomAfter op room need = grownBy 2 room need := by
  unfold roomAfter grownBy tooSmall
  rw [h]
  simp

theorem roomAfter_le {op : AoAOp T} {room need : Nat} (h : need ≤ room) : roomAfter op room need = room := by
  unfold roomAfter tooSmall
  rw [if_neg (by simpa using h)]

/-- The room of the three buffers after a call. -/
theorem step_room [Inhabited T] {L' : Layout T} (h : AGood a L) (op : AoAOp T) (hs : vvcStep L op = some L')
    (ha : a.step c op = .ok a') :
    roomOf a' = ⟨roomAfter op a.shape.sizes.cap (needs op L L').sizes, roomAfter op a.shape.offsets.cap (needs op L L').offsets,
      roomAfter op a.values.cap (needs op L L').values⟩ := by
  have hroom := h.lay.room
  have htot : ∀ L : Layout T, (L.map (·.2)).sum = total L := fun L => caps_sum L
  have ko : a.shape.offsets.kind = .malloc := (ShGood.off h.shape).2
  have kz : a.shape.sizes.kind = .malloc := (ShGood.siz h.shape).2
  have kv : a.values.kind = .malloc := h.lay.kind
  have hnum : a.shape.numArrays = L.length := by rw [ShGood.num h.shape]; simp
  -- a call that changes the elements of one array
  have row : ∀ {need : Nat}, needs op L L' = ⟨0, 0, need⟩ → (∀ n, growth op n = 2 * n) →
      roomOf a' = { roomOf a with values := grownBy 2 a.values.cap need } →
      roomOf a' = ⟨roomAfter op a.shape.sizes.cap (needs op L L').sizes, roomAfter op a.shape.offsets.cap (needs op L L').offsets,
        roomAfter op a.values.cap (needs op L L').values⟩ := by
    intro need e1 e2 e3
    rw [e3, e1]
    simp only
    rw [roomAfter_le (Nat.zero_le _), roomAfter_le (Nat.zero_le _), roomAfter_two e2]
    rfl
  have same : ∀ {need : Nat}, needs op L L' = ⟨0, 0, need⟩ → need ≤ a.values.cap → roomOf a' = roomOf a →
      roomOf a' = ⟨roomAfter op a.shape.sizes.cap (needs op L L').sizes, roomAfter op a.shape.offsets.cap (needs op L L').offsets,
        roomAfter op a.values.cap (needs op L L').values⟩ := by
    intro need e1 e2 e3
    rw [e3, e1]
    simp only
    rw [roomAfter_le (Nat.zero_le _), roomAfter_le (Nat.zero_le _), roomAfter_le e2]
    rfl
  cases op with
  | resize n d =>
    simp only [vvcStep, Option.some.injEq] at hs
    subst hs
    have := resize_room h.weak ko kz (show a.resize c n d = .ok a' from ha)
    rw [this]
    simp only [needs, htot]
    rw [roomAfter_one (fun _ => rfl), roomAfter_one (fun _ => rfl), roomAfter_one (fun _ => rfl)]
  | reserve n =>
    obtain ⟨s, hs', ha⟩ := bind_eq_ok.mp (show a.reserve c n = .ok a' from ha)
    cases ha
    obtain ⟨k1, k2⟩ := reserve_room ko kz hs'
    simp only [needs]
    rw [roomAfter_one (fun _ => rfl), roomAfter_one (fun _ => rfl), roomAfter_le (Nat.zero_le _), ← k1, ← k2]
    rfl
  | reserveValues n =>
    obtain ⟨b, hb, ha⟩ := bind_eq_ok.mp (show a.reserveValues c n = .ok a' from ha)
    cases ha
    unfold Shape.reserveValues at hb
    obtain ⟨_, _, hb⟩ := bind_eq_ok.mp hb
    have k := (grows_reserve _ _ _ kv b hb).1
    simp only [needs]
    rw [roomAfter_le (Nat.zero_le _), roomAfter_le (Nat.zero_le _), roomAfter_one (fun _ => rfl)]
    unfold roomOf grownBy
    simp only
    rw [k, Nat.one_mul]
  | compress =>
    simp only [vvcStep, Option.some.injEq] at hs
    subst hs
    obtain ⟨⟨s, b⟩, hs', ha⟩ := bind_eq_ok.mp (show a.compress c = .ok a' from ha)
    cases ha
    obtain ⟨k1, k2, k3⟩ := compress_room hs'
    refine same rfl ?_ ?_
    · rw [htot]; exact Nat.le_trans (tight_le h.lay.fits) hroom
    · unfold roomOf; simp only; rw [k1, k2, k3]
  | appendArraySize n =>
    simp only [vvcStep, Option.some.injEq] at hs
    subst hs
    obtain ⟨s, hs', ha⟩ := bind_eq_ok.mp (show a.appendArraySize c n = .ok a' from ha)
    obtain ⟨s', e1, e2, e3⟩ := h.appendRow (c := c)
    rw [hs'] at e1
    cases e1
    rw [e2, Nat.add_sub_cancel] at ha
    rw [resizeArray_room e3 ha]
    obtain ⟨k1, k2⟩ := appendRow_room ko kz hs'
    simp only [needs, htot]
    rw [roomAfter_two (fun _ => rfl), roomAfter_two (fun _ => rfl), roomAfter_two (fun _ => rfl), ← hnum, ← k1, ← k2]
    unfold roomOf
    simp
  | appendArray vs =>
    simp only [vvcStep, Option.some.injEq] at hs
    subst hs
    obtain ⟨s, hs', ha⟩ := bind_eq_ok.mp (show a.appendArray c vs = .ok a' from ha)
    obtain ⟨s', e1, e2, e3⟩ := h.appendRow (c := c)
    rw [hs'] at e1
    cases e1
    rw [e2, Nat.add_sub_cancel] at ha
    rw [grow_edit_room e3 (e := .appendToArray L.length vs) ha]
    obtain ⟨k1, k2⟩ := appendRow_room ko kz hs'
    simp only [needs, htot]
    rw [roomAfter_two (fun _ => rfl), roomAfter_two (fun _ => rfl), roomAfter_two (fun _ => rfl), ← hnum, ← k1, ← k2]
    unfold roomOf
    simp
  | insertArray i vs =>
    simp only [vvcStep] at hs
    split at hs
    · rename_i hi
      cases hs
      obtain ⟨s, hs', ha⟩ := bind_eq_ok.mp (show a.insertArray c i vs = .ok a' from ha)
      obtain ⟨s', e1, e3⟩ := (show AGood a (L.take i ++ L.drop i) by rw [List.take_append_drop]; exact h).insertRow (c := c)
      rw [show (L.take i).length = i by simp; omega, hs'] at e1
      cases e1
      have ha' : (AoA.dynamicallyGrowArray c { a with shape := s } (L.take i).length vs.length >>= fun a =>
        a.edit c (.appendToArray i vs)) = .ok a' := by rw [show (L.take i).length = i by simp; omega]; exact ha
      rw [grow_edit_room e3 ha']
      obtain ⟨k1, k2⟩ := insertRow_room ko kz hs'
      simp only [needs, htot]
      rw [roomAfter_two (fun _ => rfl), roomAfter_two (fun _ => rfl), roomAfter_two (fun _ => rfl), ← hnum, ← k1, ← k2]
      unfold roomOf
      simp
    · cases hs
  | eraseArray i =>
    simp only [vvcStep] at hs
    split at hs
    · rename_i hi
      cases hs
      obtain ⟨A, xs, cap, B, rfl, rfl, _⟩ := split1 hi
      have e : (A ++ (xs, cap) :: B).eraseIdx A.length = A ++ B := by
        rw [List.eraseIdx_append_of_length_le (Nat.le_refl _)]; simp
      obtain ⟨_, _, ha⟩ := bind_eq_ok.mp (show a.eraseArray c A.length = .ok a' from ha)
      obtain ⟨a1, h1, ha⟩ := bind_eq_ok.mp ha
      obtain ⟨s, hs', ha⟩ := bind_eq_ok.mp ha
      cases ha
      obtain ⟨k1, k2⟩ := eraseRow_room hs'
      have k3 := setCapacity_room h h1
      simp only [total_append, total_cons] at hroom
      refine same rfl ?_ ?_
      · rw [htot, e]; simp only [total_append]; omega
      · rw [show roomOf { a1 with shape := s } = roomOf a1 by unfold roomOf; simp only; rw [k1, k2], k3]
        unfold roomOf grownBy
        simp only [total_append, total_cons]
        rw [if_neg (by omega)]
    · cases hs
  | emplaceBack i v =>
    simp only [vvcStep] at hs
    obtain ⟨A, xs, cap, B, rfl, rfl, _, rfl⟩ := onRowC_some hs
    refine row rfl (fun _ => rfl) ?_
    rw [htot]
    exact (grow_edit_room h (e := .emplaceBack A.length v) ha).trans (by simp)
  | appendToArray i vs =>
    simp only [vvcStep] at hs
    obtain ⟨A, xs, cap, B, rfl, rfl, _, rfl⟩ := onRowC_some hs
    refine row rfl (fun _ => rfl) ?_
    rw [htot]
    exact (grow_edit_room h (e := .appendToArray A.length vs) ha).trans (by simp)
  | emplace i j v =>
    simp only [vvcStep] at hs
    obtain ⟨A, xs, cap, B, rfl, rfl, hj, rfl⟩ := onRowC_some hs
    refine row rfl (fun _ => rfl) ?_
    rw [htot]
    exact (grow_edit_room h (e := .emplace A.length j v) ha).trans (by simp)
  | insertIntoArray i j vs =>
    simp only [vvcStep] at hs
    obtain ⟨A, xs, cap, B, rfl, rfl, hj, rfl⟩ := onRowC_some hs
    refine row rfl (fun _ => rfl) ?_
    rw [htot]
    exact (grow_edit_room h (e := .insertIntoArray A.length j vs) ha).trans (by simp)
  | eraseFromArray i j n =>
    simp only [vvcStep] at hs
    obtain ⟨A, xs, cap, B, rfl, rfl, hj, rfl⟩ := onRowC_some hs
    refine same rfl ?_ (edit_room (e := .eraseFromArray A.length j n) ha)
    rw [htot]; simpa using hroom
  | resizeArray i n v =>
    simp only [vvcStep] at hs
    obtain ⟨A, xs, cap, B, rfl, rfl, _, rfl⟩ := onRowC_some hs
    refine row rfl (fun _ => rfl) ?_
    rw [htot]
    exact (resizeArray_room h ha).trans (by simp)
  | clearArray i =>
    simp only [vvcStep] at hs
    obtain ⟨A, xs, cap, B, rfl, rfl, _, rfl⟩ := onRowC_some hs
    refine row rfl (fun _ => rfl) ?_
    rw [htot]
    exact (resizeArray_room h (n := 0) (v := default) ha).trans (by simp)
  | setCapacityOfArray i n =>
    simp only [vvcStep] at hs
    obtain ⟨A, xs, cap, B, rfl, rfl, _, rfl⟩ := onRowC_some hs
    refine row rfl (fun _ => rfl) ?_
    rw [htot]
    exact setCapacity_room h ha
  | set i j v =>
    simp only [vvcStep] at hs
    obtain ⟨A, xs, cap, B, rfl, rfl, hj, rfl⟩ := onRowC_some hs
    refine same rfl ?_ (edit_room (e := .set A.length j v) ha)
    rw [htot]; simpa using hroom
  | resizeFromCapacities cs =>
    simp only [vvcStep, Option.some.injEq] at hs
    subst hs
    obtain ⟨b, hb, ha⟩ := bind_eq_ok.mp (show a.resizeFromCapacities c cs = .ok a' from ha)
    obtain ⟨s, hs', ha⟩ := bind_eq_ok.mp ha
    obtain ⟨b1, hb1, ha⟩ := bind_eq_ok.mp ha
    cases ha
    obtain ⟨d1, d2⟩ := destroyValues_room hb
    obtain ⟨k1, k2⟩ := fromCapacities_room ko kz hs'
    obtain ⟨s', e1, e2⟩ := h.weak.shape.fromCapacities (c := c) cs
    rw [hs'] at e1
    cases e1
    unfold Shape.fromCapacitiesReserve at hb1
    rw [ShGood.readLast e2, bind_ok] at hb1
    have k3 := (grows_reserve _ _ _ (d2.trans kv) b1 hb1).1
    simp only [needs, List.length_map]
    rw [roomAfter_one (fun _ => rfl), roomAfter_one (fun _ => rfl), roomAfter_one (fun _ => rfl), ← k1, ← k2]
    unfold roomOf grownBy
    simp only [List.map_map]
    rw [k3, d1, Nat.one_mul]
    simp [Function.comp_def]

/-- The room of a new object. -/
theorem mk_room {n d : Nat} (h : AoA.mk' c n d = .ok a) : roomOf a = ⟨n, n + 1, n * d⟩ := by
  rw [resize_room AWeak.fresh rfl rfl h]
  have : total (([] : Layout T).take n ++ List.replicate (n - ([] : Layout T).length) ([], d)) = n * d := by
    simp [Layout.total]
  rw [this]
  unfold grownBy Buf.empty
  simp
  exact ⟨fun h => h.symm, fun h => h.symm⟩

end LvArray.RowCaps

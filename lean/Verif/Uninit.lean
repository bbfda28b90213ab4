import Verif.ArrayND
import Verif.Spec.Plain

/-!
# Storage of plain data, some of it never initialised

For trivially copyable types the library moves, destroys and overwrites elements that were never given a value.  A buffer of
such elements is compared with one of optional values in which every element is initialised and `none` stands for a value
nobody has specified: whatever the library does with the second buffer it does with the first, and the values that are
specified agree.
-/

namespace LvArray

variable {T : Type}

/-- `b` holds every value that `b'` specifies. -/
structure Buf.Knows (b : Buf T) (b' : Buf (Option T)) : Prop where
  kind : b.kind = b'.kind
  cap : b.cap = b'.cap
  cell : ∀ k v, b'.cell k = .live (some v) → b.cell k = .live v

/-- `r` does whatever `r'` does: it succeeds with a related result or ends with the same error message. -/
def Follows {A B : Type} (P : A → B → Prop) (r : R A) (r' : R B) : Prop :=
  match r' with
  | .ok b => ∃ a, r = .ok a ∧ P a b
  | .error .abort => r = .error .abort
  | .error (.ub _) => True

namespace Follows

variable {A B A' B' : Type} {P : A → B → Prop} {Q : A' → B' → Prop}

theorem ok {a : A} {b : B} (h : P a b) : Follows P (.ok a) (.ok b) := ⟨a, rfl, h⟩

theorem bind {r : R A} {r' : R B} {f : A → R A'} {g : B → R B'} (h : Follows P r r')
    (hf : ∀ a b, P a b → Follows Q (f a) (g b)) : Follows Q (r >>= f) (r' >>= g) := by
  cases r' with
  | ok b =>
    obtain ⟨a, rfl, h⟩ := h
    exact hf a b h
  | error e =>
    cases e with
    | abort =>
      have h : r = .error .abort := h
      subst h
      exact rfl
    | ub u => trivial

theorem errorIf (p : Bool) : Follows (fun _ _ => True) (LvArray.errorIf p) (LvArray.errorIf p) := by
  cases p
  · exact ⟨(), rfl, trivial⟩
  · exact rfl

theorem mono {r : R A} {r' : R B} {P' : A → B → Prop} (h : Follows P r r') (hp : ∀ a b, P a b → P' a b) : Follows P' r r' := by
  cases r' with
  | ok b =>
    obtain ⟨a, e, h⟩ := h
    exact ⟨a, e, hp a b h⟩
  | error e => cases e <;> exact h

theorem forUp {f : Nat → A → R A} {g : Nat → B → R B} (hf : ∀ i a b, P a b → Follows P (f i a) (g i b)) :
    ∀ (n lo : Nat) (a : A) (b : B), P a b → Follows P (LvArray.forUp n lo f a) (LvArray.forUp n lo g b)
  | 0, _, _, _, h => ok h
  | n + 1, lo, a, b, h => bind (hf lo a b h) fun a b h => forUp hf n (lo + 1) a b h

theorem forDown {f : Nat → A → R A} {g : Nat → B → R B} (hf : ∀ i a b, P a b → Follows P (f i a) (g i b)) :
    ∀ (n lo : Nat) (a : A) (b : B), P a b → Follows P (LvArray.forDown n lo f a) (LvArray.forDown n lo g b)
  | 0, _, _, _, h => ok h
  | n + 1, lo, a, b, h => bind (hf (lo + n) a b h) fun a b h => forDown hf n lo a b h

end Follows

section
variable {c : Cfg} {b : Buf T} {b' : Buf (Option T)}

theorem Buf.Knows.put (h : b.Knows b') {i : Nat} {x : Cell T} {x' : Cell (Option T)} (hx : ∀ v, x' = .live (some v) → x = .live v)
    {l m n l' m' n' : Nat} :
    Buf.Knows { b with cell := upd b.cell i x, lostLive := l, lostMoved := m, moves := n }
      { b' with cell := upd b'.cell i x', lostLive := l', lostMoved := m', moves := n' } := by
  refine ⟨h.kind, h.cap, fun k v hk => ?_⟩
  by_cases e : k = i
  · subst e
    simp only [upd_same] at hk ⊢
    exact hx v hk
  · simp only [upd_ne _ _ e] at hk ⊢
    exact h.cell k v hk

/-- Forgetting what is known about a slot. -/
theorem Buf.Knows.forget (h : b.Knows b') {i : Nat} {x' : Cell (Option T)} (hx : ∀ v, x' ≠ .live (some v))
    {l m n l' m' n' : Nat} :
    Buf.Knows { b with lostLive := l, lostMoved := m, moves := n }
      { b' with cell := upd b'.cell i x', lostLive := l', lostMoved := m', moves := n' } := by
  refine ⟨h.kind, h.cap, fun k v hk => ?_⟩
  by_cases e : k = i
  · subst e
    simp only [upd_same] at hk
    exact absurd hk (hx v)
  · simp only [upd_ne _ _ e] at hk
    exact h.cell k v hk

theorem Buf.Knows.construct (h : b.Knows b') (i : Nat) (v : T) (w : Option T) (hv : ∀ u, w = some u → v = u) :
    Follows Buf.Knows (b.construct c i v) (b'.construct c i w) := by
  unfold Buf.construct
  by_cases hc : i < b'.cap
  · rw [if_pos (by rw [h.cap]; exact hc), if_pos hc]
    exact .ok (h.put (fun u hu => by cases hu; rw [hv u rfl]))
  · rw [if_neg hc]
    trivial

theorem Buf.Knows.write (ht : c.trivial = true) (h : b.Knows b') (i : Nat) (v : T) :
    Follows Buf.Knows (b.write c i v) (b'.write c i (some v)) := by
  unfold Buf.write
  by_cases hc : i < b'.cap
  · rw [if_pos (by rw [h.cap]; exact hc), if_pos hc]
    simp only [ht, Bool.not_true, Bool.and_false, Bool.false_eq_true, if_false]
    exact .ok (h.put (fun w hw => by cases hw; rfl))
  · rw [if_neg hc]
    trivial

theorem Buf.Knows.read (h : b.Knows b') {i : Nat} {v : T} (hr : b'.read i = .ok (some v)) : b.read i = .ok v := by
  unfold Buf.read at hr ⊢
  rw [h.cap]
  split at hr
  · rename_i hi
    rw [if_pos hi]
    split at hr
    · cases hr
    · rename_i w hw
      cases hr
      rw [h.cell i v hw]
    · cases hr
  · cases hr

theorem Buf.Knows.destroyAt (ht : c.trivial = true) (h : b.Knows b') (i : Nat) :
    Follows Buf.Knows (b.destroyAt c i) (b'.destroyAt c i) := by
  unfold Buf.destroyAt
  rw [if_pos ht, if_pos ht]
  exact .ok (h.put (fun w hw => by cases hw))

theorem Buf.Knows.moveConstruct (ht : c.trivial = true) (h : b.Knows b') (dst src : Nat) :
    Follows Buf.Knows (b.moveConstruct c dst src) (b'.moveConstruct c dst src) := by
  unfold Buf.moveConstruct
  by_cases hc : dst < b'.cap ∧ src < b'.cap
  · rw [if_pos (by rw [h.cap]; exact hc), if_pos hc]
    simp only [ht, if_true]
    cases hx : b'.cell src with
    | raw =>
      cases hy : b.cell src
      · exact .ok (h.put (fun w hw => by cases hw))
      · refine .ok (Buf.Knows.put (b := { b with cell := upd b.cell src .moved }) (b' := b') ⟨h.kind, h.cap, fun k v hk => ?_⟩ (fun w hw => by cases hw))
        show upd b.cell src .moved k = _
        rw [upd_ne _ _ (fun e => by rw [e, hx] at hk; cases hk)]
        exact h.cell k v hk
      · exact .ok (h.put (fun w hw => by cases hw))
    | moved =>
      cases hy : b.cell src
      · exact .ok (h.put (fun w hw => by cases hw))
      · refine .ok (Buf.Knows.put (b := { b with cell := upd b.cell src .moved }) (b' := b') ⟨h.kind, h.cap, fun k v hk => ?_⟩ (fun w hw => by cases hw))
        show upd b.cell src .moved k = _
        rw [upd_ne _ _ (fun e => by rw [e, hx] at hk; cases hk)]
        exact h.cell k v hk
      · exact .ok (h.put (fun w hw => by cases hw))
    | live w =>
      have h1 : b.Knows { b' with cell := upd b'.cell src .moved } := Buf.Knows.forget h (fun v hv => by cases hv)
      cases hy : b.cell src with
      | raw =>
        refine .ok (h1.put (fun v hv => ?_))
        cases hv
        rw [h.cell src v hx] at hy; cases hy
      | live u =>
        refine .ok (Buf.Knows.put (b := { b with cell := upd b.cell src .moved }) (b' := { b' with cell := upd b'.cell src .moved }) (h.put (fun v hv => by cases hv)) (fun v hv => ?_))
        cases hv
        rw [h.cell src v hx] at hy; exact hy.symm
      | moved =>
        refine .ok (h1.put (fun v hv => ?_))
        cases hv
        rw [h.cell src v hx] at hy; cases hy
  · rw [if_neg hc]
    trivial

theorem Buf.Knows.moveAssign (ht : c.trivial = true) (h : b.Knows b') (dst src : Nat) :
    Follows Buf.Knows (b.moveAssign c dst src) (b'.moveAssign c dst src) := by
  unfold Buf.moveAssign
  by_cases hc : dst < b'.cap ∧ src < b'.cap
  · rw [if_pos (by rw [h.cap]; exact hc), if_pos hc]
    simp only [ht, Bool.not_true, Bool.and_false, Bool.false_eq_true, if_false, if_true]
    cases hx : b'.cell src with
    | raw =>
      cases hy : b.cell src
      · exact .ok (h.put (fun w hw => by cases hw))
      · refine .ok (Buf.Knows.put (b := { b with cell := upd b.cell src .moved }) (b' := b') ⟨h.kind, h.cap, fun k v hk => ?_⟩ (fun w hw => by cases hw))
        show upd b.cell src .moved k = _
        rw [upd_ne _ _ (fun e => by rw [e, hx] at hk; cases hk)]
        exact h.cell k v hk
      · exact .ok (h.put (fun w hw => by cases hw))
    | moved =>
      cases hy : b.cell src
      · exact .ok (h.put (fun w hw => by cases hw))
      · refine .ok (Buf.Knows.put (b := { b with cell := upd b.cell src .moved }) (b' := b') ⟨h.kind, h.cap, fun k v hk => ?_⟩ (fun w hw => by cases hw))
        show upd b.cell src .moved k = _
        rw [upd_ne _ _ (fun e => by rw [e, hx] at hk; cases hk)]
        exact h.cell k v hk
      · exact .ok (h.put (fun w hw => by cases hw))
    | live w =>
      have h1 : b.Knows { b' with cell := upd b'.cell src .moved } := Buf.Knows.forget h (fun v hv => by cases hv)
      cases hy : b.cell src with
      | raw =>
        refine .ok (h1.put (fun v hv => ?_))
        cases hv
        rw [h.cell src v hx] at hy; cases hy
      | live u =>
        refine .ok (Buf.Knows.put (b := { b with cell := upd b.cell src .moved }) (b' := { b' with cell := upd b'.cell src .moved }) (h.put (fun v hv => by cases hv)) (fun v hv => ?_))
        cases hv
        rw [h.cell src v hx] at hy; exact hy.symm
      | moved =>
        refine .ok (h1.put (fun v hv => ?_))
        cases hv
        rw [h.cell src v hx] at hy; cases hy
  · rw [if_neg hc]
    trivial

/-! ## `arrayManipulation` -/

theorem Buf.Knows.destroy (ht : c.trivial = true) (h : b.Knows b') (p n : Nat) :
    Follows Buf.Knows (arrayManipulation.destroy c b p n) (arrayManipulation.destroy c b' p n) :=
  Follows.forUp (fun i _ _ h => h.destroyAt ht i) n p b b' h

theorem Buf.Knows.constructRange (h : b.Knows b') (p n : Nat) (v : Nat → T) (w : Nat → Option T)
    (hv : ∀ i u, w i = some u → v i = u) :
    Follows Buf.Knows (arrayManipulation.constructRange c b p n v) (arrayManipulation.constructRange c b' p n w) :=
  Follows.forUp (fun i _ _ h => h.construct i _ _ (hv _)) n p b b' h

theorem Buf.Knows.shiftUp (ht : c.trivial = true) (h : b.Knows b') (p size index n : Nat) :
    Follows Buf.Knows (arrayManipulation.shiftUp c b p size index n) (arrayManipulation.shiftUp c b' p size index n) := by
  unfold arrayManipulation.shiftUp
  refine .bind (.errorIf _) fun _ _ _ => ?_
  split
  · exact .ok h
  · exact .bind (Follows.forDown (fun i _ _ h => h.moveConstruct ht _ _) _ _ b b' h) fun b b' h => h.destroy ht _ _

theorem Buf.Knows.shiftDown (ht : c.trivial = true) (h : b.Knows b') (p size index n : Nat) :
    Follows Buf.Knows (arrayManipulation.shiftDown c b p size index n) (arrayManipulation.shiftDown c b' p size index n) := by
  unfold arrayManipulation.shiftDown
  refine .bind (.errorIf _) fun _ _ _ => .bind (.errorIf _) fun _ _ _ => ?_
  split
  · exact .ok h
  · refine Follows.forUp (fun i _ _ h => ?_) _ _ b b' h
    split
    · trivial
    · exact h.moveAssign ht _ _

/-! ## `bufferManipulation` -/

theorem Buf.Knows.reallocate (ht : c.trivial = true) (h : b.Knows b') (size newCap : Nat) :
    Follows Buf.Knows (b.reallocate c size newCap) (b'.reallocate c size newCap) := by
  unfold Buf.reallocate
  rw [h.kind]
  cases b'.kind with
  | stack =>
    rw [h.cap]
    exact .bind (.errorIf _) fun _ _ _ => .ok h
  | malloc =>
    refine .bind (P := fun s s' => s.1.Knows s'.1 ∧ s.2.Knows s'.2) (Follows.forUp ?_ _ _ _ _ ⟨⟨rfl, rfl, fun k v hk => by cases hk⟩, h⟩) ?_
    · rintro i ⟨d, s⟩ ⟨d', s'⟩ ⟨hd, hs⟩
      have hd : d.Knows d' := hd
      have hs : s.Knows s' := hs
      unfold moveAcross
      dsimp only
      by_cases hc : i < d'.cap ∧ i < s'.cap
      · rw [if_pos (by rw [hd.cap, hs.cap]; exact hc), if_pos hc]
        simp only [ht, if_true]
        cases hx : s'.cell i with
        | raw =>
          cases hy : s.cell i
          · exact .ok ⟨hd.put (fun w hw => by cases hw), hs⟩
          · refine .ok ⟨hd.put (fun w hw => by cases hw), hs.kind, hs.cap, fun k v hk => ?_⟩
            show upd s.cell i .moved k = _
            rw [upd_ne _ _ (fun e => by rw [e, hx] at hk; cases hk)]
            exact hs.cell k v hk
          · exact .ok ⟨hd.put (fun w hw => by cases hw), hs⟩
        | moved =>
          cases hy : s.cell i
          · exact .ok ⟨hd.put (fun w hw => by cases hw), hs⟩
          · refine .ok ⟨hd.put (fun w hw => by cases hw), hs.kind, hs.cap, fun k v hk => ?_⟩
            show upd s.cell i .moved k = _
            rw [upd_ne _ _ (fun e => by rw [e, hx] at hk; cases hk)]
            exact hs.cell k v hk
          · exact .ok ⟨hd.put (fun w hw => by cases hw), hs⟩
        | live w =>
          have h1 : s.Knows { s' with cell := upd s'.cell i .moved } := Buf.Knows.forget hs (fun v hv => by cases hv)
          cases hy : s.cell i with
          | raw =>
            refine .ok ⟨hd.put (fun v hv => ?_), h1⟩
            cases hv
            rw [hs.cell i v hx] at hy; cases hy
          | live u =>
            refine .ok ⟨hd.put (fun v hv => ?_), hs.put (fun v hv => by cases hv)⟩
            cases hv
            rw [hs.cell i v hx] at hy; exact hy.symm
          | moved =>
            refine .ok ⟨hd.put (fun v hv => ?_), h1⟩
            cases hv
            rw [hs.cell i v hx] at hy; cases hy
      · rw [if_neg hc]
        trivial
    · rintro ⟨d, s⟩ ⟨d', s'⟩ ⟨hd, hs⟩
      exact .bind (hs.destroy ht _ _) fun _ _ _ => .ok ⟨hd.kind, hd.cap, hd.cell⟩

theorem Buf.Knows.check (h : b.Knows b') (size : Nat) :
    Follows (fun _ _ => True) (bufferManipulation.check c b size) (bufferManipulation.check c b' size) := by
  unfold bufferManipulation.check
  rw [h.cap]
  exact .errorIf _

theorem Buf.Knows.setCapacity (ht : c.trivial = true) (h : b.Knows b') (size n : Nat) :
    Follows Buf.Knows (bufferManipulation.setCapacity c b size n) (bufferManipulation.setCapacity c b' size n) :=
  .bind (h.check size) fun _ _ _ => h.reallocate ht _ _

theorem Buf.Knows.reserve (ht : c.trivial = true) (h : b.Knows b') (size n : Nat) :
    Follows Buf.Knows (bufferManipulation.reserve c b size n) (bufferManipulation.reserve c b' size n) := by
  refine .bind (h.check size) fun _ _ _ => ?_
  rw [h.cap]
  split
  · exact h.setCapacity ht _ _
  · exact .ok h

theorem Buf.Knows.resize (ht : c.trivial = true) (h : b.Knows b') (size n : Nat) (v : T) (w : Option T)
    (hv : ∀ u, w = some u → v = u) :
    Follows Buf.Knows (bufferManipulation.resize c b size n v) (bufferManipulation.resize c b' size n w) :=
  .bind (h.check size) fun _ _ _ => .bind (h.reserve ht _ _) fun _ _ h =>
    .bind (h.destroy ht _ _) fun _ _ h => h.constructRange _ _ _ _ (fun _ => hv)

/-- Reserving only, against a resize whose new elements are not specified. -/
theorem Buf.Knows.reserve_resize (ht : c.trivial = true) (h : b.Knows b') (size n : Nat) :
    Follows Buf.Knows (bufferManipulation.reserve c b size n) (bufferManipulation.resize c b' size n none) := by
  have hf : ∀ b : Buf T, ∀ b' : Buf (Option T), b.Knows b' → Follows Buf.Knows (.ok b) (arrayManipulation.resize c b' 0 size n none) := by
    intro b b' h
    unfold arrayManipulation.resize
    have h1 : ∀ (m p : Nat) (b' : Buf (Option T)), b.Knows b' → Follows Buf.Knows (.ok b) (arrayManipulation.destroy c b' p m) := by
      intro m
      unfold arrayManipulation.destroy
      induction m with
      | zero => exact fun p b' h => .ok h
      | succ m ih =>
        intro p b' h
        show Follows _ _ (b'.destroyAt c p >>= _)
        unfold Buf.destroyAt
        rw [if_pos ht, bind_ok]
        exact ih _ _ (Buf.Knows.forget h (fun v hv => by cases hv))
    have h2 : ∀ (m p : Nat) (f : Nat → Buf (Option T) → R (Buf (Option T))) (b' : Buf (Option T)),
        (∀ i b', b.Knows b' → Follows Buf.Knows (.ok b) (f i b')) → b.Knows b' → Follows Buf.Knows (.ok b) (forUp m p f b') := by
      intro m
      induction m with
      | zero => exact fun p f b' _ h => .ok h
      | succ m ih =>
        intro p f b' hf h
        show Follows _ _ (f p b' >>= _)
        have := hf p b' h
        cases hr : f p b' with
        | ok b1 =>
          rw [hr] at this
          obtain ⟨b2, e, h⟩ := this
          cases e
          exact ih _ _ _ hf h
        | error e =>
          rw [hr] at this
          cases e with
          | abort => cases this
          | ub => trivial
    have h3 := h1 (size - n) (0 + n) b' h
    cases hr : arrayManipulation.destroy c b' (0 + n) (size - n) with
    | ok b1 =>
      rw [hr] at h3
      obtain ⟨b2, e, h⟩ := h3
      cases e
      rw [bind_ok]
      refine h2 _ _ _ _ (fun i b' h => ?_) h
      unfold Buf.construct
      split
      · exact .ok (Buf.Knows.forget h (fun v hv => by cases hv))
      · trivial
    | error e =>
      rw [hr] at h3
      cases e with
      | abort => cases h3
      | ub => trivial
  have h1 := Follows.bind (h.check (c := c) size) fun _ _ _ => .bind (h.reserve ht size n) fun b b' h => hf b b' h
  have e : (bufferManipulation.check c b size >>= fun _ => bufferManipulation.reserve c b size n >>= fun b => .ok b) =
      bufferManipulation.reserve c b size n := by
    unfold bufferManipulation.reserve
    cases bufferManipulation.check c b size with
    | error e => rfl
    | ok u =>
      simp only [bind_ok]
      split
      · cases bufferManipulation.setCapacity c b size n <;> rfl
      · rfl
  rw [e] at h1
  exact h1

theorem Buf.Knows.dynamicReserve (ht : c.trivial = true) (h : b.Knows b') (size n : Nat) :
    Follows Buf.Knows (bufferManipulation.dynamicReserve c b size n) (bufferManipulation.dynamicReserve c b' size n) := by
  refine .bind (h.check size) fun _ _ _ => ?_
  rw [h.cap]
  split
  · exact h.setCapacity ht _ _
  · exact .ok h

theorem Buf.Knows.checkInsert (h : b.Knows b') (size pos : Nat) :
    Follows (fun _ _ => True) (bufferManipulation.checkInsert c b size pos) (bufferManipulation.checkInsert c b' size pos) :=
  .bind (h.check size) fun _ _ _ => .errorIf _

theorem Buf.Knows.assertNonNull (h : b.Knows b') (p : Nat) :
    Follows (fun _ _ => True) (arrayManipulation.assertNonNull c b p) (arrayManipulation.assertNonNull c b' p) := by
  unfold arrayManipulation.assertNonNull
  rw [h.cap]
  exact .errorIf _

theorem Buf.Knows.emplaceBack (ht : c.trivial = true) (h : b.Knows b') (size : Nat) (v : T) :
    Follows Buf.Knows (bufferManipulation.emplaceBack c b size v) (bufferManipulation.emplaceBack c b' size (some v)) :=
  .bind (h.check size) fun _ _ _ => .bind (h.dynamicReserve ht _ _) fun _ _ h =>
    .bind (h.assertNonNull _) fun _ _ _ => h.construct _ _ _ (fun _ e => Option.some.inj e)

theorem Buf.Knows.emplace (ht : c.trivial = true) (h : b.Knows b') (size pos : Nat) (v : T) :
    Follows Buf.Knows (bufferManipulation.emplace c b size pos v) (bufferManipulation.emplace c b' size pos (some v)) :=
  .bind (h.checkInsert size pos) fun _ _ _ => .bind (h.dynamicReserve ht _ _) fun _ _ h =>
    .bind (h.assertNonNull _) fun _ _ _ => .bind (.errorIf _) fun _ _ _ => .bind (h.shiftUp ht _ _ _ _) fun _ _ h =>
      h.construct _ _ _ (fun _ e => Option.some.inj e)

theorem Buf.Knows.insert [Inhabited T] (ht : c.trivial = true) (h : b.Knows b') (size pos : Nat) (vs : List T) :
    Follows Buf.Knows (bufferManipulation.insert c b size pos vs) (bufferManipulation.insert c b' size pos (vs.map some)) := by
  unfold bufferManipulation.insert arrayManipulation.insert
  rw [List.length_map]
  refine .bind (h.checkInsert size pos) fun _ _ _ => .bind (h.dynamicReserve ht _ _) fun _ _ h =>
    .bind (h.assertNonNull _) fun _ _ _ => .bind (.errorIf _) fun _ _ _ => .bind (h.shiftUp ht _ _ _ _) fun _ _ h =>
      h.constructRange _ _ _ _ (fun i u e => ?_)
  simp only [List.getD_eq_getElem?_getD, List.getElem?_map] at e ⊢
  cases hx : vs[i]? with
  | none => rw [hx] at e; cases e
  | some x => rw [hx] at e; exact Option.some.inj e

theorem Buf.Knows.popBack (ht : c.trivial = true) (h : b.Knows b') (size : Nat) :
    Follows Buf.Knows (bufferManipulation.popBack c b size) (bufferManipulation.popBack c b' size) := by
  unfold bufferManipulation.popBack arrayManipulation.popBack
  rw [h.cap]
  refine .bind (h.check size) fun _ _ _ => .bind (.errorIf _) fun _ _ _ => .bind (.errorIf _) fun _ _ _ => ?_
  split
  · trivial
  · exact h.destroyAt ht _

theorem Buf.Knows.erase (ht : c.trivial = true) (h : b.Knows b') (size pos : Nat) :
    Follows Buf.Knows (bufferManipulation.erase c b size pos) (bufferManipulation.erase c b' size pos) := by
  refine .bind (h.check size) fun _ _ _ => .bind (.errorIf _) fun _ _ _ => ?_
  unfold arrayManipulation.erase
  split
  · exact .ok h
  · exact .bind (.errorIf _) fun _ _ _ => .bind (.errorIf _) fun _ _ _ => .bind (h.shiftDown ht _ _ _ _) fun _ _ h => h.destroy ht _ _

end

/-! ## The one-dimensional `Array` -/


/-- One call on a one-dimensional array (dispatch only, no code of its own in /repo). -/
def PlainOp.run [Inhabited T] (c : Cfg) (a : Array1 T) : PlainOp T → R (Array1 T)
  | .op o => a.step c o
  | .uninit n => a.resizeWithoutInit c n

/-- The same call on an array of optional values, all of them initialised: only used in proofs. -/
def PlainOp.lift [Inhabited T] : PlainOp T → VecOp (Option T)
  | .op (.emplaceBack v) => .emplaceBack (some v)
  | .op (.emplace pos v) => .emplace pos (some v)
  | .op (.insert pos vs) => .insert pos (vs.map some)
  | .op .popBack => .popBack
  | .op (.erase pos) => .erase pos
  | .op (.resize n) => .resizeDefault n (some default)
  | .op (.resizeDefault n v) => .resizeDefault n (some v)
  | .op (.reserve n) => .reserve n
  | .op .clear => .clear
  | .op (.set i v) => .set i (some v)
  | .uninit n => .resizeDefault n none

/-- The same size, and every specified element is there. -/
structure Array1.Knows (a : Array1 T) (a' : Array1 (Option T)) : Prop where
  buf : a.buf.Knows a'.buf
  size : a.size = a'.size

section
variable {c : Cfg} {a : Array1 T} {a' : Array1 (Option T)}

theorem Array1.Knows.init (limit : Option Nat) : (Array1.init T limit).Knows (Array1.init (Option T) limit) := by
  cases limit <;> exact ⟨⟨rfl, rfl, fun k v h => by cases h⟩, rfl⟩

theorem Follows.posArg (pos : Int) : Follows Eq (posArg c pos) (posArg c pos) := by
  unfold LvArray.posArg
  split
  · split
    · exact rfl
    · trivial
  · exact .ok rfl

theorem Array1.Knows.checkIndex (h : a.Knows a') (i : Int) : a.checkIndex c i = a'.checkIndex c i := by
  unfold Array1.checkIndex; rw [h.size]

theorem Array1.Knows.get (h : a.Knows a') {i : Int} {v : T} (hg : a'.get c i = .ok (some v)) : a.get c i = .ok v := by
  unfold Array1.get at hg ⊢
  rw [h.checkIndex]
  obtain ⟨k, hk, hg⟩ := bind_eq_ok.1 hg
  rw [hk, bind_ok]
  exact h.buf.read hg

theorem Array1.Knows.step [Inhabited T] (ht : c.trivial = true) (h : a.Knows a') (op : PlainOp T) :
    Follows Array1.Knows (op.run c a) (a'.step c op.lift) := by
  obtain ⟨buf, size⟩ := a
  obtain ⟨buf', size'⟩ := a'
  obtain ⟨hb, rfl⟩ := h
  have hb : buf.Knows buf' := hb
  cases op with
  | uninit n => exact .bind (.errorIf _) fun _ _ _ => .bind (hb.reserve_resize ht _ _) fun _ _ hb => .ok ⟨hb, rfl⟩
  | op o =>
    cases o with
    | emplaceBack v => exact .bind (hb.emplaceBack ht _ _) fun _ _ hb => .ok ⟨hb, rfl⟩
    | emplace pos v =>
      exact .bind (.posArg pos) fun p p' e => e ▸ .bind (hb.emplace ht _ _ _) fun _ _ hb => .ok ⟨hb, rfl⟩
    | insert pos vs =>
      refine .bind (.posArg pos) fun p p' e => e ▸ .bind (hb.insert ht _ _ _) fun _ _ hb => .ok ⟨hb, ?_⟩
      simp
    | popBack => exact .bind (hb.popBack ht _) fun _ _ hb => .ok ⟨hb, rfl⟩
    | erase pos => exact .bind (.posArg pos) fun p p' e => e ▸ .bind (hb.erase ht _ _) fun _ _ hb => .ok ⟨hb, rfl⟩
    | resize n =>
      exact .bind (.errorIf _) fun _ _ _ => .bind (hb.resize ht _ _ _ _ (fun _ e => Option.some.inj e)) fun _ _ hb => .ok ⟨hb, rfl⟩
    | resizeDefault n v =>
      exact .bind (.errorIf _) fun _ _ _ => .bind (hb.resize ht _ _ _ _ (fun _ e => Option.some.inj e)) fun _ _ hb => .ok ⟨hb, rfl⟩
    | reserve n => exact .bind (hb.reserve ht _ _) fun _ _ hb => .ok ⟨hb, rfl⟩
    | clear => exact .bind (hb.resize ht _ _ _ _ (fun _ e => by cases e)) fun _ _ hb => .ok ⟨hb, rfl⟩
    | set i v =>
      have e : ∀ b : Buf T, ∀ b' : Buf (Option T), Array1.checkIndex c ⟨b, size⟩ i = Array1.checkIndex c ⟨b', size⟩ i := fun _ _ => rfl
      refine .bind (P := Eq) ?_ fun k k' e => e ▸ .bind (hb.write ht _ _) fun _ _ hb => .ok ⟨hb, rfl⟩
      rw [e buf buf']
      generalize Array1.checkIndex c ⟨buf', size⟩ i = r
      cases r with
      | ok k => exact .ok rfl
      | error e =>
        cases e with
        | abort => exact rfl
        | ub => trivial

end

/-! ## `Array` -/

/-- The same shape, and every specified element is there. -/
structure ArrayN.Knows (a : ArrayN T) (a' : ArrayN (Option T)) : Prop where
  buf : a.buf.Knows a'.buf
  perm : a.perm = a'.perm
  dims : a.dims = a'.dims
  strides : a.strides = a'.strides
  resizeIndex : a.resizeIndex = a'.resizeIndex

section
variable {c : Cfg} {a : ArrayN T} {a' : ArrayN (Option T)}

theorem ArrayN.Knows.view (h : a.Knows a') : a.view = a'.view := by
  unfold ArrayN.view; rw [h.dims, h.strides, h.perm]

theorem ArrayN.Knows.size (h : a.Knows a') : a.size = a'.size := by
  unfold ArrayN.size; rw [h.dims]

theorem ArrayN.Knows.get (h : a.Knows a') {idx : List Int} {v : T} (hg : a'.get c idx = .ok (some v)) : a.get c idx = .ok v := by
  unfold ArrayN.get at hg ⊢
  rw [h.view]
  obtain ⟨k, hk, hg⟩ := bind_eq_ok.1 hg
  rw [hk, bind_ok]
  split at hg
  · cases hg
  · rename_i hn
    rw [if_neg hn]
    exact h.buf.read hg

theorem ArrayN.Knows.set (ht : c.trivial = true) (h : a.Knows a') (idx : List Int) (v : T) :
    Follows ArrayN.Knows (a.set c idx v) (a'.set c idx (some v)) := by
  unfold ArrayN.set
  rw [h.view]
  refine .bind (P := Eq) ?_ fun k k' e => ?_
  · cases a'.view.call c idx with
    | ok k => exact .ok rfl
    | error e =>
      cases e with
      | abort => exact rfl
      | ub => trivial
  · subst e
    split
    · trivial
    · exact .bind (h.buf.write ht _ _) fun b b' hb => .ok ⟨hb, h.perm, h.dims, h.strides, h.resizeIndex⟩

theorem ArrayN.Knows.resize (ht : c.trivial = true) (h : a.Knows a') (dims : List Int) (v : T) :
    Follows ArrayN.Knows (a.resize c dims v) (a'.resize c dims (some v)) := by
  obtain ⟨buf, perm, ds, strides, ri⟩ := a
  obtain ⟨buf', perm', ds', strides', ri'⟩ := a'
  obtain ⟨hb, rfl, rfl, rfl, rfl⟩ := h
  have hb : buf.Knows buf' := hb
  unfold ArrayN.resize
  refine .bind (.errorIf _) fun _ _ _ => .bind (.errorIf _) fun _ _ _ => .bind (hb.resize ht _ _ _ _ (fun _ e => Option.some.inj e)) fun b b' hb => ?_
  exact .ok ⟨hb, rfl, rfl, rfl, rfl⟩

theorem ArrayN.Knows.resizeWithoutInit (ht : c.trivial = true) (h : a.Knows a') (dims : List Int) :
    Follows ArrayN.Knows (a.resizeWithoutInit c dims) (a'.resize c dims none) := by
  obtain ⟨buf, perm, ds, strides, ri⟩ := a
  obtain ⟨buf', perm', ds', strides', ri'⟩ := a'
  obtain ⟨hb, rfl, rfl, rfl, rfl⟩ := h
  have hb : buf.Knows buf' := hb
  unfold ArrayN.resizeWithoutInit ArrayN.resize
  refine .bind (.errorIf _) fun _ _ _ => .bind (.errorIf _) fun _ _ _ => .bind (hb.reserve_resize ht _ _) fun b b' hb => ?_
  exact .ok ⟨hb, rfl, rfl, rfl, rfl⟩

theorem ArrayN.Knows.resizeDimension (ht : c.trivial = true) (h : a.Knows a') (pairs : List (Nat × Int)) (v : T) :
    Follows ArrayN.Knows (a.resizeDimension c pairs v) (a'.resizeDimension c pairs (some v)) := by
  obtain ⟨buf, perm, ds, strides, ri⟩ := a
  obtain ⟨buf', perm', ds', strides', ri'⟩ := a'
  obtain ⟨hb, rfl, rfl, rfl, rfl⟩ := h
  have hb : buf.Knows buf' := hb
  unfold ArrayN.resizeDimension
  refine .bind (.errorIf _) fun _ _ _ => .bind (hb.resize ht _ _ _ _ (fun _ e => Option.some.inj e)) fun b b' hb => ?_
  exact .ok ⟨hb, rfl, rfl, rfl, rfl⟩

theorem ArrayN.Knows.clear (ht : c.trivial = true) (h : a.Knows a') (v : T) :
    Follows ArrayN.Knows (a.clear c v) (a'.clear c (some v)) := by
  obtain ⟨buf, perm, ds, strides, ri⟩ := a
  obtain ⟨buf', perm', ds', strides', ri'⟩ := a'
  obtain ⟨hb, rfl, rfl, rfl, rfl⟩ := h
  have hb : buf.Knows buf' := hb
  unfold ArrayN.clear
  refine .bind (hb.resize ht _ _ _ _ (fun _ e => Option.some.inj e)) fun b b' hb => ?_
  exact .ok ⟨hb, rfl, rfl, rfl, rfl⟩

theorem ArrayN.Knows.setIndex (h : a.Knows a') (k : Int) :
    Follows ArrayN.Knows (a.setSingleParameterResizeIndex k) (a'.setSingleParameterResizeIndex k) := by
  obtain ⟨buf, perm, ds, strides, ri⟩ := a
  obtain ⟨buf', perm', ds', strides', ri'⟩ := a'
  obtain ⟨hb, rfl, rfl, rfl, rfl⟩ := h
  have hb : buf.Knows buf' := hb
  unfold ArrayN.setSingleParameterResizeIndex
  exact .bind (.errorIf _) fun _ _ _ => .bind (.errorIf _) fun _ _ _ => .ok ⟨hb, rfl, rfl, rfl, rfl⟩

theorem ArrayN.Knows.reserve (ht : c.trivial = true) (h : a.Knows a') (n : Nat) :
    Follows ArrayN.Knows (a.reserve c n) (a'.reserve c n) := by
  obtain ⟨buf, perm, ds, strides, ri⟩ := a
  obtain ⟨buf', perm', ds', strides', ri'⟩ := a'
  obtain ⟨hb, rfl, rfl, rfl, rfl⟩ := h
  have hb : buf.Knows buf' := hb
  unfold ArrayN.reserve
  exact .bind (hb.reserve ht _ _) fun b b' hb => .ok ⟨hb, rfl, rfl, rfl, rfl⟩

theorem ArrayN.Knows.resizeDefaultDimension (ht : c.trivial = true) (h : a.Knows a') (n : Int) (v : T) :
    Follows ArrayN.Knows (a.resizeDefaultDimension c n v) (a'.resizeDefaultDimension c n (some v)) := by
  obtain ⟨buf, perm, ds, strides, ri⟩ := a
  obtain ⟨buf', perm', ds', strides', ri'⟩ := a'
  obtain ⟨hb, rfl, rfl, rfl, rfl⟩ := h
  have hb : buf.Knows buf' := hb
  unfold ArrayN.resizeDefaultDimension ArrayN.size
  refine .bind (.errorIf _) fun _ _ _ => ?_
  dsimp only
  split
  · exact .bind (hb.resize ht _ _ _ _ (fun _ e => Option.some.inj e)) fun b b' hb => .ok ⟨hb, rfl, rfl, rfl, rfl⟩
  · split
    · exact .ok ⟨hb, rfl, rfl, rfl, rfl⟩
    · split
      · refine .bind (hb.reserve ht _ _) fun b b' hb => .bind (P := Buf.Knows) ?_ fun b b' hb => .ok ⟨hb, rfl, rfl, rfl, rfl⟩
        refine Follows.forDown (fun i b b' hb => ?_) _ _ b b' hb
        exact .bind (hb.shiftUp ht _ _ _ _) fun b b' hb => hb.constructRange _ _ _ _ (fun _ _ e => Option.some.inj e)
      · refine .bind (P := Buf.Knows) ?_ fun b b' hb => .ok ⟨hb, rfl, rfl, rfl, rfl⟩
        exact .bind (Follows.forUp (fun i b b' hb => hb.shiftDown ht _ _ _ _) _ _ _ _ hb) fun b b' hb => hb.destroy ht _ _

end

end LvArray

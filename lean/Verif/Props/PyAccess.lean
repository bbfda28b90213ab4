import Verif.PyBind

/-!
# C52: Python access levels

`create( object )` hands an object to Python at the level `READ_ONLY`; Python code may raise the level with `set_access_level`.
A program is a list of `Op`s; `o.run c ops = .ok ( o', outs )` says that it runs to its end without undefined behaviour and without
aborting the process.
-/

namespace LvArray.Props

open Python

variable {T : Type}

/-- The program never asks for a level of `bound` or more. -/
def LevelsBelow {K : Class T} (bound : Int) (ops : List (Op K)) : Prop := ∀ l s, Op.setAccessLevel l s ∈ ops → l < bound

/-- The program never asks for a negative level. -/
def LevelsNonneg {K : Class T} (ops : List (Op K)) : Prop := ∀ l s, Op.setAccessLevel l s ∈ ops → 0 ≤ l

/-- Methods respect the level `RESIZEABLE`: below it they leave the object alone. -/
def RespectsResize (K : Class T) : Prop :=
  ∀ c level w m w' r, level < RESIZEABLE → K.call c level w m = .ok (.ok (w', r)) → w' = w

/-- Methods respect the level `MODIFIABLE`: at the levels in `ok` the arrays they return cannot be assigned to. -/
def RespectsModify (K : Class T) (ok : Int → Prop) : Prop :=
  ∀ c level w m w' win, ok level → K.call c level w m = .ok (.ok (w', .view win)) → win.writeable = false

theorem run_cons_ok {K : Class T} {c : Cfg} {o o' : Obj K} {op : Op K} {ops : List (Op K)} {outs}
    (h : o.run c (op :: ops) = .ok (o', outs)) :
    ∃ o1 r rs, o.step c op = .ok (o1, r) ∧ o1.run c ops = .ok (o', rs) := by
  unfold Obj.run at h
  obtain ⟨⟨o1, r⟩, h1, h2⟩ := bind_eq_ok.1 h
  obtain ⟨⟨o2, rs⟩, h3, h4⟩ := bind_eq_ok.1 h2
  cases h4
  exact ⟨o1, r, rs, h1, h3⟩

/-- What one step does below `RESIZEABLE`: the object stays, up to elements assigned through NumPy arrays. -/
theorem step_below_resize {K : Class T} (hK : RespectsResize K) {c : Cfg} {o o1 : Obj K} {op : Op K} {r} {w : K.W}
    (hw : o.wrapped = some w) (hl : o.level < RESIZEABLE) (h : o.step c op = .ok (o1, r)) :
    o1.wrapped = some w ∨ ∃ k idx x v p b, op = .write k idx x ∧ v ∈ o.views ∧ v.window.writeable = true ∧
      (K.data w).write c p x = .ok b ∧ o1.wrapped = some (K.withData w b) := by
  cases op with
  | call m =>
    simp only [Obj.step, Obj.method, hw] at h
    obtain ⟨q, h1, h2⟩ := bind_eq_ok.1 h
    cases q with
    | error e => cases h2; exact .inl hw
    | ok q =>
      obtain ⟨w', q⟩ := q
      have := hK c _ w m w' q hl h1
      subst this
      cases q with
      | val x => simp only [Obj.update, Obj.deliver, Except.ok.injEq, Prod.mk.injEq] at h2; rw [← h2.1]; exact .inl rfl
      | view x => simp only [Obj.update, Obj.deliver, Except.ok.injEq, Prod.mk.injEq] at h2; rw [← h2.1]; exact .inl rfl
  | getAccessLevel =>
    simp only [Obj.step, Obj.getAccessLevel, hw, Except.ok.injEq, Prod.mk.injEq] at h
    rw [← h.1]; exact .inl hw
  | setAccessLevel l s =>
    left
    simp only [Obj.step, Except.ok.injEq] at h
    have : o1 = (o.setAccessLevel l s).1 := by rw [h]
    rw [this]
    unfold Obj.setAccessLevel
    split
    · exact hw
    · exact hw
    · split
      · exact hw
      · split <;> exact hw
  | read k idx =>
    left
    simp only [Obj.step, Obj.read, hw] at h
    split at h
    · split at h
      · obtain ⟨p, h1, h2⟩ := bind_eq_ok.1 h
        obtain ⟨x, h3, h4⟩ := bind_eq_ok.1 h2
        cases h4; exact hw
      · cases h; exact hw
    · cases h; exact hw
  | write k idx x =>
    simp only [Obj.step, Obj.write, hw] at h
    split at h
    · rename_i v heq hv
      cases heq
      split at h
      · cases h; exact .inl hw
      · split at h
        · obtain ⟨p, h1, h2⟩ := bind_eq_ok.1 h
          obtain ⟨b, h3, h4⟩ := bind_eq_ok.1 h2
          cases h4
          refine .inr ⟨k, idx, x, v, p, b, rfl, List.mem_of_getElem? hv, by simp_all, h3, rfl⟩
        · cases h; exact .inl hw
    · cases h; exact .inl hw

/-- What one step does to level and views. -/
theorem step_level {K : Class T} {c : Cfg} {o o1 : Obj K} {op : Op K} {r} (h : o.step c op = .ok (o1, r)) :
    o1.level = o.level ∨ ∃ l s, op = .setAccessLevel l s ∧ o1.level = l := by
  cases op with
  | call m =>
    left
    simp only [Obj.step, Obj.method] at h
    split at h
    · split at h <;> cases h; rfl
    · obtain ⟨q, h1, h2⟩ := bind_eq_ok.1 h
      cases q with
      | error e => cases h2; rfl
      | ok q =>
        obtain ⟨w', q⟩ := q
        cases q <;> simp only [Obj.update, Obj.deliver, Except.ok.injEq, Prod.mk.injEq] at h2 <;> rw [← h2.1]
  | getAccessLevel =>
    left
    simp only [Obj.step, Obj.getAccessLevel] at h
    split at h <;> cases h <;> rfl
  | setAccessLevel l s =>
    simp only [Obj.step, Except.ok.injEq] at h
    have : o1 = (o.setAccessLevel l s).1 := by rw [h]
    rw [this]
    unfold Obj.setAccessLevel
    split
    · exact .inl rfl
    · exact .inr ⟨l, _, rfl, rfl⟩
    · split
      · exact .inl rfl
      · split
        · exact .inl rfl
        · exact .inr ⟨l, _, rfl, rfl⟩
  | read k idx =>
    left
    simp only [Obj.step, Obj.read] at h
    split at h
    · split at h
      · obtain ⟨p, h1, h2⟩ := bind_eq_ok.1 h
        obtain ⟨x, h3, h4⟩ := bind_eq_ok.1 h2
        cases h4; rfl
      · cases h; rfl
    · cases h; rfl
  | write k idx x =>
    left
    simp only [Obj.step, Obj.write] at h
    split at h
    · split at h
      · cases h; rfl
      · split at h
        · obtain ⟨p, h1, h2⟩ := bind_eq_ok.1 h
          obtain ⟨b, h3, h4⟩ := bind_eq_ok.1 h2
          cases h4; rfl
        · cases h; rfl
    · cases h; rfl

theorem step_views {K : Class T} {ok : Int → Prop} (hK : RespectsModify K ok) {c : Cfg} {o o1 : Obj K} {op : Op K} {r}
    (hl : ok o.level) (hv : ∀ v ∈ o.views, v.window.writeable = false) (h : o.step c op = .ok (o1, r)) :
    ∀ v ∈ o1.views, v.window.writeable = false := by
  cases op with
  | call m =>
    simp only [Obj.step, Obj.method] at h
    split at h
    · split at h <;> cases h; exact hv
    · rename_i w hw
      obtain ⟨q, h1, h2⟩ := bind_eq_ok.1 h
      cases q with
      | error e => cases h2; exact hv
      | ok q =>
        obtain ⟨w', q⟩ := q
        cases q with
        | val x =>
          simp only [Obj.update, Obj.deliver, Except.ok.injEq, Prod.mk.injEq] at h2
          rw [← h2.1]; exact hv
        | view x =>
          have := hK c _ w m w' x hl h1
          simp only [Obj.update, Obj.deliver, Except.ok.injEq, Prod.mk.injEq] at h2
          rw [← h2.1]
          intro v hm
          simp only [List.mem_append, List.mem_singleton] at hm
          rcases hm with hm | rfl
          · exact hv v hm
          · exact this
  | getAccessLevel =>
    simp only [Obj.step, Obj.getAccessLevel] at h
    split at h <;> cases h <;> exact hv
  | setAccessLevel l s =>
    simp only [Obj.step, Except.ok.injEq] at h
    have : o1 = (o.setAccessLevel l s).1 := by rw [h]
    rw [this]
    unfold Obj.setAccessLevel
    split
    · exact hv
    · exact hv
    · split
      · exact hv
      · split <;> exact hv
  | read k idx =>
    simp only [Obj.step, Obj.read] at h
    split at h
    · split at h
      · obtain ⟨p, h1, h2⟩ := bind_eq_ok.1 h
        obtain ⟨x, h3, h4⟩ := bind_eq_ok.1 h2
        cases h4; exact hv
      · cases h; exact hv
    · cases h; exact hv
  | write k idx x =>
    simp only [Obj.step, Obj.write] at h
    split at h
    · split at h
      · cases h; exact hv
      · split at h
        · obtain ⟨p, h1, h2⟩ := bind_eq_ok.1 h
          obtain ⟨b, h3, h4⟩ := bind_eq_ok.1 h2
          cases h4; exact hv
        · cases h; exact hv
    · cases h; exact hv

/-- Programs below `RESIZEABLE`: whatever is true of the object and stays true when elements are assigned is true at the end. -/
theorem run_below_resize {K : Class T} (hK : RespectsResize K) {c : Cfg} (P : K.W → Prop)
    (hP : ∀ w p x b, P w → (K.data w).write c p x = .ok b → P (K.withData w b)) (ops : List (Op K)) :
    ∀ {o o' : Obj K} {outs} {w : K.W}, o.wrapped = some w → P w → o.level < RESIZEABLE → LevelsBelow RESIZEABLE ops →
      o.run c ops = .ok (o', outs) → ∃ w', o'.wrapped = some w' ∧ P w' := by
  induction ops with
  | nil => intro o o' outs w hw hp _ _ h; cases h; exact ⟨w, hw, hp⟩
  | cons op ops ih =>
    intro o o' outs w hw hp hl hops h
    obtain ⟨o1, r, rs, h1, h2⟩ := run_cons_ok h
    have hl1 : o1.level < RESIZEABLE := by
      rcases step_level h1 with e | ⟨l, s, rfl, e⟩
      · rw [e]; exact hl
      · rw [e]; exact hops l s (List.mem_cons_self ..)
    have hops' : LevelsBelow RESIZEABLE ops := fun l s hm => hops l s (List.mem_cons_of_mem _ hm)
    rcases step_below_resize hK hw hl h1 with e | ⟨_, _, x, _, p, b, _, _, _, hb, e⟩
    · exact ih e hp hl1 hops' h2
    · exact ih e (hP w p x b hp hb) hl1 hops' h2

/-- Programs that stay at levels where arrays are read-only: the object does not change at all. -/
theorem run_below_modify {K : Class T} (hK : RespectsResize K) {ok : Int → Prop} (hM : RespectsModify K ok)
    (hok : ∀ l, ok l → l < RESIZEABLE) {c : Cfg} (ops : List (Op K)) :
    ∀ {o o' : Obj K} {outs} {w : K.W}, o.wrapped = some w → ok o.level → (∀ v ∈ o.views, v.window.writeable = false) →
      (∀ l s, Op.setAccessLevel l s ∈ ops → ok l) → o.run c ops = .ok (o', outs) → o'.wrapped = some w := by
  induction ops with
  | nil => intro o o' outs w hw _ _ _ h; cases h; exact hw
  | cons op ops ih =>
    intro o o' outs w hw hl hv hops h
    obtain ⟨o1, r, rs, h1, h2⟩ := run_cons_ok h
    have hl1 : ok o1.level := by
      rcases step_level h1 with e | ⟨l, s, rfl, e⟩
      · rw [e]; exact hl
      · rw [e]; exact hops l s (List.mem_cons_self ..)
    have hv1 := step_views hM hl hv h1
    have hops' : ∀ l s, Op.setAccessLevel l s ∈ ops → ok l := fun l s hm => hops l s (List.mem_cons_of_mem _ hm)
    rcases step_below_resize hK hw (hok _ hl) h1 with e | ⟨_, _, x, v, p, b, _, hm, hwr, hb, e⟩
    · exact ih e hl1 hv1 hops' h2
    · rw [hv v hm] at hwr; cases hwr

/-! ### The classes -/

theorem bind_done {A W O : Type} {x : R A} {f : A → W} {g : A → O} {w' : W} {r : Ret O}
    (h : (x >>= fun a => done (f a) (g a)) = .ok (.ok (w', r))) : ∃ a, x = .ok a ∧ w' = f a ∧ r = .val (g a) := by
  obtain ⟨a, h1, h2⟩ := bind_eq_ok.1 h
  cases h2
  exact ⟨a, h1, rfl, rfl⟩

theorem array_resize [Inhabited T] : RespectsResize (array T) := by
  intro c level w m w' r hl h
  cases m <;> simp only [array, arrayCall, hl, if_true, raised, done, Except.ok.injEq, Prod.mk.injEq, reduceCtorEq] at h
  · cases h; rfl
  · cases h; rfl

theorem array_modify [Inhabited T] : RespectsModify (array T) (· < MODIFIABLE) := by
  intro c level w m w' win hl h
  have hl2 : level < RESIZEABLE := Int.lt_trans hl (by decide)
  cases m <;> simp only [array, arrayCall, hl2, if_true, raised, done, Except.ok.injEq, Prod.mk.injEq, reduceCtorEq,
    and_false, Ret.view.injEq] at h
  · cases h
  cases h
  simp only [decide_eq_false_iff_not, ge_iff_le, Int.not_le]
  exact hl

section
variable [LT T] [DecidableLT T] [DecidableEq T] [Inhabited T]

theorem sortedArray_resize : RespectsResize (sortedArray T) := by
  intro c level w m w' r hl h
  cases m <;> simp only [sortedArray, sortedArrayCall, hl, if_true, raised, Except.ok.injEq, Prod.mk.injEq, reduceCtorEq] at h
  cases h; rfl

theorem sortedArray_modify : RespectsModify (sortedArray T) (fun _ => True) := by
  intro c level w m w' win _ h
  cases m with
  | toNumPy =>
    simp only [sortedArray, sortedArrayCall] at h
    cases h; rfl
  | insert vs =>
    simp only [sortedArray, sortedArrayCall] at h
    split at h
    · cases h
    · cases vs with
      | none => cases h
      | some vs => obtain ⟨_, _, _, h2⟩ := bind_done h; cases h2
  | remove vs =>
    simp only [sortedArray, sortedArrayCall] at h
    split at h
    · cases h
    · cases vs with
      | none => cases h
      | some vs => obtain ⟨_, _, _, h2⟩ := bind_done h; cases h2

theorem arrayOfSets_resize : RespectsResize (arrayOfSets T) := by
  intro c level w m w' r hl h
  cases m <;> simp only [arrayOfSets, arrayOfSetsCall, hl, if_true, raised, done, Except.ok.injEq, Prod.mk.injEq, reduceCtorEq] at h
  · cases h; rfl
  · split at h
    · cases h
    · obtain ⟨_, _, h⟩ := bind_eq_ok.1 h
      obtain ⟨_, _, h⟩ := bind_eq_ok.1 h
      cases h; rfl

theorem arrayOfSets_modify : RespectsModify (arrayOfSets T) (fun _ => True) := by
  intro c level w m w' win _ h
  cases m with
  | len => cases h
  | getItem i =>
    simp only [arrayOfSets, arrayOfSetsCall] at h
    split at h
    · cases h
    · obtain ⟨_, _, h⟩ := bind_eq_ok.1 h
      obtain ⟨_, _, h⟩ := bind_eq_ok.1 h
      cases h; rfl
  | delItem i =>
    simp only [arrayOfSets, arrayOfSetsCall] at h
    split at h
    · cases h
    · split at h
      · cases h
      · obtain ⟨_, _, _, h2⟩ := bind_done h; cases h2
  | setItem i =>
    simp only [arrayOfSets, arrayOfSetsCall] at h
    split at h <;> cases h
  | insertInto i vs =>
    simp only [arrayOfSets, arrayOfSetsCall] at h
    split at h
    · cases h
    · split at h
      · cases h
      · cases vs with
        | none => cases h
        | some vs => obtain ⟨_, _, _, h2⟩ := bind_done h; cases h2
  | insert i n =>
    simp only [arrayOfSets, arrayOfSetsCall] at h
    split at h
    · cases h
    · split at h
      · cases h
      · split at h
        · cases h
        · obtain ⟨_, _, _, h2⟩ := bind_done h; cases h2
  | eraseFrom i vs =>
    simp only [arrayOfSets, arrayOfSetsCall] at h
    split at h
    · cases h
    · split at h
      · cases h
      · obtain ⟨_, _, h⟩ := bind_eq_ok.1 h
        split at h <;> cases h

end

theorem arrayOfArrays_resize [Inhabited T] : RespectsResize (arrayOfArrays T) := by
  intro c level w m w' r hl h
  cases m <;> simp only [arrayOfArrays, arrayOfArraysCall, hl, if_true, raised, done, Except.ok.injEq, Prod.mk.injEq,
    reduceCtorEq] at h
  · cases h; rfl
  · split at h
    · cases h
    · obtain ⟨_, _, h⟩ := bind_eq_ok.1 h
      obtain ⟨_, _, h⟩ := bind_eq_ok.1 h
      cases h; rfl

theorem arrayOfArrays_modify [Inhabited T] : RespectsModify (arrayOfArrays T) (· < MODIFIABLE) := by
  intro c level w m w' win hl h
  have hl2 : level < RESIZEABLE := Int.lt_trans hl (by decide)
  cases m <;> simp only [arrayOfArrays, arrayOfArraysCall, hl2, if_true, raised, done, Except.ok.injEq, Prod.mk.injEq,
    reduceCtorEq, and_false] at h
  · cases h
  split at h
  · cases h
  · obtain ⟨_, _, h⟩ := bind_eq_ok.1 h
    obtain ⟨_, _, h⟩ := bind_eq_ok.1 h
    cases h
    simp only [decide_eq_false_iff_not, ge_iff_le, Int.not_le]
    exact hl

theorem crsMatrix_resize {V : Type} [Add V] (colMax : Nat) : RespectsResize (crsMatrix V colMax) := by
  intro c level w m w' r hl h
  cases m <;> simp only [crsMatrix, crsCall, hl, if_true, raised, done, Except.ok.injEq, Prod.mk.injEq, reduceCtorEq] at h
  · cases h; rfl
  · cases h; rfl
  · split at h
    · cases h
    · obtain ⟨_, _, h⟩ := bind_eq_ok.1 h
      obtain ⟨_, _, h⟩ := bind_eq_ok.1 h
      obtain ⟨_, _, h⟩ := bind_eq_ok.1 h
      cases h; rfl
  · split at h
    · cases h
    · obtain ⟨_, _, h⟩ := bind_eq_ok.1 h
      obtain ⟨_, _, h⟩ := bind_eq_ok.1 h
      cases h; rfl

theorem crsMatrix_modify {V : Type} [Add V] (colMax : Nat) : RespectsModify (crsMatrix V colMax) (· = 0) := by
  intro c level w m w' win hl h
  have hl2 : level < RESIZEABLE := by rw [hl]; decide
  cases m <;> simp only [crsMatrix, crsCall, hl2, if_true, raised, done, Except.ok.injEq, Prod.mk.injEq,
    reduceCtorEq, and_false] at h
  · cases h
  · cases h
  · split at h
    · cases h
    · obtain ⟨_, _, h⟩ := bind_eq_ok.1 h
      obtain ⟨_, _, h⟩ := bind_eq_ok.1 h
      obtain ⟨_, _, h⟩ := bind_eq_ok.1 h
      cases h
  · split at h
    · cases h
    · obtain ⟨_, _, h⟩ := bind_eq_ok.1 h
      obtain ⟨_, _, h⟩ := bind_eq_ok.1 h
      cases h
      simp [hl]

theorem write_cap {c : Cfg} {b b' : Buf T} {p : Nat} {x : T} (h : b.write c p x = .ok b') : b'.cap = b.cap := by
  unfold Buf.write at h
  split at h
  · split at h <;> cases h; rfl
  · cases h

/-! ### The property -/

/-- **C52, `pylvarray.Array`.** However long the program: if it never asks for `RESIZEABLE`, the array keeps its shape and its
storage; if it never asks for `MODIFIABLE` either, nothing about the array changes. -/
theorem C52_array [Inhabited T] (c : Cfg) (a : ArrayN T) (ops : List (Op (array T))) (o : Obj (array T)) (outs)
    (h : (create (array T) a).run c ops = .ok (o, outs)) :
    (LevelsBelow RESIZEABLE ops → ∃ a' : ArrayN T, o.wrapped = some a' ∧ a'.dims = a.dims ∧ a'.strides = a.strides ∧
      a'.resizeIndex = a.resizeIndex ∧ a'.buf.cap = a.buf.cap) ∧
    (LevelsBelow MODIFIABLE ops → o.wrapped = some a) := by
  constructor
  · intro hl
    refine run_below_resize array_resize (c := c)
      (fun a' : ArrayN T => a'.dims = a.dims ∧ a'.strides = a.strides ∧ a'.resizeIndex = a.resizeIndex ∧ a'.buf.cap = a.buf.cap)
      ?_ ops rfl ⟨rfl, rfl, rfl, rfl⟩ (show (0 : Int) < 2 by decide) hl h
    intro w p x b hp hb
    exact ⟨hp.1, hp.2.1, hp.2.2.1, by rw [← hp.2.2.2]; exact write_cap hb⟩
  · intro hl
    exact run_below_modify array_resize array_modify (fun l hl => Int.lt_trans hl (by decide)) ops rfl (show (0 : Int) < _ by decide)
      (by simp [create]) hl h

/-- **C52, `pylvarray.ArrayOfArrays`.** -/
theorem C52_arrayOfArrays [Inhabited T] (c : Cfg) (a : AoA T) (ops : List (Op (arrayOfArrays T))) (o : Obj (arrayOfArrays T))
    (outs) (h : (create (arrayOfArrays T) a).run c ops = .ok (o, outs)) :
    (LevelsBelow RESIZEABLE ops → ∃ a' : AoA T, o.wrapped = some a' ∧ a'.shape = a.shape ∧ a'.values.cap = a.values.cap) ∧
    (LevelsBelow MODIFIABLE ops → o.wrapped = some a) := by
  constructor
  · intro hl
    refine run_below_resize arrayOfArrays_resize (c := c)
      (fun a' : AoA T => a'.shape = a.shape ∧ a'.values.cap = a.values.cap) ?_ ops rfl ⟨rfl, rfl⟩ (show (0 : Int) < 2 by decide) hl h
    intro w p x b hp hb
    exact ⟨hp.1, by rw [← hp.2]; exact write_cap hb⟩
  · intro hl
    exact run_below_modify arrayOfArrays_resize arrayOfArrays_modify (fun l hl => Int.lt_trans hl (by decide)) ops rfl (show (0 : Int) < _ by decide)
      (by simp [create]) hl h

/-- **C52, `pylvarray.CRSMatrix`.** The second part only if the program asks for no negative level
(`C52_negative_level_writes`). -/
theorem C52_crsMatrix_partial {V : Type} [Add V] (colMax : Nat) (c : Cfg) (m : Crs V) (ops : List (Op (crsMatrix V colMax)))
    (o : Obj (crsMatrix V colMax)) (outs) (h : (create (crsMatrix V colMax) m).run c ops = .ok (o, outs)) :
    (LevelsBelow RESIZEABLE ops → ∃ m' : Crs V, o.wrapped = some m' ∧ m'.shape = m.shape ∧ m'.columns = m.columns ∧
      m'.numCols = m.numCols ∧ m'.entries.cap = m.entries.cap) ∧
    (LevelsBelow MODIFIABLE ops → LevelsNonneg ops → o.wrapped = some m) := by
  constructor
  · intro hl
    refine run_below_resize (crsMatrix_resize colMax) (c := c)
      (fun m' : Crs V => m'.shape = m.shape ∧ m'.columns = m.columns ∧ m'.numCols = m.numCols ∧ m'.entries.cap = m.entries.cap)
      ?_ ops rfl ⟨rfl, rfl, rfl, rfl⟩ (show (0 : Int) < 2 by decide) hl h
    intro w p x b hp hb
    exact ⟨hp.1, hp.2.1, hp.2.2.1, by rw [← hp.2.2.2]; exact write_cap hb⟩
  · intro hl hn
    refine run_below_modify (crsMatrix_resize colMax) (crsMatrix_modify colMax) (fun l hl => by rw [hl]; decide) ops rfl rfl
      (by simp [create]) ?_ h
    intro l s hm
    have h1 := hl l s hm
    have h2 := hn l s hm
    simp only [MODIFIABLE] at h1
    omega

section
variable [LT T] [DecidableLT T] [DecidableEq T] [Inhabited T]

/-- **C52, `pylvarray.SortedArray`.** Below `RESIZEABLE` nothing changes; NumPy arrays are read-only at every level. -/
theorem C52_sortedArray (c : Cfg) (a : SortedArr T) (ops : List (Op (sortedArray T))) (o : Obj (sortedArray T)) (outs)
    (h : (create (sortedArray T) a).run c ops = .ok (o, outs)) :
    (LevelsBelow RESIZEABLE ops → o.wrapped = some a) ∧ ∀ v ∈ o.views, v.window.writeable = false := by
  constructor
  · intro hl
    exact run_below_modify sortedArray_resize (ok := (· < RESIZEABLE))
      (fun c l w m w' win _ hm => sortedArray_modify c l w m w' win trivial hm) (fun l hl => hl) ops rfl (show (0 : Int) < _ by decide)
      (by simp [create]) hl h
  · have key : ∀ (ops : List (Op (sortedArray T))) {o o' : Obj (sortedArray T)} {outs},
        (∀ v ∈ o.views, v.window.writeable = false) → o.run c ops = .ok (o', outs) →
        ∀ v ∈ o'.views, v.window.writeable = false := by
      intro ops
      induction ops with
      | nil => intro o o' outs hv h; cases h; exact hv
      | cons op ops ih =>
        intro o o' outs hv h
        obtain ⟨o1, r, rs, h1, h2⟩ := run_cons_ok h
        exact ih (step_views sortedArray_modify trivial hv h1) h2
    exact key ops (by simp [create]) h

/-- **C52, `pylvarray.ArrayOfSets`.** Below `RESIZEABLE` nothing changes; NumPy arrays are read-only at every level. -/
theorem C52_arrayOfSets (c : Cfg) (a : AoA T) (ops : List (Op (arrayOfSets T))) (o : Obj (arrayOfSets T)) (outs)
    (h : (create (arrayOfSets T) a).run c ops = .ok (o, outs)) :
    (LevelsBelow RESIZEABLE ops → o.wrapped = some a) ∧ ∀ v ∈ o.views, v.window.writeable = false := by
  constructor
  · intro hl
    exact run_below_modify arrayOfSets_resize (ok := (· < RESIZEABLE))
      (fun c l w m w' win _ hm => arrayOfSets_modify c l w m w' win trivial hm) (fun l hl => hl) ops rfl (show (0 : Int) < _ by decide)
      (by simp [create]) hl h
  · have key : ∀ (ops : List (Op (arrayOfSets T))) {o o' : Obj (arrayOfSets T)} {outs},
        (∀ v ∈ o.views, v.window.writeable = false) → o.run c ops = .ok (o', outs) →
        ∀ v ∈ o'.views, v.window.writeable = false := by
      intro ops
      induction ops with
      | nil => intro o o' outs hv h; cases h; exact hv
      | cons op ops ih =>
        intro o o' outs hv h
        obtain ⟨o1, r, rs, h1, h2⟩ := run_cons_ok h
        exact ih (step_views arrayOfSets_modify trivial hv h1) h2
    exact key ops (by simp [create]) h

end

/-! ### Where the code disagrees -/

/-- The build used in the examples. -/
private abbrev cfg : Cfg := { trivial := true, boundsCheck := true, debug := true }

/-- Run a program on an object made by `mk` and look at the result. -/
private def observe {K : Class T} {A : Type} (mk : R K.W) (ops : List (Op K)) (look : K.W → R A) : R (Option A) := do
  let w ← mk
  let r ← (create K w).run cfg ops
  match r.1.wrapped with
  | none => .ok none
  | some w => do
    let x ← look w
    .ok (some x)

/-- **C52, disagreement.** At a negative level, which is below `READ_ONLY`, `get_entries` returns an array that can be assigned
to, and the assignment changes the matrix. -/
theorem C52_negative_level_writes :
    observe (K := crsMatrix Nat 100)
      (do let m ← Crs.mk' cfg 100 1 4 2; let r ← m.insertNonZero cfg true 0 2 7; .ok r.1)
      [.setAccessLevel (-1) none, .call (.getEntries 0), .write 0 [0] 9]
      (fun m => m.getEntry cfg 0 0) = .ok (some 9) := by
  decide +kernel

/-- **C52, disagreement.** Lowering the level does not revoke arrays obtained before: after `set_access_level( READ_ONLY )` an
array from the time before still changes the object. -/
theorem C52_lowering_does_not_revoke :
    observe (K := arrayOfArrays Nat)
      (do let a ← AoA.mk' cfg 1 2; a.emplaceBack cfg 0 7)
      [.setAccessLevel 1 none, .call (.getItem 0), .setAccessLevel 0 none, .write 0 [0] 9]
      (fun a => a.get cfg 0 0) = .ok (some 9) := by
  decide +kernel

/-- The theorems speak about programs that run: this one stays below `MODIFIABLE`, asks for views, tries to assign and to resize,
and runs to its end; both attempts raise. -/
example :
    (do
      let a ← AoA.mk' cfg 1 2
      let a ← a.emplaceBack cfg 0 7
      let r ← (create (arrayOfArrays Nat) a).run cfg
        [.call (.getItem 0), .write 0 [0] 9, .call (.eraseFrom 0 0), .call .len]
      .ok (r.2.map fun
        | .error e => some e
        | .ok _ => none) : R (List (Option Exn))) = .ok [none, some .valueError, some .runtimeError, none] := by
  decide +kernel

/-- At `MODIFIABLE` the assignment works and the shape stays. -/
example :
    observe (K := array Nat) ((ArrayN.init Nat [0, 1]).resize cfg [2, 3] 0)
      [.setAccessLevel 1 (some 0), .call .toNumPy, .write 0 [1, 2] 5, .call (.resize 7)]
      (fun a => do let x ← a.get cfg [1, 2]; .ok (x, a.dims)) = .ok (some (5, [2, 3])) := by
  decide +kernel

end LvArray.Props

import Verif.PyLemmas

/-!
# Which Python programs run to their end, for any class
-/

namespace LvArray.Python

open Spec

variable {T : Type} {K : Class T}

/-- The result of a call that returned a NumPy array. -/
def gaveArray : Except Exn (Res K) → Bool
  | .ok (.view _ _) => true
  | _ => false

/-- The step reads or assigns an element of the array number `k`. -/
def usesArray (k : Nat) : Op K → Prop
  | .read k' _ | .write k' _ _ => k' = k
  | _ => False

/-- After the calls `before` with the results `outs`: the array number `k` was returned before a call of a method in `Resizes` that did
not raise. -/
def Stale (Resizes : K.M → Prop) (before : List (Op K)) (outs : List (Except Exn (Res K))) (k : Nat) : Prop :=
  ∃ i j m r o, i < j ∧ outs[i]? = some r ∧ gaveArray r = true ∧ (outs.take i).countP gaveArray = k ∧
    before[j]? = some (.call m) ∧ Resizes m ∧ outs[j]? = some (.ok o)

theorem exists_nth_countP {α : Type} (f : α → Bool) (l : List α) : ∀ (k : Nat), k < l.countP f →
    ∃ (i : Nat) (x : α), l[i]? = some x ∧ f x = true ∧ (l.take i).countP f = k := by
  induction l with
  | nil => intro k h; simp at h
  | cons a l ih =>
    intro k h
    by_cases ha : f a = true
    · cases k with
      | zero => exact ⟨0, a, rfl, ha, rfl⟩
      | succ k =>
        rw [List.countP_cons_of_pos ha] at h
        obtain ⟨i, x, h1, h2, h3⟩ := ih k (by omega)
        exact ⟨i + 1, x, h1, h2, by rw [List.take_succ_cons, List.countP_cons_of_pos ha, h3]⟩
    · rw [List.countP_cons_of_neg ha] at h
      obtain ⟨i, x, h1, h2, h3⟩ := ih k h
      exact ⟨i + 1, x, h1, h2, by rw [List.take_succ_cons, List.countP_cons_of_neg ha, h3]⟩

theorem Stale.snoc {Resizes : K.M → Prop} {before : List (Op K)} {outs : List (Except Exn (Res K))} {k : Nat}
    (h : Stale Resizes before outs k) (op : Op K) (r : Except Exn (Res K)) : Stale Resizes (before ++ [op]) (outs ++ [r]) k := by
  obtain ⟨i, j, m, r', o, h1, h2, h3, h4, h5, h6, h7⟩ := h
  have hj := (List.getElem?_eq_some_iff.1 h7).1
  have hj' := (List.getElem?_eq_some_iff.1 h5).1
  refine ⟨i, j, m, r', o, h1, ?_, h3, ?_, ?_, h6, ?_⟩
  · rw [List.getElem?_append_left (by omega)]; exact h2
  · rw [List.take_append_of_le_length (by omega)]; exact h4
  · rw [List.getElem?_append_left hj']; exact h5
  · rw [List.getElem?_append_left hj]; exact h7

theorem Obj.run_length {c : Cfg} (ops : List (Op K)) : ∀ {o o' : Obj K} {outs}, o.run c ops = .ok (o', outs) →
    outs.length = ops.length := by
  induction ops with
  | nil => intro o o' outs h; cases h; rfl
  | cons op ops ih =>
    intro o o' outs h
    unfold Obj.run at h
    obtain ⟨r, -, h⟩ := bind_eq_ok.1 h
    obtain ⟨r', h', h⟩ := bind_eq_ok.1 h
    cases h
    simp [ih h']

theorem Obj.run_snoc {c : Cfg} (ops : List (Op K)) : ∀ {o o' o'' : Obj K} {outs} {op : Op K} {r},
    o.run c ops = .ok (o', outs) → o'.step c op = .ok (o'', r) → o.run c (ops ++ [op]) = .ok (o'', outs ++ [r]) := by
  induction ops with
  | nil =>
    intro o o' o'' outs op r h h2
    cases h
    simp only [List.nil_append, Obj.run, h2, bind_ok]
  | cons x ops ih =>
    intro o o' o'' outs op r h h2
    unfold Obj.run at h
    obtain ⟨q, e1, h⟩ := bind_eq_ok.1 h
    obtain ⟨q', e2, h⟩ := bind_eq_ok.1 h
    cases h
    simp only [List.cons_append, Obj.run, e1, bind_ok, ih e2 h2]

variable {c : Cfg} {A : PyClass K} {Rel : K.W → A.S → Prop} {Val : K.W → Window → A.P → Prop}

/-- Elements of valid arrays can be read, whether or not their value is specified. -/
def Readable (A : PyClass K) (Rel : K.W → A.S → Prop) (Val : K.W → Window → A.P → Prop) : Prop :=
  ∀ {w s win part idx x}, Rel w s → Val w win part → A.get s part idx = some x →
    ∃ v, (K.data w).read (win.start + offset win.strides idx) = .ok v

/-- How the arrays of the specification change in a step. -/
def Next (p p' : PyObj A) (op : Op K) (r : Except Exn (Res K)) : Prop :=
  (p'.arrays = p.arrays ∧ gaveArray r = false) ∨ (∃ a, p'.arrays = p.arrays ++ [some a] ∧ gaveArray r = true) ∨
  (∃ m s' o, op = .call m ∧ A.call p.level p.state m = some (.changes false s' o) ∧ r = .ok (.val o) ∧
    p'.arrays = p.arrays.map fun _ => none)

theorem step_next {p p' : PyObj A} {op : Op K} {r} (h : p.step op = some (p', r)) : Next p p' op r := by
  cases op with
  | call m =>
    simp only [PyObj.step, Option.map_eq_some_iff] at h
    obtain ⟨out, h1, h2⟩ := h
    cases out with
    | raises e => cases h2; exact .inl ⟨rfl, rfl⟩
    | returns o => cases h2; exact .inl ⟨rfl, rfl⟩
    | changes keep s' o =>
      cases h2
      cases keep with
      | true => exact .inl ⟨rfl, rfl⟩
      | false => exact .inr (.inr ⟨m, s', o, rfl, h1, rfl, rfl⟩)
    | array part dims w => cases h2; exact .inr (.inl ⟨_, rfl, rfl⟩)
  | getAccessLevel => cases h; exact .inl ⟨rfl, rfl⟩
  | setAccessLevel l s =>
    cases s with
    | none => cases h; exact .inl ⟨rfl, rfl⟩
    | some s =>
      simp only [PyObj.step, Option.some.injEq] at h
      split at h
      · cases h; exact .inl ⟨rfl, rfl⟩
      · split at h <;> (cases h; exact .inl ⟨rfl, rfl⟩)
  | read k idx =>
    simp only [PyObj.step] at h
    split at h
    · cases h; exact .inl ⟨rfl, rfl⟩
    · cases h
    · split at h
      · cases h; exact .inl ⟨rfl, rfl⟩
      · cases h
      · cases h; exact .inl ⟨rfl, rfl⟩
  | write k idx x =>
    simp only [PyObj.step] at h
    split at h
    · cases h; exact .inl ⟨rfl, rfl⟩
    · cases h
    · split at h
      · cases h; exact .inl ⟨rfl, rfl⟩
      · split at h <;> (cases h; exact .inl ⟨rfl, rfl⟩)

theorem step_safe (hR : Refines c A Rel Val) (hread : Readable A Rel Val) {o : Obj K} {p : PyObj A} (h : Sim Rel Val o p) (op : Op K) :
    (∃ m, op = .call m ∧ A.call p.level p.state m = none) ∨ (∃ k, usesArray k op ∧ p.arrays[k]? = some none) ∨
    ∃ o' p' r, o.step c op = .ok (o', r) ∧ Sim Rel Val o' p' ∧ Next p p' op r := by
  cases hs : p.step op with
  | some q =>
    obtain ⟨o', h1, h2⟩ := h.step (p' := q.1) (r := q.2) hR hs
    exact .inr (.inr ⟨o', q.1, q.2, h1, h2, step_next hs⟩)
  | none =>
    cases op with
    | call m =>
      simp only [PyObj.step, Option.map_eq_none_iff] at hs
      exact .inl ⟨m, rfl, hs⟩
    | getAccessLevel => cases hs
    | setAccessLevel l s => cases s <;> cases hs
    | write k idx x =>
      simp only [PyObj.step] at hs
      split at hs
      · cases hs
      · rename_i hk
        exact .inr (.inl ⟨k, rfl, hk⟩)
      · split at hs
        · cases hs
        · split at hs <;> cases hs
    | read k idx =>
      simp only [PyObj.step] at hs
      split at hs
      · cases hs
      · rename_i hk
        exact .inr (.inl ⟨k, rfl, hk⟩)
      · rename_i part wr hk
        split at hs
        · cases hs
        · rename_i hg
          obtain ⟨⟨w, hw, hr, hv⟩, hl⟩ := h
          have hlen := hv.length_eq
          obtain ⟨hlt, hk⟩ := List.getElem?_eq_some_iff.1 hk
          have hlt' : k < o.views.length := by omega
          have hsh := hv.get hlt' hlt
          simp only [List.get_eq_getElem, hk] at hsh
          obtain ⟨h1, -⟩ := hR.read hr hsh.2.1 hg
          obtain ⟨v, h2⟩ := hread hr hsh.2.1 hg
          refine .inr (.inr ⟨o, p, .ok (.elem v), ?_, ⟨⟨w, hw, hr, hv⟩, hl⟩, .inl ⟨rfl, rfl⟩⟩)
          simp only [Obj.step, Obj.read, hw, List.getElem?_eq_getElem hlt', h1, if_true, Obj.locate, hsh.1, bind_ok, h2]
        · cases hs

/-- What is known after a part of the program. -/
structure SoFar (c : Cfg) (A : PyClass K) (Rel : K.W → A.S → Prop) (Val : K.W → Window → A.P → Prop) (Resizes : K.M → Prop)
    (o₀ : Obj K) (before : List (Op K)) (o : Obj K) (outs : List (Except Exn (Res K))) (p : PyObj A) : Prop where
  run : o₀.run c before = .ok (o, outs)
  sim : Sim Rel Val o p
  count : p.arrays.length = outs.countP gaveArray
  stale : ∀ k, p.arrays[k]? = some none → Stale Resizes before outs k

theorem SoFar.next {Resizes : K.M → Prop} (hch : ∀ level s m s' o, A.call level s m = some (.changes false s' o) → Resizes m)
    {o₀ : Obj K} {before : List (Op K)} {o : Obj K} {outs} {p : PyObj A} (h : SoFar c A Rel Val Resizes o₀ before o outs p)
    {op : Op K} {o' : Obj K} {p' : PyObj A} {r} (h1 : o.step c op = .ok (o', r)) (h2 : Sim Rel Val o' p') (h3 : Next p p' op r) :
    SoFar c A Rel Val Resizes o₀ (before ++ [op]) o' (outs ++ [r]) p' := by
  have hlen := Obj.run_length before h.run
  refine ⟨Obj.run_snoc before h.run h1, h2, ?_, ?_⟩
  · rcases h3 with ⟨e, hg⟩ | ⟨a, e, hg⟩ | ⟨m, s', x, rfl, -, rfl, e⟩
    · rw [e, h.count, List.countP_append]; simp [hg]
    · rw [e, List.length_append, h.count, List.countP_append]; simp [hg]
    · rw [e, List.length_map, h.count, List.countP_append]; simp [gaveArray]
  · intro k hk
    rcases h3 with ⟨e, -⟩ | ⟨a, e, -⟩ | ⟨m, s', x, rfl, hc, rfl, e⟩
    · exact (h.stale k (by rw [← e]; exact hk)).snoc _ _
    · rw [e] at hk
      by_cases hlt : k < p.arrays.length
      · rw [List.getElem?_append_left hlt] at hk
        exact (h.stale k hk).snoc _ _
      · rw [List.getElem?_append_right (by omega)] at hk
        obtain ⟨hz, hk⟩ := List.getElem?_eq_some_iff.1 hk
        simp at hk
    · rw [e, List.getElem?_map] at hk
      obtain ⟨y, hy, -⟩ := Option.map_eq_some_iff.1 hk
      have hlt := (List.getElem?_eq_some_iff.1 hy).1
      rw [h.count] at hlt
      obtain ⟨i, z, e1, e2, e3⟩ := exists_nth_countP _ _ _ hlt
      have hi := (List.getElem?_eq_some_iff.1 e1).1
      refine ⟨i, before.length, m, z, .val x, by omega, ?_, e2, ?_, ?_, hch _ _ _ _ _ hc, ?_⟩
      · rw [List.getElem?_append_left hi]; exact e1
      · rw [List.take_append_of_le_length (by omega)]; exact e3
      · simp
      · rw [← hlen]; simp

theorem safe_from {Resizes : K.M → Prop} (hR : Refines c A Rel Val) (hread : Readable A Rel Val)
    (hch : ∀ level s m s' o, A.call level s m = some (.changes false s' o) → Resizes m) (o₀ : Obj K) (ops : List (Op K)) :
    ∀ {before : List (Op K)} {o : Obj K} {outs} {p : PyObj A}, SoFar c A Rel Val Resizes o₀ before o outs p →
    (∃ r, o₀.run c (before ++ ops) = .ok r) ∨
    ∃ pre op post o outs w s, before ++ ops = pre ++ op :: post ∧ o₀.run c pre = .ok (o, outs) ∧ o.wrapped = some w ∧ Rel w s ∧
      ((∃ k, usesArray k op ∧ Stale Resizes pre outs k) ∨ ∃ m, op = .call m ∧ A.call o.level s m = none) := by
  induction ops with
  | nil => intro before o outs p h; exact .inl ⟨_, by rw [List.append_nil]; exact h.run⟩
  | cons op ops ih =>
    intro before o outs p h
    rcases step_safe hR hread h.sim op with ⟨m, rfl, hm⟩ | ⟨k, hk, hn⟩ | ⟨o', p', r, h1, h2, h3⟩
    · obtain ⟨⟨w, hw, hr, -⟩, hl⟩ := h.sim
      exact .inr ⟨before, _, ops, o, outs, w, _, rfl, h.run, hw, hr, .inr ⟨m, rfl, by rw [hl]; exact hm⟩⟩
    · obtain ⟨⟨w, hw, hr, -⟩, -⟩ := h.sim
      exact .inr ⟨before, op, ops, o, outs, w, _, rfl, h.run, hw, hr, .inl ⟨k, hk, h.stale k hn⟩⟩
    · have := ih (h.next hch h1 h2 h3)
      rwa [List.append_assoc, List.singleton_append] at this

/-- A program runs to its end unless it uses an array after a call that resizes, or makes a call outside the contract. -/
theorem Refines.safe {Resizes : K.M → Prop} (hR : Refines c A Rel Val) (hread : Readable A Rel Val)
    (hch : ∀ level s m s' o, A.call level s m = some (.changes false s' o) → Resizes m) {w : K.W} {s : A.S} (h : Rel w s)
    (ops : List (Op K)) :
    (∃ r, (create K w).run c ops = .ok r) ∨
    ∃ pre op post o outs w' s', ops = pre ++ op :: post ∧ (create K w).run c pre = .ok (o, outs) ∧ o.wrapped = some w' ∧ Rel w' s' ∧
      ((∃ k, usesArray k op ∧ Stale Resizes pre outs k) ∨ ∃ m, op = .call m ∧ A.call o.level s' m = none) := by
  exact safe_from hR hread hch (create K w) ops (before := []) (outs := []) (p := pyCreate A s)
    ⟨rfl, ⟨⟨w, rfl, h, .nil⟩, rfl⟩, rfl, fun k hk => by simp [pyCreate] at hk⟩

/-- If every element of valid arrays has a specified value, it can be read. -/
theorem Refines.readable (hR : Refines c A Rel Val) (h : ∀ s part idx, A.get s part idx ≠ some none) : Readable A Rel Val := by
  intro w s win part idx x hr hv hg
  cases x with
  | none => exact absurd hg (h _ _ _)
  | some x => exact ⟨x, (hR.read hr hv hg).2 x rfl⟩

end LvArray.Python

import Verif.Spec.Spaces
/-!
# Lemmas about `ChaiBuffer`
-/

namespace LvArray.Chai

open LvArray.Spec

theorem put_same {A : Type} (f : Space → A) (s : Space) (x : A) : put f s x s = x := by simp [put]

theorem put_ne {A : Type} (f : Space → A) {s s' : Space} (x : A) (h : s' ≠ s) : put f s x s' = f s' := by simp [put, h]

theorem Heap.get_set {C : Type} {h : Heap C} {id : Nat} {r : Record C} (hr : h.get id = some r) (r' : Option (Record C)) :
    Heap.get (h.set id r') id = r' := by
  have : id < h.length := by
    refine Nat.lt_of_not_le fun hn => ?_
    simp [Heap.get, List.getElem?_eq_none hn] at hr
  simp [Heap.get, this]

/-- The record holds the values `value`, is in `current`, and `touched` there. -/
structure Holds {C : Type} (r : Record C) (value : C) (current : Space) (touched : Bool) : Prop where
  last : r.last = some current
  copy : r.copy current = some value
  here : r.touched current = touched
  other : ∀ s, s ≠ current → r.touched s = false
  same : touched = false → ∀ s, r.copy s = some value

/-- Moving a record keeps its values. -/
theorem Holds.move {C : Type} {r : Record C} {value : C} {current : Space} {touched : Bool} (h : Holds r value current touched)
    (fresh : C) (s : Space) (touch : Bool) :
    Holds (moveRecord fresh r s touch) value s (touch || (touched && decide (s = current))) ∧
    ∀ p, r.copy p ≠ none → (moveRecord fresh r s touch).copy p ≠ none := by
  obtain ⟨copy, tch, last⟩ := r
  obtain ⟨h1, h2, h3, h4, h5⟩ := h
  simp only at h1 h2 h3 h4 h5
  subst h1
  by_cases hs : s = current
  · subst hs
    have hm : managerMove fresh ⟨copy, tch, some s⟩ s = ⟨copy, tch, some s⟩ := by simp [managerMove]
    simp only [moveRecord, hm, decide_true, Bool.and_true]
    cases touch
    · simp only [Bool.false_or]
      exact ⟨⟨rfl, h2, h3, h4, h5⟩, fun p hp => hp⟩
    · simp only [Bool.true_or]
      refine ⟨⟨rfl, h2, put_same _ _ _, fun s' hs' => ?_, fun e => by cases e⟩, fun p hp => hp⟩
      show put tch s true s' = false
      rw [put_ne _ _ hs', h4 s' hs']
  · have hsc : current ≠ s := fun e => hs e.symm
    have hm : managerMove fresh ⟨copy, tch, some current⟩ s =
        ⟨put copy s (some value), fun _ => false, some current⟩ ∨
        (touched = false ∧ managerMove fresh ⟨copy, tch, some current⟩ s = ⟨put copy s (some value), tch, some current⟩) := by
      have hne : ¬ (some current = some s) := fun e => hsc (Option.some.inj e)
      cases htc : touched
      · right
        refine ⟨rfl, ?_⟩
        rw [htc] at h3
        have := h5 htc s
        simp only [managerMove, hne, if_false]
        rw [put_ne _ _ hsc, h2]
        simp only [h3, this, Option.getD_some, Bool.false_eq_true, if_false]
      · left
        rw [htc] at h3
        simp only [managerMove, hne, if_false]
        rw [put_ne _ _ hsc, h2]
        simp only [h3, if_true]
        congr 1
        funext s'
        by_cases e : s' = s
        · subst e; rw [put_same, put_same]
        · rw [put_ne _ _ e, put_ne _ _ e, put_ne _ _ e]
    have hother : ∀ s', s' ≠ s → s' = current := fun s' hs' => by
      cases s <;> cases s' <;> cases current <;> simp_all
    have hcopy : ∀ s', put copy s (some value) s' = some value := fun s' => by
      by_cases e : s' = s
      · rw [e, put_same]
      · rw [put_ne _ _ e, hother s' e, h2]
    have hd : decide (s = current) = false := by simp [hs]
    rw [hd, Bool.and_false, Bool.or_false]
    have hmr : ∃ t : Space → Bool, (∀ s, t s = false) ∧
        managerMove fresh ⟨copy, tch, some current⟩ s = ⟨put copy s (some value), t, some current⟩ := by
      rcases hm with h | ⟨ht, h⟩
      · exact ⟨_, fun _ => rfl, h⟩
      · refine ⟨tch, fun s' => ?_, h⟩
        by_cases e : s' = current
        · rw [e, h3, ht]
        · exact h4 s' e
    obtain ⟨t, ht, hm⟩ := hmr
    cases touch
    · have e : moveRecord fresh ⟨copy, tch, some current⟩ s false = ⟨put copy s (some value), t, some s⟩ := by simp [moveRecord, hm]
      rw [e]
      exact ⟨⟨rfl, hcopy s, ht s, fun s' _ => ht s', fun _ s' => hcopy s'⟩, fun p _ hn => by cases (hcopy p).symm.trans hn⟩
    · have e : moveRecord fresh ⟨copy, tch, some current⟩ s true = ⟨put copy s (some value), put t s true, some s⟩ := by simp [moveRecord, hm]
      rw [e]
      refine ⟨⟨rfl, hcopy s, put_same _ _ _, fun s' hs' => ?_, fun e => by cases e⟩, fun p _ hn => by cases (hcopy p).symm.trans hn⟩
      show put t s true s' = false
      rw [put_ne _ _ hs', ht s']

/-- Writing in the touched space. -/
theorem Holds.write {C : Type} {r : Record C} {value : C} {current : Space} (h : Holds r value current true) (value' : C) :
    Holds { r with copy := put r.copy current (some value') } value' current true ∧
    ∀ p, r.copy p ≠ none → put r.copy current (some value') p ≠ none := by
  refine ⟨⟨h.last, put_same _ _ _, h.here, h.other, fun e => by cases e⟩, fun p hp => ?_⟩
  by_cases e : p = current
  · rw [e, put_same]; exact fun h => by cases h
  · rw [put_ne _ _ e]; exact hp

/-- The state of the model and the state of the specification. -/
structure Rep {T : Type} (st : State T) (a : Everywhere T) (id : Nat) (r : Record (Data T)) : Prop where
  pos : 0 < a.cap
  heap : st.heap.get id = some r
  holds : Holds r a.value a.current a.touched
  length : st.views.length = a.views.length
  view : ∀ v p c, a.view v = some (p, c) → st.views[v]? = some ⟨some p, a.cap, some id, c⟩ ∧ r.copy p ≠ none

theorem view_lt {T : Type} {a : Everywhere T} {v : Nat} {x : Space × Bool} (h : a.view v = some x) : v < a.views.length := by
  refine Nat.lt_of_not_le fun hn => ?_
  simp [Everywhere.view, List.getElem?_eq_none hn] at h

theorem viewAt_ok {views : List Buffer} {v : Nat} {b : Buffer} (h : views[v]? = some b) : viewAt views v = .ok b := by
  simp [viewAt, h]

theorem move_ok {C : Type} (fresh : C) {h : Heap C} {id : Nat} {r : Record C} (hr : h.get id = some r) {b : Buffer} (hb : b.record = some id)
    (hc : 0 < b.cap) (s : Space) (touch : Bool) :
    Chai.move fresh h b (some s) touch = .ok (h.set id (some (moveRecord fresh r s (!b.isConst && touch))), { b with pointer := some s }) := by
  simp [Chai.move, hb, hr, Nat.ne_of_gt hc]

theorem move_none {C : Type} (fresh : C) (h : Heap C) (b : Buffer) (touch : Bool) : Chai.move fresh h b none touch = .ok (h, b) := by
  obtain ⟨_, _, _ | _, _⟩ := b <;> rfl

theorem deref_ok {C : Type} {h : Heap C} {id : Nat} {r : Record C} (hr : h.get id = some r) {b : Buffer} (hb : b.record = some id)
    {s : Space} (hp : b.pointer = some s) {c : C} (hc : r.copy s = some c) : deref h b s = .ok c := by
  simp [deref, hp, hb, hr, hc]

/-- The valid views after one was appended. -/
theorem view_append {T : Type} {a : Everywhere T} {x y : Space × Bool} {v : Nat} (h : ((a.views ++ [some x])[v]?).getD none = some y) :
    a.view v = some y ∨ (v = a.views.length ∧ x = y) := by
  rcases Nat.lt_trichotomy v a.views.length with hv | hv | hv
  · left; rw [List.getElem?_append_left hv] at h; exact h
  · right; subst hv; simp at h; exact ⟨rfl, h⟩
  · rw [List.getElem?_append_right (by omega), List.getElem?_eq_none (by simp; omega)] at h
    cases h

/-- The valid views after one was replaced. -/
theorem view_set {T : Type} {a : Everywhere T} {x y : Space × Bool} {v w : Nat} (h : ((a.views.set w (some x))[v]?).getD none = some y) :
    (v ≠ w ∧ a.view v = some y) ∨ (v = w ∧ w < a.views.length ∧ x = y) := by
  by_cases e : v = w
  · right
    subst e
    by_cases hv : v < a.views.length
    · simp [hv] at h; exact ⟨rfl, hv, h⟩
    · rw [List.getElem?_eq_none (by simp; omega)] at h; cases h
  · left
    rw [List.getElem?_set_ne (Ne.symm e)] at h
    exact ⟨e, h⟩

end LvArray.Chai

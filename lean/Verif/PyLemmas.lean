import Verif.Spec.Python

/-!
# Refinement of Python objects, for any class
-/

namespace LvArray.Python

open Spec

variable {T : Type}

/-- The obligations of a class: `Rel` relates objects and values, `Val` says that a window of the buffer shows a part. -/
structure Refines (c : Cfg) {K : Class T} (A : PyClass K) (Rel : K.W → A.S → Prop) (Val : K.W → Window → A.P → Prop) : Prop where
  space : A.takesSpace = K.takesSpace
  raises : ∀ {level w s m e}, Rel w s → A.call level s m = some (.raises e) → K.call c level w m = .ok (.error e)
  returns : ∀ {level w s m o}, Rel w s → A.call level s m = some (.returns o) → K.call c level w m = .ok (.ok (w, .val o))
  changes : ∀ {level w s m keep s' o}, Rel w s → A.call level s m = some (.changes keep s' o) →
    ∃ w', K.call c level w m = .ok (.ok (w', .val o)) ∧ Rel w' s' ∧
      (keep = true → mayMove (K.data w) (K.data w') = false ∧ ∀ win part, Val w win part → Val w' win part)
  array : ∀ {level w s m part dims wr}, Rel w s → A.call level s m = some (.array part dims wr) →
    ∃ win, K.call c level w m = .ok (.ok (w, .view win)) ∧ win.dims = dims ∧ win.writeable = wr ∧ Val w win part
  outside : ∀ {w s win part idx}, Rel w s → Val w win part → A.get s part idx = none → inside win.dims idx = false
  read : ∀ {w s win part idx x}, Rel w s → Val w win part → A.get s part idx = some x → inside win.dims idx = true ∧
    ∀ v, x = some v → (K.data w).read (win.start + offset win.strides idx) = .ok v
  write : ∀ {w s win part idx x v}, Rel w s → Val w win part → win.writeable = true → A.get s part idx = some x →
    ∃ b, (K.data w).write c (win.start + offset win.strides idx) v = .ok b ∧ Rel (K.withData w b) (A.set s part idx v) ∧
      ∀ win' part', Val w win' part' → Val (K.withData w b) win' part'

/-- An array that is still valid shows what the specification says. -/
def Shown {K : Class T} {A : PyClass K} (Val : K.W → Window → A.P → Prop) (w : K.W) (epoch : Nat) (v : View) :
    Option (A.P × Bool) → Prop
  | none => True
  | some (part, wr) => v.epoch = epoch ∧ Val w v.window part ∧ v.window.writeable = wr

/-- The relation between Python objects. -/
structure Sim {K : Class T} {A : PyClass K} (Rel : K.W → A.S → Prop) (Val : K.W → Window → A.P → Prop) (o : Obj K) (p : PyObj A) :
    Prop where
  obj : ∃ w, o.wrapped = some w ∧ Rel w p.state ∧ List.Forall₂ (Shown Val w o.epoch) o.views p.arrays
  level : o.level = p.level

variable {c : Cfg} {K : Class T} {A : PyClass K} {Rel : K.W → A.S → Prop} {Val : K.W → Window → A.P → Prop}

theorem mayMove_self (b : Buf T) : mayMove b b = false := by simp [mayMove]

theorem update_self (o : Obj K) {w : K.W} (h : o.wrapped = some w) : o.update w w = o := by
  cases o
  simp only at h
  subst h
  simp [Obj.update, mayMove_self]

theorem Sim.step (hR : Refines c A Rel Val) {o : Obj K} {p p' : PyObj A} {op : Op K} {r} (h : Sim Rel Val o p)
    (hs : p.step op = some (p', r)) : ∃ o', o.step c op = .ok (o', r) ∧ Sim Rel Val o' p' := by
  obtain ⟨⟨w, hw, hr, hv⟩, hl⟩ := h
  cases op with
  | call m =>
    simp only [PyObj.step, Option.map_eq_some_iff] at hs
    obtain ⟨out, h1, h2⟩ := hs
    simp only [Obj.step, Obj.method, hw]
    rw [← hl] at h1
    cases out with
    | raises e =>
      cases h2
      rw [hR.raises hr h1]
      exact ⟨o, rfl, ⟨w, hw, hr, hv⟩, hl⟩
    | returns x =>
      cases h2
      rw [hR.returns hr h1, bind_ok]
      simp only [Obj.deliver, update_self o hw]
      exact ⟨o, rfl, ⟨w, hw, hr, hv⟩, hl⟩
    | changes keep s' x =>
      cases h2
      obtain ⟨w', h3, h4, h5⟩ := hR.changes hr h1
      rw [h3, bind_ok]
      refine ⟨o.update w w', rfl, ⟨w', rfl, h4, ?_⟩, hl⟩
      cases keep with
      | true =>
        obtain ⟨h6, h7⟩ := h5 rfl
        simp only [Obj.update, h6, if_true]
        refine hv.imp fun v a hva => ?_
        match a, hva with
        | none, _ => exact trivial
        | some (part, wr), hva => exact ⟨hva.1, h7 _ _ hva.2.1, hva.2.2⟩
      | false =>
        simp only [Obj.update, Bool.false_eq_true, if_false]
        have : ∀ (n : Nat) {vs : List View} {as : List (Option (A.P × Bool))} {e : Nat},
            List.Forall₂ (Shown Val w e) vs as → List.Forall₂ (Shown Val w' n) vs (as.map fun _ => none) := by
          intro n vs as e hf
          induction hf with
          | nil => exact .nil
          | cons _ _ ih => exact .cons trivial ih
        exact this _ hv
    | array part dims wr =>
      cases h2
      obtain ⟨win, h3, rfl, rfl, h6⟩ := hR.array hr h1
      rw [h3, bind_ok]
      simp only [Obj.deliver, update_self o hw]
      refine ⟨_, rfl, ⟨w, hw, hr, ?_⟩, hl⟩
      have : ∀ {vs : List View} {as : List (Option (A.P × Bool))} {v a},
          List.Forall₂ (Shown Val w o.epoch) vs as → Shown Val w o.epoch v a →
          List.Forall₂ (Shown Val w o.epoch) (vs ++ [v]) (as ++ [a]) := by
        intro vs as v a hf ha
        induction hf with
        | nil => exact .cons ha .nil
        | cons h _ ih => exact .cons h ih
      exact this hv ⟨rfl, h6, rfl⟩
  | getAccessLevel =>
    cases hs
    simp only [Obj.step, Obj.getAccessLevel, hw, hl]
    exact ⟨o, rfl, ⟨w, hw, hr, hv⟩, hl⟩
  | setAccessLevel level space =>
    cases space with
    | none =>
      cases hs
      simp only [Obj.step, Obj.setAccessLevel, hw]
      exact ⟨_, rfl, ⟨w, rfl, hr, hv⟩, rfl⟩
    | some space =>
      simp only [PyObj.step, Option.some.injEq, hR.space] at hs
      simp only [Obj.step, Obj.setAccessLevel, hw]
      split at hs
      · cases hs
        rename_i h1
        rw [if_pos h1]
        exact ⟨_, rfl, ⟨w, hw, hr, hv⟩, hl⟩
      · rename_i h1
        rw [if_neg h1]
        split at hs
        · cases hs
          rename_i h2
          rw [if_pos h2]
          exact ⟨_, rfl, ⟨w, hw, hr, hv⟩, hl⟩
        · cases hs
          rename_i h2
          rw [if_neg h2]
          exact ⟨_, rfl, ⟨w, rfl, hr, hv⟩, rfl⟩
  | read k idx =>
    have hlen := hv.length_eq
    simp only [PyObj.step] at hs
    simp only [Obj.step, Obj.read, hw]
    split at hs
    · rename_i hk
      cases hs
      have : o.views[k]? = none := by
        rw [List.getElem?_eq_none_iff] at hk ⊢; omega
      rw [this]
      exact ⟨o, rfl, ⟨w, hw, hr, hv⟩, hl⟩
    · cases hs
    · rename_i part wr hk
      obtain ⟨hlt, hk⟩ := List.getElem?_eq_some_iff.1 hk
      have hlt' : k < o.views.length := by omega
      have hsh := hv.get hlt' hlt
      simp only [List.get_eq_getElem, hk] at hsh
      rw [List.getElem?_eq_getElem hlt']
      simp only
      split at hs
      · rename_i hg
        cases hs
        rw [hR.outside hr hsh.2.1 hg]
        exact ⟨o, rfl, ⟨w, hw, hr, hv⟩, hl⟩
      · cases hs
      · rename_i x hg
        cases hs
        obtain ⟨h1, h2⟩ := hR.read hr hsh.2.1 hg
        rw [h1, if_pos rfl]
        simp only [Obj.locate, hsh.1, if_true, bind_ok, h2 x rfl]
        exact ⟨o, rfl, ⟨w, hw, hr, hv⟩, hl⟩
  | write k idx x =>
    have hlen := hv.length_eq
    simp only [PyObj.step] at hs
    simp only [Obj.step, Obj.write, hw]
    split at hs
    · rename_i hk
      cases hs
      have : o.views[k]? = none := by
        rw [List.getElem?_eq_none_iff] at hk ⊢; omega
      rw [this]
      exact ⟨o, rfl, ⟨w, hw, hr, hv⟩, hl⟩
    · cases hs
    · rename_i part wr hk
      obtain ⟨hlt, hk⟩ := List.getElem?_eq_some_iff.1 hk
      have hlt' : k < o.views.length := by omega
      have hsh := hv.get hlt' hlt
      simp only [List.get_eq_getElem, hk] at hsh
      obtain ⟨he, hval, hwr⟩ := hsh
      rw [List.getElem?_eq_getElem hlt']
      simp only [hwr]
      split at hs
      · cases hs
        rename_i h1
        rw [if_pos h1]
        exact ⟨o, rfl, ⟨w, hw, hr, hv⟩, hl⟩
      · rename_i h1
        rw [if_neg h1]
        split at hs
        · rename_i hg
          cases hs
          rw [hR.outside hr hval hg]
          exact ⟨o, rfl, ⟨w, hw, hr, hv⟩, hl⟩
        · rename_i y hg
          cases hs
          obtain ⟨h2, -⟩ := hR.read hr hval hg
          obtain ⟨b, h3, h4, h5⟩ := hR.write (v := x) hr hval (by rw [hwr]; simpa using h1) hg
          rw [h2, if_pos rfl]
          simp only [Obj.locate, he, if_true, bind_ok, h3]
          refine ⟨_, rfl, ⟨_, rfl, h4, hv.imp fun v a hva => ?_⟩, hl⟩
          match a, hva with
          | none, _ => exact trivial
          | some (part, wr), hva => exact ⟨hva.1, h5 _ _ hva.2.1, hva.2.2⟩

theorem Sim.run (hR : Refines c A Rel Val) (ops : List (Op K)) : ∀ {o : Obj K} {p p' : PyObj A} {outs}, Sim Rel Val o p →
    p.run ops = some (p', outs) → ∃ o', o.run c ops = .ok (o', outs) ∧ Sim Rel Val o' p' := by
  induction ops with
  | nil => intro o p p' outs h hs; cases hs; exact ⟨o, rfl, h⟩
  | cons op ops ih =>
    intro o p p' outs h hs
    simp only [PyObj.run, Option.bind_eq_some_iff, Option.map_eq_some_iff, Prod.mk.injEq] at hs
    obtain ⟨⟨p1, r1⟩, h1, ⟨p2, rs⟩, h2, rfl, rfl⟩ := hs
    obtain ⟨o1, e1, s1⟩ := h.step hR h1
    obtain ⟨o2, e2, s2⟩ := ih s1 h2
    refine ⟨o2, ?_, s2⟩
    unfold Obj.run
    rw [e1, bind_ok, e2, bind_ok]

/-- A program that stays inside the contract sees what the specification says, and leaves the container so. -/
theorem Refines.run (hR : Refines c A Rel Val) {w : K.W} {s : A.S} (h : Rel w s) (ops : List (Op K)) {p' : PyObj A} {outs}
    (hs : (pyCreate A s).run ops = some (p', outs)) :
    ∃ o' w', (create K w).run c ops = .ok (o', outs) ∧ o'.wrapped = some w' ∧ Rel w' p'.state := by
  obtain ⟨o', h1, ⟨w', h2, h3, -⟩, -⟩ :=
    Sim.run hR ops (o := create K w) (p := pyCreate A s) ⟨⟨w, rfl, h, .nil⟩, rfl⟩ hs
  exact ⟨o', w', h1, h2, h3⟩

/-- A window on `n` consecutive elements. -/
theorem inside_one (n : Nat) (idx : List Int) : inside [n] idx = true ↔ ∃ j : Nat, j < n ∧ idx = [(j : Int)] := by
  match idx with
  | [] => simp [inside]
  | [i] =>
    simp only [inside, Bool.and_true, Bool.and_eq_true, decide_eq_true_eq, List.cons.injEq, and_true]
    constructor
    · rintro ⟨h1, h2⟩; exact ⟨i.toNat, by omega, by omega⟩
    · rintro ⟨j, h1, h2⟩; omega
  | i :: j :: l => simp [inside]

theorem nth_none {X : Type} {xs : List X} {idx : List Int} (h : nth xs idx = none) : inside [xs.length] idx = false := by
  rw [Bool.eq_false_iff]
  intro hh
  obtain ⟨j, hj, rfl⟩ := (inside_one _ _).1 hh
  simp only [nth] at h
  rw [if_neg (by omega)] at h
  simp at h
  omega

theorem nth_some {X : Type} {xs : List X} {idx : List Int} {x : Option X} (h : nth xs idx = some x) :
    ∃ j : Nat, idx = [(j : Int)] ∧ ∃ hj : j < xs.length, x = some xs[j] := by
  match idx with
  | [] => cases h
  | [i] =>
    simp only [nth] at h
    split at h
    · cases h
    · rw [Option.map_eq_some_iff] at h
      obtain ⟨y, h1, rfl⟩ := h
      obtain ⟨h2, rfl⟩ := List.getElem?_eq_some_iff.1 h1
      exact ⟨i.toNat, by simp; omega, h2, rfl⟩
  | i :: j :: l => cases h

theorem offset_one (j : Nat) : offset [1] [(j : Int)] = j := by simp [offset]

end LvArray.Python

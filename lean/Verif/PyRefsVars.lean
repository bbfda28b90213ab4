import Verif.PyRefsFuncs

/-! # Programs over `PyObjectRef` variables, and histories of calls -/

namespace LvArray.PyRefs

/-- All the references a collection of `PyObjectRef` variables accounts for. -/
def Vars.owns (v : Vars) : List (Option Nat) := v.vars ++ v.out

theorem plusAll_perm (owned : Owned) {a b : List (Option Nat)}
    (h : ∀ x : Nat, a.count (some x) = b.count (some x)) : owned.plusAll a = owned.plusAll b := by
  funext i
  simp only [Owned.plusAll, h i]

theorem count_set_opt : ∀ (l : List (Option Nat)) (i : Nat) (r : Option Nat) (x : Nat), i < l.length →
    (l.set i r).count (some x) + (if (l[i]?).getD none = some x then 1 else 0) =
      l.count (some x) + if r = some x then 1 else 0
  | [], _, _, _, h => by simp at h
  | a :: l, 0, r, x, _ => by
    simp only [List.set_cons_zero, List.count_cons, beq_iff_eq, List.getElem?_cons_zero, Option.getD_some]
    omega
  | a :: l, i + 1, r, x, h => by
    have := count_set_opt l i r x (by simpa using h)
    simp only [List.set_cons_succ, List.count_cons, beq_iff_eq, List.getElem?_cons_succ]
    omega

theorem count_set_none (l : List (Option Nat)) (i x : Nat) :
    (l.set i none).count (some x) + (if (l[i]?).getD none = some x then 1 else 0) = l.count (some x) := by
  by_cases h : i < l.length
  · have := count_set_opt l i none x h
    simpa using this
  · rw [List.set_eq_of_length_le (by omega), List.getElem?_eq_none (by omega)]
    simp

/-- An operation that does not overwrite a reference: the class forgets to release the old one when it is
assigned from another `PyObjectRef`. -/
def RefOp.fine (v : Vars) : RefOp → Prop
  | .assign i _ => v.get i = none
  | .assignMove i _ => v.get i = none
  | _ => True

theorem alive_var {h : Heap} {owned : Owned} {v : Vars} (hx : Exact h (owned.plusAll v.owns)) {i x : Nat}
    (hi : v.get i = some x) : 0 < (owned.plusAll v.owns) x := by
  have hm : some x ∈ v.vars := by
    unfold Vars.get at hi
    cases hg : v.vars[i]? with
    | none => rw [hg] at hi; simp at hi
    | some y =>
      rw [hg] at hi
      simp only [Option.getD_some] at hi
      rw [← hi]
      exact List.mem_of_getElem? hg
  have : 0 < v.owns.count (some x) := List.count_pos_iff.2 (by
    unfold Vars.owns
    exact List.mem_append_left _ hm)
  simp only [Owned.plusAll]
  omega

theorem xincref_var {s : State} {owned : Owned} {v : Vars} (hx : Exact s.heap (owned.plusAll v.owns))
    (i : Nat) :
    ∃ s', xincref (v.get i) s = .ok s' ∧ Exact s'.heap ((owned.plusAll v.owns).plus (v.get i)) := by
  cases h : v.get i with
  | none => exact ⟨s, rfl, by rw [plus_none]; exact hx⟩
  | some x =>
    obtain ⟨s1, e1, x1, _⟩ := xincref_ok hx (alive_var hx h)
    exact ⟨s1, e1, x1⟩

theorem refOp_ok {v : Vars} {s : State} {owned : Owned} (op : RefOp) (hf : op.fine v)
    (hx : Exact s.heap (owned.plusAll v.owns)) :
    ∃ v' s', op.run v s = .ok (v', s') ∧ Exact s'.heap (owned.plusAll v'.owns) := by
  have swap : ∀ {w : Vars} {t : State} {r : Option Nat}, Exact t.heap ((owned.plusAll v.owns).plus r) →
      (∀ x : Nat, w.owns.count (some x) = v.owns.count (some x) + if r = some x then 1 else 0) →
      Exact t.heap (owned.plusAll w.owns) := by
    intro w t r ht hw
    have : owned.plusAll w.owns = (owned.plusAll v.owns).plus r := by
      funext i
      simp only [Owned.plusAll, Owned.plus, hw i]
      omega
    rw [this]
    exact ht
  have same : ∀ {w : Vars} {t : State}, Exact t.heap (owned.plusAll v.owns) →
      (∀ x : Nat, w.owns.count (some x) = v.owns.count (some x)) → Exact t.heap (owned.plusAll w.owns) := by
    intro w t ht hw
    rw [plusAll_perm owned hw]
    exact ht
  have less : ∀ {i : Nat}, Exact s.heap
      ((owned.plusAll (Vars.mk (v.vars.set i none) v.out).owns).plus (v.get i)) := by
    intro i
    have : (owned.plusAll (Vars.mk (v.vars.set i none) v.out).owns).plus (v.get i) =
        owned.plusAll v.owns := by
      funext x
      have := count_set_none v.vars i x
      rw [show (v.vars[i]?).getD none = v.get i from rfl] at this
      simp only [Owned.plusAll, Owned.plus, Vars.owns, List.count_append]
      omega
    rw [this]
    exact hx
  cases op with
  | own =>
    obtain ⟨r1, s1, e1, x1, _⟩ := newRef_ok hx lends_nil
    rw [List.map_nil] at e1
    refine ⟨{ v with vars := v.vars ++ [r1] }, s1, by simp only [RefOp.run, e1, bind, Except.bind], swap x1 ?_⟩
    intro x
    simp only [Vars.owns, List.count_append, List.count_cons, List.count_nil, beq_iff_eq]
    omega
  | copy i =>
    obtain ⟨s1, e1, x1⟩ := xincref_var hx i
    refine ⟨{ v with vars := v.vars ++ [v.get i] }, s1, by simp only [RefOp.run, e1, bind, Except.bind], swap x1 ?_⟩
    intro x
    simp only [Vars.owns, List.count_append, List.count_cons, List.count_nil, beq_iff_eq]
    omega
  | move i =>
    refine ⟨_, s, rfl, same hx ?_⟩
    intro x
    have := count_set_none v.vars i x
    simp only [Vars.owns, Vars.get, List.count_append, List.count_cons, List.count_nil, beq_iff_eq]
    omega
  | assign i j =>
    simp only [RefOp.fine] at hf
    by_cases hi : i < v.vars.length
    · obtain ⟨s1, e1, x1⟩ := xincref_var hx j
      refine ⟨{ v with vars := v.vars.set i (v.get j) }, s1, by
        simp only [RefOp.run, hi, if_true, e1, bind, Except.bind], swap x1 ?_⟩
      intro x
      have := count_set_opt v.vars i (v.get j) x hi
      unfold Vars.get at hf
      rw [hf] at this
      simp only [Vars.owns, List.count_append]
      simp only [reduceCtorEq, if_false] at this
      omega
    · exact ⟨v, s, by simp only [RefOp.run, hi, if_false], hx⟩
  | assignMove i j =>
    simp only [RefOp.fine] at hf
    by_cases hi : i < v.vars.length
    · refine ⟨{ v with vars := (v.vars.set i (v.get j)).set j none }, s, by
        simp only [RefOp.run, hi, if_true], same hx ?_⟩
      intro x
      have h1 := count_set_opt v.vars i (v.get j) x hi
      have h2 := count_set_none (v.vars.set i (v.get j)) j x
      have h3 : ((v.vars.set i (v.get j))[j]?).getD none = v.get j := by
        rw [List.getElem?_set]
        by_cases hij : i = j
        · subst hij
          simp [hi]
        · rw [if_neg hij]
          rfl
      rw [h3] at h2
      unfold Vars.get at hf
      rw [hf] at h1
      simp only [Vars.owns, List.count_append]
      simp only [reduceCtorEq, if_false] at h1
      omega
    · exact ⟨v, s, by simp only [RefOp.run, hi, if_false], hx⟩
  | assignNew i =>
    by_cases hi : i < v.vars.length
    · obtain ⟨r1, s1, e1, x1, _⟩ := newRef_ok hx lends_nil
      rw [List.map_nil] at e1
      have x2 : Exact s1.heap
          ((owned.plusAll (Vars.mk (v.vars.set i r1) v.out).owns).plus (v.get i)) := by
        have : (owned.plusAll (Vars.mk (v.vars.set i r1) v.out).owns).plus (v.get i) =
            (owned.plusAll v.owns).plus r1 := by
          funext x
          have := count_set_opt v.vars i r1 x hi
          rw [show (v.vars[i]?).getD none = v.get i from rfl] at this
          simp only [Owned.plusAll, Owned.plus, Vars.owns, List.count_append]
          omega
        rw [this]
        exact x1
      obtain ⟨s2, e2, x3, _⟩ := xdecref_ok x2
      exact ⟨{ v with vars := v.vars.set i r1 }, s2, by
        simp only [RefOp.run, hi, if_true, e1, e2, bind, Except.bind], x3⟩
    · exact ⟨v, s, by simp only [RefOp.run, hi, if_false], hx⟩
  | release i =>
    refine ⟨_, s, rfl, same hx ?_⟩
    intro x
    have := count_set_none v.vars i x
    simp only [Vars.owns, Vars.get, List.count_append, List.count_cons, beq_iff_eq]
    omega
  | destroy i =>
    obtain ⟨s1, e1, x1, _⟩ := xdecref_ok (less (i := i))
    exact ⟨{ v with vars := v.vars.set i none }, s1, by simp only [RefOp.run, e1, bind, Except.bind], x1⟩

/-! ## Histories -/

theorem runCalls_ok : ∀ (fs : List ((State → R (Option Nat × State)) × List Nat))
    (s : State) (owned : Owned), (∀ f ∈ fs, Obeys f.1 f.2) → Exact s.heap owned →
    (∀ f ∈ fs, Lends owned f.2) → s.err = false →
    ∃ rs s', runCalls (fs.map Prod.fst) s = .ok (rs, s') ∧ Exact s'.heap (owned.plusAll rs)
  | [], s, owned, _, hx, _, _ => ⟨[], s, rfl, by rw [plusAll_nil]; exact hx⟩
  | f :: fs, s, owned, hf, hx, hl, he => by
    obtain ⟨r1, s1, e1, x1, _⟩ := hf f List.mem_cons_self s owned hx (hl f List.mem_cons_self) he
    obtain ⟨rs, s2, e2, x2⟩ := runCalls_ok fs { s1 with err := false } (owned.plus r1)
      (fun g hg => hf g (List.mem_cons_of_mem _ hg)) x1
      (fun g hg => (hl g (List.mem_cons_of_mem _ hg)).plus r1) rfl
    refine ⟨r1 :: rs, s2, ?_, ?_⟩
    · rw [List.map_cons, runCalls, e1]
      simp only [bind, Except.bind, e2]
    · rw [plusAll_cons, ← plusAll_plus]
      exact x2

theorem runProgram_ok (fs : List ((State → R (Option Nat × State)) × List Nat))
    (s : State) (owned : Owned) (hf : ∀ f ∈ fs, Obeys f.1 f.2) (hx : Exact s.heap owned)
    (hl : ∀ f ∈ fs, Lends owned f.2) (he : s.err = false) :
    ∃ s', runProgram (fs.map Prod.fst) s = .ok s' ∧ Exact s'.heap owned := by
  obtain ⟨rs, s1, e1, x1⟩ := runCalls_ok fs s owned hf hx hl he
  obtain ⟨s2, e2, x2, _⟩ := dropAll_ok rs s1 owned x1
  refine ⟨s2, ?_, x2⟩
  rw [runProgram, e1]
  simp only [bind, Except.bind, e2]

end LvArray.PyRefs

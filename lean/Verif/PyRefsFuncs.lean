import Verif.PyRefsLemmas

/-! # The functions of the Python bindings keep the counts exact -/

namespace LvArray.PyRefs

theorem lends_one {owned : Owned} {i : Nat} (h : 0 < owned i) : Lends owned [i] := by
  intro j hj
  rw [List.mem_singleton] at hj
  subst hj
  exact h

theorem lends_nil {owned : Owned} : Lends owned [] := fun _ h => by cases h

/-! ## pythonHelpers.cpp and python.cpp -/

theorem addTypeToModule_ok {s : State} {owned : Owned} {m type : Nat} (hx : Exact s.heap owned)
    (hm : 0 < owned m) (ht : 0 < owned type) :
    ∃ b s', addTypeToModule m type s = .ok (b, s') ∧ Exact s'.heap owned ∧ s'.err = (s.err || !b) := by
  obtain ⟨b1, s1, e1, x1, r1⟩ := status_ok hx (lends_one ht)
  rw [List.map_cons, List.map_nil] at e1
  cases b1 with
  | false => exact ⟨false, s1, by rw [addTypeToModule, e1]; rfl, x1, r1⟩
  | true =>
    obtain ⟨s2, e2, x2, r2⟩ := xincref_ok x1 ht
    obtain ⟨b3, s3, e3, x3, r3⟩ := addObject_ok hm x2
    cases b3 with
    | true =>
      refine ⟨true, s3, ?_, x3, by rw [r3, r2, r1]; simp⟩
      rw [addTypeToModule, e1]
      simp only [bind, Except.bind, Bool.true_eq_false, if_false, e2, e3]
    | false =>
      obtain ⟨s4, e4, x4, r4⟩ := xdecref_ok x3
      refine ⟨false, s4, ?_, x4, by rw [r4, r3, r2, r1]; simp⟩
      rw [addTypeToModule, e1]
      simp only [bind, Except.bind, Bool.true_eq_false, if_false, e2, e3, if_true, e4]

theorem addTypes_ok {m : Nat} : ∀ (types : List Nat) (s : State) (owned : Owned), Exact s.heap owned →
    0 < owned m → Lends owned types →
    ∃ b s', addTypes m types s = .ok (b, s') ∧ Exact s'.heap owned ∧ s'.err = (s.err || !b)
  | [], s, owned, hx, _, _ => ⟨true, s, rfl, hx, by simp⟩
  | t :: ts, s, owned, hx, hm, hl => by
    obtain ⟨b1, s1, e1, x1, r1⟩ := addTypeToModule_ok hx hm (hl t List.mem_cons_self)
    cases b1 with
    | false => exact ⟨false, s1, by rw [addTypes, e1]; rfl, x1, r1⟩
    | true =>
      obtain ⟨b2, s2, e2, x2, r2⟩ := addTypes_ok ts s1 owned x1 hm fun i hi => hl i (List.mem_cons_of_mem _ hi)
      exact ⟨b2, s2, by rw [addTypes, e1]; exact e2, x2, by rw [r2, r1]; simp⟩

theorem addConstants_ok {m : Nat} : ∀ (n : Nat) (s : State) (owned : Owned), Exact s.heap owned →
    0 < owned m →
    ∃ b s', addConstants m n s = .ok (b, s') ∧ Exact s'.heap owned ∧ s'.err = (s.err || !b)
  | 0, s, owned, hx, _ => ⟨true, s, rfl, hx, by simp⟩
  | n + 1, s, owned, hx, hm => by
    obtain ⟨b1, s1, e1, x1, r1⟩ := status_ok hx (lends_one hm)
    rw [List.map_cons, List.map_nil] at e1
    cases b1 with
    | false => exact ⟨false, raise s1, by rw [addConstants, e1]; rfl, x1, by simp [raise]⟩
    | true =>
      obtain ⟨b2, s2, e2, x2, r2⟩ := addConstants_ok n s1 owned x1 hm
      exact ⟨b2, s2, by rw [addConstants, e1]; exact e2, x2, by rw [r2, r1]; simp⟩

theorem finishModule_ok {s : State} {owned : Owned} {m : Nat} (b : Bool)
    (hx : Exact s.heap (owned.plus (some m))) :
    ∃ r s', finishModule m b s = .ok (r, s') ∧ Exact s'.heap (owned.plus r) ∧ s'.err = s.err ∧ r.isNone = !b := by
  cases b with
  | false =>
    obtain ⟨s1, e1, x1, r1⟩ := xdecref_ok hx
    refine ⟨none, s1, by simp only [finishModule, if_true, e1]; rfl, ?_, r1, rfl⟩
    rw [plus_none]
    exact x1
  | true => exact ⟨some m, s, by simp [finishModule], hx, rfl, rfl⟩

theorem getModule_ok {s : State} {owned : Owned} (types : List Nat) (constants : Nat)
    (hx : Exact s.heap owned) (hl : Lends owned types) :
    ∃ r s', getModule types constants s = .ok (r, s') ∧ Exact s'.heap (owned.plus r) ∧
      s'.err = (s.err || r.isNone) := by
  obtain ⟨r1, s1, e1, x1, f1⟩ := newRef_ok hx lends_nil
  rw [List.map_nil] at e1
  cases r1 with
  | none => exact ⟨none, s1, by rw [getModule, e1]; rfl, x1, f1⟩
  | some m =>
    obtain ⟨b2, s2, e2, x2, f2⟩ := addTypes_ok types s1 _ x1 (plus_self_pos owned m) (hl.plus _)
    cases b2 with
    | false =>
      obtain ⟨r3, s3, e3, x3, f3, g3⟩ := finishModule_ok false x2
      refine ⟨r3, s3, ?_, x3, by rw [f3, f2, f1, g3]; simp⟩
      rw [getModule, e1]
      simp only [bind, Except.bind, e2, if_true, e3]
    | true =>
      obtain ⟨b3, s3, e3, x3, f3⟩ := addConstants_ok constants s2 _ x2 (plus_self_pos owned m)
      obtain ⟨r4, s4, e4, x4, f4, g4⟩ := finishModule_ok b3 x3
      refine ⟨r4, s4, ?_, x4, by rw [f4, f3, f2, f1, g4]; simp⟩
      rw [getModule, e1]
      simp only [bind, Except.bind, e2, Bool.true_eq_false, if_false, e3, e4]

theorem fillStrings_ok {list : Nat} : ∀ (n : Nat) (s : State) (owned : Owned), Exact s.heap owned →
    0 < owned list → ∃ s', fillStrings (some list) n s = .ok s' ∧ Exact s'.heap owned
  | 0, s, owned, hx, _ => ⟨s, rfl, hx⟩
  | n + 1, s, owned, hx, hm => by
    obtain ⟨r1, s1, e1, x1, f1⟩ := newRef_ok hx lends_nil
    rw [List.map_nil] at e1
    obtain ⟨s2, e2, x2, f2⟩ := store_ok hm x1
    obtain ⟨s3, e3, x3⟩ := fillStrings_ok n s2 owned x2 hm
    refine ⟨s3, ?_, x3⟩
    rw [fillStrings, e1]
    simp only [bind, Except.bind, e2, e3]

/-! ## numpyHelpers.cpp -/

theorem importArray_ok {s : State} {owned : Owned} (imported : Bool) (hx : Exact s.heap owned) :
    ∃ b s', importArray imported s = .ok (b, s') ∧ Exact s'.heap owned ∧ s'.err = (s.err || !b) := by
  cases imported with
  | true => exact ⟨true, s, rfl, hx, by simp⟩
  | false =>
    obtain ⟨b1, s1, e1, x1, r1⟩ := status_ok hx lends_nil
    exact ⟨b1, s1, e1, x1, r1⟩

theorem createNumpyArray_ok {s : State} {owned : Owned} (imported hasType : Bool) {descr : Nat}
    (hx : Exact s.heap owned) (hd : 0 < owned descr) :
    ∃ r s', createNumpyArray imported hasType descr s = .ok (r, s') ∧ Exact s'.heap (owned.plus r) ∧
      s'.err = (s.err || r.isNone) := by
  obtain ⟨b1, s1, e1, x1, f1⟩ := importArray_ok imported hx
  cases b1 with
  | false =>
    refine ⟨none, s1, by rw [createNumpyArray, e1]; rfl, ?_, f1⟩
    rw [plus_none]
    exact x1
  | true =>
    cases hasType with
    | false =>
      refine ⟨none, raise s1, by rw [createNumpyArray, e1]; rfl, ?_, by simp [raise]⟩
      rw [plus_none]
      exact x1
    | true =>
      obtain ⟨s2, e2, x2, f2⟩ := xincref_ok x1 hd
      obtain ⟨r3, s3, e3, x3, f3⟩ := newRef_ok x2 (lends_one (plus_self_pos owned descr))
      rw [List.map_cons, List.map_nil] at e3
      cases r3 with
      | none =>
        rw [plus_none] at x3
        obtain ⟨s4, e4, x4, f4⟩ := xdecref_ok x3
        refine ⟨none, s4, ?_, ?_, by rw [f4, f3]; simp⟩
        · rw [createNumpyArray, e1]
          simp only [bind, Except.bind, Bool.true_eq_false, if_false, e2, e3, e4]
        · rw [plus_none]
          exact x4
      | some a =>
        rw [plus_comm] at x3
        obtain ⟨s4, e4, x4, f4⟩ := store_ok (plus_self_pos owned a) x3
        refine ⟨some a, s4, ?_, x4, by rw [f4, f3, f2, f1]; simp⟩
        rw [createNumpyArray, e1]
        simp only [bind, Except.bind, Bool.true_eq_false, if_false, e2, e3, e4]

theorem getNumPyTypeObject_ok {s : State} {owned : Owned} (imported hasType : Bool)
    (hx : Exact s.heap owned) :
    ∃ r s', getNumPyTypeObject imported hasType s = .ok (r, s') ∧ Exact s'.heap (owned.plus r) ∧
      s'.err = (s.err || r.isNone) := by
  obtain ⟨b1, s1, e1, x1, f1⟩ := importArray_ok imported hx
  cases b1 with
  | false =>
    refine ⟨none, raise s1, by rw [getNumPyTypeObject, e1]; rfl, ?_, by simp [raise]⟩
    rw [plus_none]
    exact x1
  | true =>
    cases hasType with
    | false =>
      refine ⟨none, raise s1, by rw [getNumPyTypeObject, e1]; rfl, ?_, by simp [raise]⟩
      rw [plus_none]
      exact x1
    | true =>
      obtain ⟨r2, s2, e2, x2, f2⟩ := newRef_ok x1 lends_nil
      rw [List.map_nil] at e2
      cases r2 with
      | none =>
        refine ⟨none, raise s2, ?_, x2, by simp [raise]⟩
        rw [getNumPyTypeObject, e1]
        simp only [bind, Except.bind, Bool.true_eq_false, if_false, e2]
      | some t =>
        refine ⟨some t, s2, ?_, x2, by rw [f2, f1]; simp⟩
        rw [getNumPyTypeObject, e1]
        simp only [bind, Except.bind, Bool.true_eq_false, if_false, e2]

theorem use_one {s : State} {owned : Owned} {i : Nat} (hx : Exact s.heap owned) (hi : 0 < owned i) :
    use [some i] s = .ok () := use_ok hx (lends_one hi)

theorem parseChecked_ok {s : State} {owned : Owned} {arg : ArrayArg} {a : Nat}
    (hx : Exact s.heap (owned.plus (some a))) (hc : arg.castFails = false) :
    ∃ r s', parseChecked arg a s = .ok (r, s') ∧ Exact s'.heap (owned.plus r) ∧
      s'.err = (s.err || r.isNone) := by
  have hu := use_one hx (plus_self_pos owned a)
  have hxr : Exact (raise s).heap (owned.plus (some a)) := hx
  obtain ⟨s1, e1, x1, f1⟩ := xdecref_ok hxr
  unfold parseChecked
  simp only [hu, bind, Except.bind]
  by_cases h1 : (arg.tooManyDims || arg.notCArray) = true
  · rw [if_pos h1]
    simp only [e1]
    exact ⟨none, s1, rfl, by rw [plus_none]; exact x1, by rw [f1]; simp [raise]⟩
  · rw [if_neg h1]
    by_cases h2 : arg.sameType = true
    · rw [if_pos h2]
      exact ⟨some a, s, rfl, hx, by simp⟩
    · rw [if_neg h2]
      by_cases h3 : arg.castable = false
      · rw [if_pos h3]
        simp only [e1]
        exact ⟨none, s1, rfl, by rw [plus_none]; exact x1, by rw [f1]; simp [raise]⟩
      · rw [if_neg h3, hc]
        have h4 : cast false a s = .ok (s.create []) := by
          simp only [cast, hu, bind, Except.bind, Bool.false_eq_true, if_false]
        have h5 : ∃ b s2, s.create [] = (some b, s2) ∧ s2.err = s.err := ⟨_, _, rfl, rfl⟩
        obtain ⟨b, s2, h5, h6⟩ := h5
        have x2 := (create_ok hx []).1
        rw [h5] at x2
        simp only at x2
        have hu2 := use_one x2 (plus_self_pos _ b)
        rw [plus_comm] at x2
        obtain ⟨s3, e3, x3, f3⟩ := xdecref_ok x2
        refine ⟨some b, s3, ?_, x3, by rw [f3, h6]; simp⟩
        rw [h4, h5]
        simp only [hu2, e3]

theorem parseNumPyArray_ok {s : State} {owned : Owned} {arg : ArrayArg} {obj : Nat}
    (hx : Exact s.heap owned) (ho : 0 < owned obj) (hc : arg.castFails = false) :
    ∃ r s', parseNumPyArray arg obj s = .ok (r, s') ∧ Exact s'.heap (owned.plus r) ∧
      s'.err = (s.err || r.isNone) := by
  obtain ⟨b1, s1, e1, x1, f1⟩ := importArray_ok arg.imported hx
  cases b1 with
  | false =>
    refine ⟨none, s1, by rw [parseNumPyArray, e1]; rfl, ?_, f1⟩
    rw [plus_none]
    exact x1
  | true =>
    obtain ⟨r2, s2, e2, x2, f2⟩ := newRef_ok x1 (lends_one ho)
    rw [List.map_cons, List.map_nil] at e2
    cases r2 with
    | none =>
      refine ⟨none, s2, ?_, x2, by rw [f2]; simp⟩
      rw [parseNumPyArray, e1]
      simp only [bind, Except.bind, Bool.true_eq_false, if_false, e2]
    | some a =>
      obtain ⟨r3, s3, e3, x3, f3⟩ := parseChecked_ok x2 hc
      refine ⟨r3, s3, ?_, x3, by rw [f3, f2, f1]; simp⟩
      rw [parseNumPyArray, e1]
      simp only [bind, Except.bind, Bool.true_eq_false, if_false, e2, e3]

/-! ## Methods -/

theorem parseAll_ok : ∀ (objs : List (ArrayArg × Nat)) (s : State) (owned : Owned), Exact s.heap owned →
    Lends owned (objs.map Prod.snd) → (∀ a ∈ objs, a.1.castFails = false) →
    ∃ rs s', parseAll objs s = .ok (rs, s') ∧ Exact s'.heap (owned.plusAll rs) ∧
      s'.err = (s.err || rs.any Option.isNone)
  | [], s, owned, hx, _, _ => ⟨[], s, rfl, by rw [plusAll_nil]; exact hx, by simp⟩
  | (arg, obj) :: objs, s, owned, hx, hl, hc => by
    obtain ⟨r1, s1, e1, x1, f1⟩ := parseNumPyArray_ok hx (hl obj (by simp)) (hc (arg, obj) List.mem_cons_self)
    obtain ⟨rs, s2, e2, x2, f2⟩ := parseAll_ok objs s1 _ x1
      (Lends.plus (fun i hi => hl i (by rw [List.map_cons]; exact List.mem_cons_of_mem _ hi)) r1)
      (fun a ha => hc a (List.mem_cons_of_mem _ ha))
    refine ⟨r1 :: rs, s2, ?_, ?_, ?_⟩
    · rw [parseAll, e1]
      simp only [bind, Except.bind, e2]
    · rw [plusAll_cons, ← plusAll_plus]
      exact x2
    · rw [f2, f1, List.any_cons, Bool.or_assoc]

theorem giveResult_ok {s : State} {owned : Owned} (m : Method) (c : Call) (hx : Exact s.heap owned)
    (hn : 0 < owned c.none_) (hd : 0 < owned c.descr) :
    ∃ r s', giveResult m c s = .ok (r, s') ∧ Exact s'.heap (owned.plus r) ∧
      s'.err = (s.err || r.isNone) := by
  unfold giveResult
  cases m.result with
  | none_ =>
    obtain ⟨s1, e1, x1, f1⟩ := xincref_ok hx hn
    exact ⟨some c.none_, s1, by simp only [e1, bind, Except.bind], x1, by rw [f1]; simp⟩
  | value =>
    obtain ⟨r1, s1, e1, x1, f1⟩ := newRef_ok hx lends_nil
    exact ⟨r1, s1, e1, x1, f1⟩
  | numpy => exact createNumpyArray_ok c.imported c.hasType hx hd

theorem finish_ok {s : State} {owned : Owned} (m : Method) (c : Call) (arrays : List (Option Nat))
    (hx : Exact s.heap (owned.plusAll arrays)) (hn : 0 < owned c.none_) (hd : 0 < owned c.descr) :
    ∃ r s', finish m c arrays s = .ok (r, s') ∧ Exact s'.heap (owned.plus r) ∧
      (m.checksArrays = true → s.err = arrays.any Option.isNone → s'.err = r.isNone) := by
  unfold finish
  by_cases h1 : (m.checksArrays && arrays.any Option.isNone) = true
  · rw [if_pos h1]
    obtain ⟨s1, e1, x1, f1⟩ := dropAll_ok arrays s owned hx
    refine ⟨none, s1, by simp only [e1, bind, Except.bind], by rw [plus_none]; exact x1, ?_⟩
    intro _ he
    rw [Bool.and_eq_true] at h1
    rw [f1, he, h1.2]
    rfl
  · rw [if_neg h1]
    by_cases h2 : c.late = false
    · rw [if_pos h2]
      obtain ⟨s1, e1, x1, f1⟩ := dropAll_ok arrays (raise s) owned hx
      exact ⟨none, s1, by simp only [e1, bind, Except.bind], by rw [plus_none]; exact x1,
        fun _ _ => by rw [f1]; rfl⟩
    · rw [if_neg h2]
      obtain ⟨r1, s1, e1, x1, f1⟩ := giveResult_ok m c hx (plusAll_pos hn _) (plusAll_pos hd _)
      rw [← plusAll_plus] at x1
      obtain ⟨s2, e2, x2, f2⟩ := dropAll_ok arrays s1 _ x1
      refine ⟨r1, s2, by simp only [e1, bind, Except.bind, e2], x2, ?_⟩
      intro hm he
      rw [hm, Bool.true_and] at h1
      rw [f2, f1, he, Bool.eq_false_iff.2 h1, Bool.false_or]

/-- The objects a call borrows. -/
def Call.args (c : Call) : List Nat := c.none_ :: c.descr :: c.objs.map Prod.snd

theorem body_ok {s : State} {owned : Owned} (m : Method) (c : Call)
    (hx : Exact s.heap owned) (hl : Lends owned c.args) (hc : ∀ a ∈ c.objs, a.1.castFails = false) :
    ∃ r s', body m c s = .ok (r, s') ∧ Exact s'.heap (owned.plus r) ∧
      (m.checksArrays = true → s.err = false → s'.err = r.isNone) := by
  unfold body
  by_cases h1 : c.parses = false
  · rw [if_pos h1]
    exact ⟨none, raise s, rfl, by rw [plus_none]; exact hx, fun _ _ => rfl⟩
  · rw [if_neg h1]
    by_cases h2 : c.early = false
    · rw [if_pos h2]
      exact ⟨none, raise s, rfl, by rw [plus_none]; exact hx, fun _ _ => rfl⟩
    · rw [if_neg h2]
      obtain ⟨rs, s1, e1, x1, f1⟩ := parseAll_ok (c.objs.take m.arrays) s owned hx
        (by
          intro i hi
          rw [List.mem_map] at hi
          obtain ⟨a, ha, rfl⟩ := hi
          refine hl _ ?_
          unfold Call.args
          refine List.mem_cons_of_mem _ (List.mem_cons_of_mem _ (List.mem_map.2 ⟨a, List.mem_of_mem_take ha, rfl⟩)))
        (fun a ha => hc a (List.mem_of_mem_take ha))
      obtain ⟨r2, s2, e2, x2, f2⟩ := finish_ok m c rs x1 (hl _ (by unfold Call.args; simp))
        (hl _ (by unfold Call.args; simp))
      refine ⟨r2, s2, by simp only [e1, bind, Except.bind, e2], x2, ?_⟩
      intro hm he
      exact f2 hm (by rw [f1, he, Bool.false_or])

theorem callMethod_ok {s : State} {owned : Owned} (m : Method) (c : Call)
    (hx : Exact s.heap owned) (hl : Lends owned c.args) (hc : ∀ a ∈ c.objs, a.1.castFails = false)
    (hi : m.verifies = true ∨ c.initialized = true) :
    ∃ r s', callMethod m c s = .ok (r, s') ∧ Exact s'.heap (owned.plus r) ∧
      (m.checksArrays = true → s.err = false → s'.err = r.isNone) := by
  unfold callMethod
  by_cases h1 : (m.verifies && !c.initialized) = true
  · rw [if_pos h1]
    exact ⟨none, raise s, rfl, by rw [plus_none]; exact hx, fun _ _ => rfl⟩
  · rw [if_neg h1]
    have h2 : c.initialized ≠ false := by
      intro h
      rw [h] at h1 hi
      simp only [Bool.not_false, Bool.and_true] at h1
      rcases hi with hi | hi
      · exact h1 hi
      · cases hi
    rw [if_neg h2]
    by_cases h3 : (m.resizes && !c.resizeable) = true
    · rw [if_pos h3]
      exact ⟨none, raise s, rfl, by rw [plus_none]; exact hx, fun _ _ => rfl⟩
    · rw [if_neg h3]
      exact body_ok m c hx hl hc

/-! ## Wrappers and SciPy -/

theorem createWrapper_ok {s : State} {owned : Owned} (imported hasType : Bool) {type : Nat}
    (hx : Exact s.heap owned) (ht : 0 < owned type) :
    ∃ r s', createWrapper imported hasType type s = .ok (r, s') ∧ s'.err = (s.err || r.isNone) ∧
      ∃ leaked : Option Nat, Exact s'.heap ((owned.plus r).plus leaked) ∧ (r.isSome → leaked = none) := by
  obtain ⟨r1, s1, e1, x1, f1⟩ := newRef_ok hx (lends_one ht)
  rw [List.map_cons, List.map_nil] at e1
  cases r1 with
  | none =>
    exact ⟨none, s1, by rw [createWrapper, e1]; rfl, f1, none, by rw [plus_none]; exact x1, fun _ => rfl⟩
  | some i =>
    obtain ⟨r2, s2, e2, x2, f2⟩ := getNumPyTypeObject_ok imported hasType x1
    cases r2 with
    | none =>
      refine ⟨none, s2, ?_, by rw [f2, f1]; simp, some i, ?_, fun h => by cases h⟩
      · rw [createWrapper, e1]
        simp only [bind, Except.bind, e2]
      · rw [plus_none] at x2 ⊢
        exact x2
    | some d =>
      obtain ⟨s3, e3, x3, f3⟩ := store_ok (plus_self_pos owned i) x2
      refine ⟨some i, s3, ?_, by rw [f3, f2, f1]; simp, none, ?_, fun _ => rfl⟩
      · rw [createWrapper, e1]
        simp only [bind, Except.bind, e2, e3]
      · rw [plus_none]
        exact x3

theorem threeArrays_ok {s : State} {owned : Owned} (imported hasType : Bool) {d : Nat × Nat × Nat}
    (hx : Exact s.heap owned) (h1 : 0 < owned d.1) (h2 : 0 < owned d.2.1) (h3 : 0 < owned d.2.2) :
    ∃ a b c s', threeArrays imported hasType d s = .ok ((a, b, c), s') ∧
      Exact s'.heap (((owned.plus a).plus b).plus c) ∧
      s'.err = (s.err || a.isNone || b.isNone || c.isNone) := by
  obtain ⟨a, s1, e1, x1, f1⟩ := createNumpyArray_ok imported hasType hx h1
  obtain ⟨b, s2, e2, x2, f2⟩ := createNumpyArray_ok imported hasType x1 (plus_pos h2 a)
  obtain ⟨c, s3, e3, x3, f3⟩ := createNumpyArray_ok imported hasType x2 (plus_pos (plus_pos h3 a) b)
  refine ⟨a, b, c, s3, ?_, x3, by rw [f3, f2, f1]⟩
  rw [threeArrays, e1]
  simp only [bind, Except.bind, e2, e3]

/-- If `PyImport_ImportModule` and `PyObject_GetAttrString` succeed, everything but the three arrays is
accounted for. -/
theorem callSciPy_ok {s : State} {owned : Owned} {a b c : Nat} (hx : Exact s.heap owned)
    (ha : 0 < owned a) (hb : 0 < owned b) (hc : 0 < owned c) {r : Option Nat} {s' : State}
    (e : callSciPy (some a) (some b) (some c) s = .ok (r, s')) : Exact s'.heap (owned.plus r) := by
  obtain ⟨r1, s1, e1, x1, f1⟩ := newRef_ok hx lends_nil
  rw [List.map_nil] at e1
  rw [callSciPy, e1] at e
  simp only [bind, Except.bind] at e
  cases r1 with
  | none => simp [newRef, use, bind, Except.bind] at e
  | some m =>
    obtain ⟨r2, s2, e2, x2, f2⟩ := newRef_ok x1 (lends_one (plus_self_pos owned m))
    rw [List.map_cons, List.map_nil] at e2
    rw [e2] at e
    cases r2 with
    | none => simp [newRef, use, bind, Except.bind] at e
    | some k =>
      obtain ⟨r3, s3, e3, x3, f3⟩ := newRef_ok x2 (args := [k, a, b, c]) (by
        intro i hi
        simp only [List.mem_cons, List.not_mem_nil, or_false] at hi
        rcases hi with rfl | rfl | rfl | rfl
        · exact plus_self_pos _ _
        · exact plus_pos (plus_pos ha _) _
        · exact plus_pos (plus_pos hb _) _
        · exact plus_pos (plus_pos hc _) _)
      simp only [List.map_cons, List.map_nil] at e3
      simp only [e3] at e
      rw [plus_comm _ (some k) r3] at x3
      obtain ⟨s4, e4, x4, f4⟩ := xdecref_ok x3
      rw [e4] at e
      simp only at e
      rw [plus_comm _ (some m) r3] at x4
      obtain ⟨s5, e5, x5, f5⟩ := xdecref_ok x4
      rw [e5] at e
      simp only [Except.ok.injEq, Prod.mk.injEq] at e
      rw [← e.1, ← e.2]
      exact x5

theorem plus_not_exact {h : Heap} {owned : Owned} {i : Nat} (hx : Exact h (owned.plus (some i))) :
    ¬ Exact h owned := by
  intro h2
  have h3 := hx i
  have h4 := h2 i
  rw [plus_apply, if_pos rfl] at h3
  omega

/-! ## PyFunc -/

theorem createArgs_ok : ∀ (n : Nat) (s : State) (owned : Owned), Exact s.heap owned →
    ∃ rs s', createArgs n s = .ok (rs, s') ∧ Exact s'.heap (owned.plusAll rs) ∧
      s'.err = (s.err || rs.any Option.isNone)
  | 0, s, owned, hx => ⟨[], s, rfl, by rw [plusAll_nil]; exact hx, by simp⟩
  | n + 1, s, owned, hx => by
    obtain ⟨r1, s1, e1, x1, f1⟩ := newRef_ok hx lends_nil
    rw [List.map_nil] at e1
    obtain ⟨rs, s2, e2, x2, f2⟩ := createArgs_ok n s1 _ x1
    refine ⟨r1 :: rs, s2, ?_, ?_, ?_⟩
    · rw [createArgs, e1]
      simp only [bind, Except.bind, e2]
    · rw [plusAll_cons, ← plusAll_plus]
      exact x2
    · rw [f2, f1, List.any_cons, Bool.or_assoc]

theorem storeAll_ok {t : Nat} : ∀ (rs : List (Option Nat)) (s : State) (owned : Owned),
    0 < owned t → Exact s.heap (owned.plusAll rs) →
    ∃ s', storeAll (some t) rs s = .ok s' ∧ Exact s'.heap owned ∧ s'.err = s.err
  | [], s, owned, _, hx => ⟨s, rfl, by rwa [plusAll_nil] at hx, rfl⟩
  | r :: rs, s, owned, ht, hx => by
    rw [plusAll_cons] at hx
    obtain ⟨s1, e1, x1, f1⟩ := store_ok (plusAll_pos ht rs) hx
    obtain ⟨s2, e2, x2, f2⟩ := storeAll_ok rs s1 owned ht x1
    exact ⟨s2, by rw [storeAll, e1]; exact e2, x2, by rw [f2, f1]⟩

theorem callPyFunc_ok {s : State} {owned : Owned} {func : Nat} {args : List (Option Nat)}
    (hx : Exact s.heap (owned.plusAll args)) (hf : 0 < owned func) :
    ∃ s', callPyFunc func args s = .ok s' ∧ Exact s'.heap owned := by
  obtain ⟨r1, s1, e1, x1, f1⟩ := newRef_ok hx lends_nil
  rw [List.map_nil] at e1
  cases r1 with
  | none =>
    rw [plus_none] at x1
    obtain ⟨s2, e2, x2, f2⟩ := dropAll_ok args s1 owned x1
    refine ⟨s2, ?_, x2⟩
    rw [callPyFunc, e1]
    simp only [bind, Except.bind, e2]
  | some t =>
    rw [← plusAll_plus] at x1
    obtain ⟨s2, e2, x2, f2⟩ := storeAll_ok args s1 _ (plus_self_pos owned t) x1
    obtain ⟨r3, s3, e3, x3, f3⟩ := newRef_ok x2 (args := [func, t]) (by
      intro i hi
      simp only [List.mem_cons, List.not_mem_nil, or_false] at hi
      rcases hi with rfl | rfl
      · exact plus_pos hf _
      · exact plus_self_pos _ _)
    simp only [List.map_cons, List.map_nil] at e3
    obtain ⟨s4, e4, x4, f4⟩ := xdecref_ok x3
    obtain ⟨s5, e5, x5, f5⟩ := xdecref_ok x4
    refine ⟨s5, ?_, x5⟩
    rw [callPyFunc, e1]
    simp only [bind, Except.bind, e2, e3, e4, e5]

theorem pythonFunction_ok {s : State} {owned : Owned} {func : Nat} (n : Nat) (hx : Exact s.heap owned)
    (hf : 0 < owned func) (he : s.err = false) :
    ∃ b s', pythonFunction func n s = .ok (b, s') ∧ Exact s'.heap owned ∧ s'.err = !b := by
  obtain ⟨rs, s1, e1, x1, f1⟩ := createArgs_ok n s owned hx
  by_cases h : rs.any Option.isNone = true
  · obtain ⟨s2, e2, x2, f2⟩ := dropAll_ok rs s1 owned x1
    refine ⟨false, s2, ?_, x2, by rw [f2, f1, h]; simp⟩
    rw [pythonFunction, e1]
    simp only [bind, Except.bind, h, if_true, e2]
  · obtain ⟨s2, e2, x2⟩ := callPyFunc_ok x1 hf
    refine ⟨!s2.err, s2, ?_, x2, by simp⟩
    rw [pythonFunction, e1]
    simp only [bind, Except.bind, h, if_false, e2, Bool.false_eq_true]

end LvArray.PyRefs

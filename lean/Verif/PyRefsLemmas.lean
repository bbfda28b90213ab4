import Verif.Spec.PyRefs

/-! # Lemmas about reference counts -/

namespace LvArray.PyRefs

/-! ## The heap -/

theorem count_of_get {h : Heap} {i : Nat} {o : Obj} (e : h[i]? = some o) : h.count i = o.count := by
  simp only [Heap.count, e]

theorem get_of_count {h : Heap} {i : Nat} (e : 0 < h.count i) : ∃ o, h[i]? = some o ∧ h.count i = o.count := by
  unfold Heap.count at e ⊢
  cases hi : h[i]? with
  | none => rw [hi] at e; simp at e
  | some o => exact ⟨o, rfl, rfl⟩

theorem count_set {h : Heap} {i : Nat} {o : Obj} (e : h[i]? = some o) (o' : Obj) (x : Nat) :
    Heap.count (h.set i o') x = if x = i then o'.count else h.count x := by
  have hi : i < h.length := by
    rw [List.getElem?_eq_some_iff] at e
    exact e.1
  unfold Heap.count
  rw [List.getElem?_set]
  by_cases hx : i = x
  · subst hx
    simp [hi]
  · rw [if_neg hx, if_neg (fun c => hx c.symm)]

theorem sum_set {α : Type} (f : α → Nat) : ∀ (l : List α) (i : Nat) (a b : α), l[i]? = some a →
    ((l.set i b).map f).sum + f a = (l.map f).sum + f b
  | [], _, _, _, e => by simp at e
  | x :: l, 0, a, b, e => by
    simp only [List.getElem?_cons_zero, Option.some.injEq] at e
    subst e
    simp only [List.set_cons_zero, List.map_cons, List.sum_cons]
    omega
  | x :: l, i + 1, a, b, e => by
    simp only [List.getElem?_cons_succ] at e
    have := sum_set f l i a b e
    simp only [List.set_cons_succ, List.map_cons, List.sum_cons]
    omega

theorem holders_set {h : Heap} {i : Nat} {o : Obj} (e : h[i]? = some o) (o' : Obj) (x : Nat) :
    holders (h.set i o') x + o.holds.count x = holders h x + o'.holds.count x :=
  sum_set (fun o : Obj => o.holds.count x) h i o o' e

theorem total_set {h : Heap} {i : Nat} {o : Obj} (e : h[i]? = some o) (o' : Obj) :
    Heap.total (h.set i o') + o.count = h.total + o'.count :=
  sum_set Obj.count h i o o' e

theorem count_append (h : Heap) (o : Obj) (x : Nat) :
    Heap.count (h ++ [o]) x = if x = h.length then o.count else h.count x := by
  unfold Heap.count
  rw [List.getElem?_append]
  by_cases hx : x < h.length
  · rw [if_pos hx, if_neg (by omega)]
  · rw [if_neg hx]
    by_cases hx2 : x = h.length
    · subst hx2
      simp
    · rw [if_neg hx2, List.getElem?_eq_none (by simp; omega), List.getElem?_eq_none (by omega)]

theorem holders_append (h : Heap) (o : Obj) (x : Nat) :
    holders (h ++ [o]) x = holders h x + o.holds.count x := by
  simp [holders]

theorem count_out (h : Heap) : h.count h.length = 0 := by
  unfold Heap.count
  rw [List.getElem?_eq_none (Nat.le_refl _)]

/-! ## Owned references -/

theorem plus_apply (owned : Owned) (r : Option Nat) (i : Nat) :
    owned.plus r i = owned i + if r = some i then 1 else 0 := rfl

theorem plus_none (owned : Owned) : owned.plus none = owned := by
  funext i
  simp [Owned.plus]

theorem plus_comm (owned : Owned) (a b : Option Nat) : (owned.plus a).plus b = (owned.plus b).plus a := by
  funext i
  simp only [Owned.plus]
  omega

theorem plusAll_nil (owned : Owned) : owned.plusAll [] = owned := by
  funext i
  simp [Owned.plusAll]

theorem plusAll_cons (owned : Owned) (r : Option Nat) (rs : List (Option Nat)) :
    owned.plusAll (r :: rs) = (owned.plusAll rs).plus r := by
  funext i
  simp only [Owned.plusAll, Owned.plus, List.count_cons, beq_iff_eq]
  omega

theorem plusAll_plus (owned : Owned) (r : Option Nat) (rs : List (Option Nat)) :
    (owned.plus r).plusAll rs = (owned.plusAll rs).plus r := by
  funext i
  simp only [Owned.plusAll, Owned.plus]
  omega

theorem Exact.alive {h : Heap} {owned : Owned} (hx : Exact h owned) {i : Nat} (hi : 0 < owned i) :
    0 < h.count i := by
  have := hx i
  omega

theorem plus_self_pos (owned : Owned) (i : Nat) : 0 < owned.plus (some i) i := by
  simp [Owned.plus]

theorem plus_pos {owned : Owned} {i : Nat} (hi : 0 < owned i) (r : Option Nat) : 0 < owned.plus r i := by
  simp only [Owned.plus]
  omega

theorem plusAll_pos {owned : Owned} {i : Nat} (hi : 0 < owned i) (r : List (Option Nat)) :
    0 < owned.plusAll r i := by
  simp only [Owned.plusAll]
  omega

theorem Lends.plus {owned : Owned} {objs : List Nat} (hl : Lends owned objs) (r : Option Nat) :
    Lends (owned.plus r) objs := fun i hi => plus_pos (hl i hi) r

theorem count_map_some : ∀ (l : List Nat) (i : Nat), (l.map some).count (some i) = l.count i
  | [], _ => rfl
  | a :: l, i => by
    rw [List.map_cons, List.count_cons, List.count_cons, count_map_some l i]
    simp

/-! ## Counting up and down -/

theorem incref_ok {h : Heap} {owned : Owned} (hx : Exact h owned) {i : Nat} (hi : 0 < h.count i) :
    ∃ h', incref i h = .ok h' ∧ Exact h' (owned.plus (some i)) ∧ h'.length = h.length := by
  obtain ⟨o, ho, hc⟩ := get_of_count hi
  refine ⟨h.set i { o with count := o.count + 1 }, ?_, ?_, ?_⟩
  · unfold incref
    rw [ho]
    simp only
    rw [if_neg (by omega)]
  · intro x
    rw [count_set ho, plus_apply]
    have h1 := holders_set ho { o with count := o.count + 1 } x
    have h2 := hx x
    simp only at h1
    by_cases hxi : x = i
    · subst hxi
      simp only [if_true]
      omega
    · rw [if_neg hxi, if_neg (by simp; omega)]
      omega
  · simp

theorem incref_error {h : Heap} {i : Nat} (hi : h.count i = 0) : ∃ e, incref i h = .error e := by
  unfold incref Heap.count at *
  cases ho : h[i]? with
  | none => exact ⟨_, rfl⟩
  | some o =>
    rw [ho] at hi
    simp only at hi
    exact ⟨.ub .dangling, by simp only [hi, if_true]⟩

theorem increfAll_ok : ∀ (is : List Nat) (h : Heap) (owned : Owned), Exact h owned →
    (∃ e, increfAll is h = .error e) ∨
    ∃ h', increfAll is h = .ok h' ∧ Exact h' (owned.plusAll (is.map some)) ∧ h'.length = h.length
  | [], h, owned, hx => .inr ⟨h, rfl, by rw [List.map_nil, plusAll_nil]; exact hx, rfl⟩
  | i :: is, h, owned, hx => by
    by_cases hi : h.count i = 0
    · obtain ⟨e, he⟩ := incref_error hi
      left
      exact ⟨e, by rw [increfAll, he]; rfl⟩
    · obtain ⟨h1, e1, x1, l1⟩ := incref_ok hx (i := i) (by omega)
      rcases increfAll_ok is h1 _ x1 with ⟨e, he⟩ | ⟨h2, e2, x2, l2⟩
      · left
        exact ⟨e, by rw [increfAll, e1]; exact he⟩
      · right
        refine ⟨h2, by rw [increfAll, e1]; exact e2, ?_, by omega⟩
        rw [List.map_cons, plusAll_cons, ← plusAll_plus]
        exact x2

theorem drop_ok : ∀ (n : Nat) (is : List Nat) (h : Heap) (owned : Owned),
    (∀ x : Nat, h.count x = holders h x + owned x + is.count x) → h.total ≤ n →
    ∃ h', drop n is h = .ok h' ∧ Exact h' owned ∧ h'.length = h.length
  | n, [], h, owned, hx, _ => by
    refine ⟨h, by cases n <;> rfl, fun x => ?_, rfl⟩
    have := hx x
    simpa using this
  | 0, i :: is, h, owned, hx, hn => by
    have hi : 0 < h.count i := by
      have := hx i
      rw [List.count_cons_self] at this
      omega
    obtain ⟨o, ho, hc⟩ := get_of_count hi
    have := total_set ho ⟨0, []⟩
    simp only at this
    omega
  | n + 1, i :: is, h, owned, hx, hn => by
    have hi : 0 < h.count i := by
      have := hx i
      rw [List.count_cons_self] at this
      omega
    obtain ⟨o, ho, hc⟩ := get_of_count hi
    have hxi := hx i
    rw [List.count_cons_self] at hxi
    by_cases h1 : o.count = 1
    · have ht := total_set ho ⟨0, []⟩
      simp only at ht
      obtain ⟨h', e', x', l'⟩ := drop_ok n (o.holds ++ is) (h.set i ⟨0, []⟩) owned (by
        intro x
        have hs := holders_set ho ⟨0, []⟩ x
        simp only [List.count_nil] at hs
        rw [count_set ho, List.count_append]
        have hxx := hx x
        by_cases hxe : x = i
        · subst hxe
          rw [List.count_cons_self] at hxx
          simp only [if_true]
          omega
        · rw [if_neg hxe]
          rw [List.count_cons_of_ne (by omega)] at hxx
          omega) (by omega)
      refine ⟨h', ?_, x', by rw [l']; simp⟩
      rw [drop, ho]
      simp only
      rw [if_neg (by omega), if_pos h1]
      exact e'
    · have ht := total_set ho { o with count := o.count - 1 }
      simp only at ht
      obtain ⟨h', e', x', l'⟩ := drop_ok n is (h.set i { o with count := o.count - 1 }) owned (by
        intro x
        have hs := holders_set ho { o with count := o.count - 1 } x
        simp only at hs
        rw [count_set ho]
        have hxx := hx x
        by_cases hxe : x = i
        · subst hxe
          rw [List.count_cons_self] at hxx
          simp only [if_true]
          omega
        · rw [if_neg hxe]
          rw [List.count_cons_of_ne (by omega)] at hxx
          omega) (by omega)
      refine ⟨h', ?_, x', by rw [l']; simp⟩
      rw [drop, ho]
      simp only
      rw [if_neg (by omega), if_neg h1]
      exact e'

/-! ## The primitives -/

theorem xdecref_ok {s : State} {owned : Owned} {r : Option Nat} (hx : Exact s.heap (owned.plus r)) :
    ∃ s', xdecref r s = .ok s' ∧ Exact s'.heap owned ∧ s'.err = s.err := by
  cases r with
  | none =>
    rw [plus_none] at hx
    exact ⟨s, rfl, hx, rfl⟩
  | some i =>
    obtain ⟨h', e, x, _⟩ := drop_ok s.heap.total [i] s.heap owned (by
      intro x
      have := hx x
      rw [plus_apply] at this
      by_cases hxi : i = x
      · subst hxi
        simp only [if_true] at this
        rw [List.count_cons_self]
        simp only [List.count_nil]
        omega
      · rw [if_neg (by simpa using hxi)] at this
        rw [List.count_cons_of_ne hxi]
        simp only [List.count_nil]
        omega) (Nat.le_refl _)
    exact ⟨{ s with heap := h' }, by rw [xdecref, e]; rfl, x, rfl⟩

theorem xincref_ok {s : State} {owned : Owned} (hx : Exact s.heap owned) {i : Nat} (hi : 0 < owned i) :
    ∃ s', xincref (some i) s = .ok s' ∧ Exact s'.heap (owned.plus (some i)) ∧ s'.err = s.err := by
  obtain ⟨h', e, x, _⟩ := incref_ok hx (hx.alive hi)
  exact ⟨{ s with heap := h' }, by rw [xincref, e]; rfl, x, rfl⟩

theorem use_ok {s : State} {owned : Owned} (hx : Exact s.heap owned) :
    ∀ {is : List Nat}, Lends owned is → use (is.map some) s = .ok ()
  | [], _ => rfl
  | i :: is, hl => by
    have hi := hx.alive (hl i List.mem_cons_self)
    rw [List.map_cons, use, if_neg (by omega)]
    exact use_ok hx fun j hj => hl j (List.mem_cons_of_mem _ hj)

theorem next_spec (s : State) : s.next.2.heap = s.heap ∧ s.next.2.err = s.err := by
  unfold State.next
  split <;> exact ⟨rfl, rfl⟩

theorem create_ok {s : State} {owned : Owned} (hx : Exact s.heap owned) (holds : List Nat) :
    Exact (s.create holds).2.heap (owned.plus (s.create holds).1) ∧
      (s.create holds).2.err = (s.err || (s.create holds).1.isNone) := by
  rcases increfAll_ok holds s.heap owned hx with ⟨e, he⟩ | ⟨h', e, x, l⟩
  · simp only [State.create, he, raise, Option.isNone_none, Bool.or_true, plus_none]
    exact ⟨hx, trivial⟩
  · simp only [State.create, e, Option.isNone_some, Bool.or_false, and_true]
    intro i
    rw [count_append, holders_append, plus_apply]
    have hi := x i
    have hc : (holds.map some).count (some i) = holds.count i := by
      exact count_map_some holds i
    simp only [Owned.plusAll, hc] at hi
    dsimp only
    by_cases hil : i = h'.length
    · subst hil
      rw [count_out] at hi
      simp only [if_true]
      omega
    · rw [if_neg hil, if_neg (by simp; omega)]
      omega

/-- API functions that return new references. -/
theorem newRef_ok {s : State} {owned : Owned} (hx : Exact s.heap owned) {args : List Nat}
    (hl : Lends owned args) :
    ∃ r s', newRef (args.map some) s = .ok (r, s') ∧ Exact s'.heap (owned.plus r) ∧
      s'.err = (s.err || r.isNone) := by
  obtain ⟨n1, n2⟩ := next_spec s
  unfold newRef
  rw [use_ok hx hl]
  change ∃ r s', (match s.next with
    | (.fails, s) => (.ok (none, raise s) : R (Option Nat × State))
    | (.fresh holds, s) => .ok (s.create holds)
    | (.existing i, s) =>
      match incref i s.heap with
      | .ok h => .ok (some i, { s with heap := h })
      | .error _ => .ok (none, raise s)) = .ok (r, s') ∧ _
  generalize s.next = p at n1 n2
  obtain ⟨a, s1⟩ := p
  simp only at n1 n2
  have hx1 : Exact s1.heap owned := by rw [n1]; exact hx
  cases a with
  | fails =>
    refine ⟨none, raise s1, rfl, ?_, by simp [raise]⟩
    rw [plus_none]
    exact hx1
  | fresh holds =>
    obtain ⟨c1, c2⟩ := create_ok hx1 holds
    exact ⟨(s1.create holds).1, (s1.create holds).2, rfl, c1, by rw [c2, n2]⟩
  | existing i =>
    by_cases hi : s1.heap.count i = 0
    · obtain ⟨e, he⟩ := incref_error hi
      refine ⟨none, raise s1, by simp only [he], ?_, by simp [raise]⟩
      rw [plus_none]
      exact hx1
    · obtain ⟨h', e, x, _⟩ := incref_ok hx1 (i := i) (by omega)
      exact ⟨some i, { s1 with heap := h' }, by simp only [e], x, by simp [n2]⟩

/-- API functions that return a status. -/
theorem status_ok {s : State} {owned : Owned} (hx : Exact s.heap owned) {args : List Nat}
    (hl : Lends owned args) :
    ∃ b s', status (args.map some) s = .ok (b, s') ∧ Exact s'.heap owned ∧
      s'.err = (s.err || !b) := by
  obtain ⟨n1, n2⟩ := next_spec s
  unfold status
  rw [use_ok hx hl]
  change ∃ b s', (match s.next with
    | (.fails, s) => (.ok (false, raise s) : R (Bool × State))
    | (_, s) => .ok (true, s)) = .ok (b, s') ∧ _
  generalize s.next = p at n1 n2
  obtain ⟨a, s1⟩ := p
  simp only at n1 n2
  have hx1 : Exact s1.heap owned := by rw [n1]; exact hx
  cases a with
  | fails => exact ⟨false, raise s1, rfl, hx1, by simp [raise]⟩
  | fresh holds => exact ⟨true, s1, rfl, hx1, by simp [n2]⟩
  | existing i => exact ⟨true, s1, rfl, hx1, by simp [n2]⟩

/-- Storing a reference gives it up. -/
theorem store_ok {s : State} {owned : Owned} {t : Nat} {x : Option Nat} (ht : 0 < owned t)
    (hx : Exact s.heap (owned.plus x)) :
    ∃ s', store (some t) x s = .ok s' ∧ Exact s'.heap owned ∧ s'.err = s.err := by
  have hal := hx.alive (plus_pos ht x)
  obtain ⟨o, ho, hc⟩ := get_of_count hal
  have hu : use [some t] s = .ok () := use_ok hx (is := [t]) (fun i hi => by
    rw [List.mem_singleton] at hi
    subst hi
    exact plus_pos ht x)
  cases x with
  | none =>
    rw [plus_none] at hx
    exact ⟨s, by unfold store; rw [hu]; rfl, hx, rfl⟩
  | some i =>
    refine ⟨{ s with heap := s.heap.set t { o with holds := i :: o.holds } }, ?_, ?_, rfl⟩
    · unfold store
      rw [hu]
      change (match s.heap[t]? with
        | some o => (.ok { s with heap := s.heap.set t { o with holds := i :: o.holds } } : R State)
        | none => .error (.ub .dangling)) = _
      rw [ho]
    · intro y
      have h1 := hx y
      have h2 := holders_set ho { o with holds := i :: o.holds } y
      rw [plus_apply] at h1
      simp only [List.count_cons, beq_iff_eq] at h2
      dsimp only
      rw [count_set ho]
      simp only [Option.some.injEq] at h1
      by_cases hyt : y = t
      · subst hyt
        simp only [if_true]
        omega
      · rw [if_neg hyt]
        omega

/-- `PyModule_AddObject` gives the reference up if it succeeds. -/
theorem addObject_ok {s : State} {owned : Owned} {m i : Nat} (hm : 0 < owned m)
    (hx : Exact s.heap (owned.plus (some i))) :
    ∃ b s', addObject (some m) (some i) s = .ok (b, s') ∧
      Exact s'.heap (if b then owned else owned.plus (some i)) ∧ s'.err = (s.err || !b) := by
  have hu : use [some m] s = .ok () := use_ok hx (is := [m]) (fun j hj => by
    rw [List.mem_singleton] at hj
    subst hj
    exact plus_pos hm _)
  have hu2 : use [some i] s = .ok () := use_ok hx (is := [i]) (fun j hj => by
    rw [List.mem_singleton] at hj
    subst hj
    exact plus_self_pos _ _)
  obtain ⟨n1, n2⟩ := next_spec s
  unfold addObject
  rw [hu]
  change ∃ b s', (do
    use [some i] s
    match s.next with
    | (.fails, s) => (.ok (false, raise s) : R (Bool × State))
    | (_, s) => do
      let s ← store (some m) (some i) s
      .ok (true, s)) = .ok (b, s') ∧ _
  rw [hu2]
  change ∃ b s', (match s.next with
    | (.fails, s) => (.ok (false, raise s) : R (Bool × State))
    | (_, s) => do
      let s ← store (some m) (some i) s
      .ok (true, s)) = .ok (b, s') ∧ _
  generalize s.next = p at n1 n2
  obtain ⟨a, s1⟩ := p
  simp only at n1 n2
  have hx1 : Exact s1.heap (owned.plus (some i)) := by rw [n1]; exact hx
  obtain ⟨s2, e2, x2, r2⟩ := store_ok hm hx1
  cases a with
  | fails => exact ⟨false, raise s1, rfl, hx1, by simp [raise]⟩
  | fresh holds => exact ⟨true, s2, by simp only [e2]; rfl, x2, by simp [n2, r2]⟩
  | existing j => exact ⟨true, s2, by simp only [e2]; rfl, x2, by simp [n2, r2]⟩

theorem dropAll_ok : ∀ (rs : List (Option Nat)) (s : State) (owned : Owned),
    Exact s.heap (owned.plusAll rs) →
    ∃ s', dropAll rs s = .ok s' ∧ Exact s'.heap owned ∧ s'.err = s.err
  | [], s, owned, hx => ⟨s, rfl, by rwa [plusAll_nil] at hx, rfl⟩
  | r :: rs, s, owned, hx => by
    rw [plusAll_cons] at hx
    obtain ⟨s1, e1, x1, r1⟩ := xdecref_ok hx
    obtain ⟨s2, e2, x2, r2⟩ := dropAll_ok rs s1 owned x1
    exact ⟨s2, by rw [dropAll, e1]; exact e2, x2, by rw [r2, r1]⟩

end LvArray.PyRefs

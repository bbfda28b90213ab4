import Verif.ChaiNested
/-!
# C51: arrays of arrays between memory spaces
-/

namespace LvArray.Props

open LvArray.Chai LvArray.Spec

/-- The state of the model and the state of the specification. -/
structure NRep {T : Type} (st : NState T) (a : NEverywhere T) (r : Record (Data Buffer)) : Prop where
  pos : 0 < a.caps.length
  outer : st.heap.outer.get 0 = some r
  outerHolds : OuterHolds a.caps r a.current
  inner : InnerHolds a.caps st.heap.inner a.value a.current a.touched
  length : st.views.length = a.views.length
  view : ∀ (v : Nat) (p : Space) (c : Bool), a.views[v]? = some (p, c) →
    ∃ oc : Bool, st.views[v]? = some (NView.mk (Buffer.mk (some p) a.caps.length (some 0) oc) c) ∧ r.copy p ≠ none

theorem nviewAt_ok {views : List NView} {v : Nat} {b : NView} (h : views[v]? = some b) : nviewAt views v = .ok b := by
  simp [nviewAt, h]

theorem moveNested_none {T : Type} (h : NHeap T) (b : Buffer) (ic : Bool) (n : Nat) (touch : Bool) :
    moveNested h b ic n none touch = .ok (h, b) := by
  obtain ⟨_, _, _ | _, _⟩ := b <;> rfl

theorem append_cases {A : Type} {l : List A} {x y : A} {v : Nat} (h : (l ++ [x])[v]? = some y) : l[v]? = some y ∨ (v = l.length ∧ x = y) := by
  rcases Nat.lt_trichotomy v l.length with hv | hv | hv
  · left; rw [List.getElem?_append_left hv] at h; exact h
  · right; subst hv; simp at h; exact ⟨rfl, h⟩
  · rw [List.getElem?_append_right (by omega), List.getElem?_eq_none (by simp; omega)] at h
    cases h

theorem set_cases {A : Type} {l : List A} {x y : A} {v w : Nat} (h : (l.set w x)[v]? = some y) :
    (v ≠ w ∧ l[v]? = some y) ∨ (v = w ∧ w < l.length ∧ x = y) := by
  by_cases e : v = w
  · right
    subst e
    by_cases hv : v < l.length
    · simp [hv] at h; exact ⟨rfl, hv, h⟩
    · rw [List.getElem?_eq_none (by simp; omega)] at h; cases h
  · left
    rw [List.getElem?_set_ne (Ne.symm e)] at h
    exact ⟨e, h⟩

theorem lt_of_getElem? {A : Type} {l : List A} {v : Nat} {x : A} (h : l[v]? = some x) : v < l.length :=
  (List.getElem?_eq_some_iff.1 h).1

/-- Reading an inner array in the space the data is in. -/
theorem innerAt_ok {T : Type} {st : NState T} {a : NEverywhere T} {r : Record (Data Buffer)} (h : NRep st a r) {i cap : Nat}
    (hc : a.caps[i]? = some cap) (oc : Bool) :
    ∃ p, innerAt st.heap ⟨some a.current, a.caps.length, some 0, oc⟩ a.current i = .ok ⟨p, cap, some i, false⟩ ∧
      (0 < cap → p = some a.current) := by
  obtain ⟨d, hd, hE⟩ := h.outerHolds.copy
  obtain ⟨hi, e⟩ := List.getElem?_eq_some_iff.1 hc
  obtain ⟨p, hp, hp'⟩ := hE i hi
  rw [e] at hp hp'
  refine ⟨p, ?_, hp'⟩
  simp only [innerAt, Chai.read, deref_ok h.outer (b := ⟨some a.current, a.caps.length, some 0, oc⟩) rfl rfl hd, bind_ok, hi, if_true, hp]

/-- One step that keeps the rules. -/
theorem nested_step {T : Type} {st : NState T} {a a' : NEverywhere T} {r : Record (Data Buffer)} (h : NRep st a r) {op : NOp T}
    {out : Option T} (hs : nestedStep true a op = some (a', out)) :
    a'.caps = a.caps ∧ ∃ st' r', nstep a.caps.length st op = .ok (st', out) ∧ NRep st' a' r' := by
  cases op with
  | move v space touch =>
    simp only [nestedStep] at hs
    split at hs
    · cases hs
    · next p hv =>
      cases hs
      obtain ⟨oc, hb, -⟩ := h.view v p.1 p.2 hv
      refine ⟨rfl, st, r, ?_, h⟩
      simp only [nstep, nviewAt_ok hb, bind_ok, moveNested_none]
      rw [show st.views.set v ⟨⟨some p.1, a.caps.length, some 0, oc⟩, p.2⟩ = st.views from ?_]
      obtain ⟨hl, e⟩ := List.getElem?_eq_some_iff.1 hb
      rw [← e, List.set_getElem_self]
    · next p c s hv =>
      split at hs
      · cases hs
      · next hrule =>
        cases hs
        obtain ⟨oc, hb, hp⟩ := h.view v p c hv
        obtain ⟨h', r', e, h1, h2, h3, h4⟩ := moveNested_ok h.pos h.outer h.outerHolds h.inner (oc := oc) hp s
          (fun hh => hrule ⟨trivial, hh⟩) c touch
        refine ⟨rfl, ⟨h', st.views.set v ⟨⟨some s, a.caps.length, some 0, oc⟩, c⟩⟩, r', ?_, h.pos, h1, h2, h3, by simp [h.length],
          fun v' p' c' hv' => ?_⟩
        · simp only [nstep, nviewAt_ok hb, bind_ok, e]
        · rcases set_cases hv' with ⟨e, hv''⟩ | ⟨rfl, hlt, e⟩
          · obtain ⟨oc', hb', hc'⟩ := h.view v' p' c' hv''
            exact ⟨oc', by simpa [List.getElem?_set_ne (Ne.symm e)] using hb', h4 _ hc'⟩
          · cases e
            refine ⟨oc, by simp [h.length, hlt], ?_⟩
            obtain ⟨d, hd, -⟩ := h2.copy
            rw [hd]; exact fun e => by cases e
  | capture v space =>
    simp only [nestedStep] at hs
    split at hs
    · cases hs
    · next p hv =>
      cases hs
      obtain ⟨oc, hb, hc⟩ := h.view v p.1 p.2 hv
      refine ⟨rfl, ⟨st.heap, st.views ++ [⟨⟨some p.1, a.caps.length, some 0, oc⟩, p.2⟩]⟩, r, ?_, h.pos, h.outer, h.outerHolds, h.inner,
        by simp [h.length], fun v' p' c' hv' => ?_⟩
      · simp only [nstep, nviewAt_ok hb, bind_ok, moveNested_none]
      · rcases append_cases hv' with hv'' | ⟨rfl, e⟩
        · obtain ⟨oc', hb', hc'⟩ := h.view v' p' c' hv''
          exact ⟨oc', by rw [List.getElem?_append_left (by rw [h.length]; exact lt_of_getElem? hv'')]; exact hb', hc'⟩
        · subst e
          exact ⟨oc, by simp [← h.length], hc⟩
    · next p c s hv =>
      split at hs
      · cases hs
      · next hrule =>
        cases hs
        obtain ⟨oc, hb, hp⟩ := h.view v p c hv
        obtain ⟨h', r', e, h1, h2, h3, h4⟩ := moveNested_ok h.pos h.outer h.outerHolds h.inner (oc := oc) hp s
          (fun hh => hrule ⟨trivial, hh⟩) c true
        rw [Bool.true_and] at h3
        refine ⟨rfl, ⟨h', st.views ++ [⟨⟨some s, a.caps.length, some 0, oc⟩, c⟩]⟩, r', ?_, h.pos, h1, h2, h3, by simp [h.length],
          fun v' p' c' hv' => ?_⟩
        · simp only [nstep, nviewAt_ok hb, bind_ok, e]
        · rcases append_cases hv' with hv'' | ⟨rfl, e⟩
          · obtain ⟨oc', hb', hc'⟩ := h.view v' p' c' hv''
            exact ⟨oc', by rw [List.getElem?_append_left (by rw [h.length]; exact lt_of_getElem? hv'')]; exact hb', h4 _ hc'⟩
          · cases e
            refine ⟨oc, by simp [← h.length], ?_⟩
            obtain ⟨d, hd, -⟩ := h2.copy
            rw [hd]; exact fun e => by cases e
  | toNestedViewConst v =>
    simp only [nestedStep] at hs
    split at hs
    · cases hs
    · next s c hv =>
      cases hs
      obtain ⟨oc, hb, hc⟩ := h.view v s c hv
      refine ⟨rfl, ⟨st.heap, st.views ++ [⟨⟨some s, a.caps.length, some 0, true⟩, true⟩]⟩, r, ?_, h.pos, h.outer, h.outerHolds, h.inner,
        by simp [h.length], fun v' p' c' hv' => ?_⟩
      · simp only [nstep, nviewAt_ok hb, bind_ok, toConst]
      · rcases append_cases hv' with hv'' | ⟨rfl, e⟩
        · obtain ⟨oc', hb', hc'⟩ := h.view v' p' c' hv''
          exact ⟨oc', by rw [List.getElem?_append_left (by rw [h.length]; exact lt_of_getElem? hv'')]; exact hb', hc'⟩
        · cases e
          exact ⟨true, by simp [← h.length], hc⟩
  | write v s i j x =>
    simp only [nestedStep] at hs
    split at hs
    · next p c cap hv hcap =>
      split at hs
      · next hc =>
        cases hs
        obtain ⟨rfl, rfl, rfl, ht, hj⟩ := hc
        obtain ⟨oc, hb, -⟩ := h.view v _ _ hv
        obtain ⟨q, hq, hq'⟩ := innerAt_ok h hcap oc
        have hpos : 0 < cap := by omega
        have := hq' hpos
        subst this
        obtain ⟨hi, ei⟩ := List.getElem?_eq_some_iff.1 hcap
        obtain ⟨ri, hri, hH⟩ := h.inner i hi (by rw [ei]; exact hpos)
        rw [ht] at hH
        obtain ⟨hw, -⟩ := hH.write (fun j' => if j' = j then some x else a.value i j')
        refine ⟨rfl, ⟨⟨st.heap.outer, st.heap.inner.set i (some { ri with
            copy := put ri.copy a.current (some (fun j' => if j' = j then some x else a.value i j')) })⟩, st.views⟩, r, ?_, h.pos, h.outer,
          h.outerHolds, fun i' hi' hpos' => ?_, h.length, h.view⟩
        · simp only [nstep, nviewAt_ok hb, bind_ok, hq, Chai.write,
            deref_ok hri (b := ⟨some a.current, cap, some i, false⟩) rfl rfl hH.copy, hj, if_true, hri]
        · by_cases e : i' = i
          · subst e
            refine ⟨_, Heap.get_set hri _, ?_⟩
            simp only [ht, true_and]
            exact hw
          · obtain ⟨ri', hri', hH'⟩ := h.inner i' hi' hpos'
            refine ⟨ri', by rw [Heap.get_set_ne _ e]; exact hri', ?_⟩
            simp only [e, false_and, if_false]
            exact hH'
      · cases hs
    · cases hs
  | read v s i j =>
    simp only [nestedStep] at hs
    split at hs
    · next p c cap hv hcap =>
      split at hs
      · next hc =>
        obtain ⟨rfl, rfl, hj⟩ := hc
        split at hs
        · cases hs
        · next x hx =>
          cases hs
          obtain ⟨oc, hb, -⟩ := h.view v _ _ hv
          obtain ⟨q, hq, hq'⟩ := innerAt_ok h hcap oc
          have hpos : 0 < cap := by omega
          have := hq' hpos
          subst this
          obtain ⟨hi, ei⟩ := List.getElem?_eq_some_iff.1 hcap
          obtain ⟨ri, hri, hH⟩ := h.inner i hi (by rw [ei]; exact hpos)
          refine ⟨rfl, st, r, ?_, h⟩
          simp only [nstep, nviewAt_ok hb, bind_ok, hq, Chai.read,
            deref_ok hri (b := ⟨some a.current, cap, some i, false⟩) rfl rfl hH.copy, hj, if_true, hx]
      · cases hs
    · cases hs

theorem nested_run {T : Type} (ops : List (NOp T)) : ∀ {st : NState T} {a a' : NEverywhere T} {r : Record (Data Buffer)},
    NRep st a r → ∀ {outs : List T}, nestedRun true a ops = some (a', outs) →
    ∃ st' r', nrun a.caps.length st ops = .ok (st', outs) ∧ NRep st' a' r' := by
  induction ops with
  | nil =>
    intro st a a' r h outs hs
    cases hs
    exact ⟨st, r, rfl, h⟩
  | cons op ops ih =>
    intro st a a' r h outs hs
    simp only [nestedRun] at hs
    split at hs
    · cases hs
    · next a1 out h1 =>
      split at hs
      · cases hs
      · next a2 outs2 h2 =>
        cases hs
        obtain ⟨hc, st1, r1, e1, hr1⟩ := nested_step h h1
        obtain ⟨st2, r2, e2, hr2⟩ := ih hr1 h2
        refine ⟨st2, r2, ?_, hr2⟩
        rw [hc] at e2
        simp only [nrun, e1, bind_ok, e2]

/-- For every history of an array of arrays and its views in which only the move that changes the space is relied on to touch, and data
on the host is moved to the device through a view that is on the host, no error occurs and every read returns the last value written.
Missing from the full property (`strict = false`): moves within a space that should touch, and moves to the device through other views;
see `C51_touch_lost` and `C51_other_view`. -/
theorem C51_nested_partial {T : Type} (caps : List Nat) (hn : caps ≠ []) (ops : List (NOp T)) (a' : NEverywhere T) (outs : List T)
    (h : nestedRun true (nestedFresh T caps) ops = some (a', outs)) :
    ∃ st', nrun caps.length (nstart caps) ops = .ok (st', outs) := by
  have hpos : 0 < caps.length := List.length_pos_iff.2 hn
  have h0 : NRep (nstart caps) (nestedFresh T caps) ⟨put (fun _ => none) .host (some (fun i => if h : i < caps.length then
      some ⟨some .host, caps[i], some i, false⟩ else none)), put (fun _ => false) .host true, some .host⟩ := by
    refine ⟨hpos, rfl, ⟨rfl, ⟨_, rfl, fun i hi => ⟨some .host, by simp [nestedFresh] at hi ⊢; simp [hi], fun _ => rfl⟩⟩,
      fun s hs => put_ne (fun _ => false) true hs, fun e => by cases e⟩, fun i hi _ => ?_, rfl, fun v p c hv => ?_⟩
    · have hi' : i < caps.length := hi
      refine ⟨⟨put (fun _ => none) .host (some (fun _ => none)), put (fun _ => false) .host true, some .host⟩,
        by simp [nstart, Heap.get, hi'], rfl, rfl, rfl, fun s hs => put_ne (fun _ => false) true hs, fun e => by cases e⟩
    · match v, hv with
      | 0, hv => cases hv; exact ⟨false, rfl, fun e => by cases e⟩
      | v + 1, hv => simp [nestedFresh] at hv
  obtain ⟨st', r', e, -⟩ := nested_run ops h0 h
  exact ⟨st', e⟩

/-- The full property fails: a kernel reads through `toNestedViewConst`, a second kernel on the device writes through a mutable view, and
after moving back to the host the value from before the second kernel is read, because the second capture does not touch the inner
arrays. -/
theorem C51_touch_lost :
    ∃ ops : List (NOp Nat), (nestedRun false (nestedFresh Nat [1]) ops).map Prod.snd = some [5, 7] ∧
      (nrun 1 (nstart [1]) ops).map Prod.snd = .ok [5, 5] :=
  ⟨[.write 0 .host 0 0 5, .toNestedViewConst 0, .capture 1 (some .device), .read 2 .device 0 0, .capture 0 (some .device),
    .write 3 .device 0 0 7, .move 0 (some .host) true, .read 0 .host 0 0], rfl, rfl⟩

/-- The full property fails: an array is moved to the device, a view of it back to the host, and the array to the device again: the host
follows the array's pointer to device memory. -/
theorem C51_other_view :
    ∃ ops : List (NOp Nat), (nestedRun false (nestedFresh Nat [1]) ops).map Prod.snd = some [5] ∧
      (nrun 1 (nstart [1]) ops).map Prod.snd = .error (.ub .dangling) :=
  ⟨[.write 0 .host 0 0 5, .move 0 (some .device) true, .capture 0 none, .move 1 (some .host) true, .move 0 (some .device) true,
    .read 0 .device 0 0], rfl, rfl⟩

/-- A history that keeps the rules: inner arrays (one of them empty) are written on both sides and read through a read-only view. -/
example : (nestedRun true (nestedFresh Nat [2, 0, 1]) [.write 0 .host 0 1 5, .write 0 .host 2 0 6, .capture 0 (some .device),
    .read 1 .device 0 1, .write 1 .device 2 0 8, .toNestedViewConst 0, .capture 2 (some .host), .read 3 .host 2 0,
    .move 0 (some .device) true, .write 0 .device 0 1 9, .move 0 (some .host) true, .read 0 .host 0 1]).map Prod.snd =
    some [5, 8, 9] := rfl

end LvArray.Props

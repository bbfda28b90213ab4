import Verif.ChaiLemmas
/-!
# C38: data follows the array between memory spaces
-/

namespace LvArray.Props

open LvArray.Chai LvArray.Spec

/-- One step that keeps the rules. -/
theorem chai_step {T : Type} {st : State T} {a a' : Everywhere T} {id : Nat} {r : Record (Data T)} (h : Rep st a id r) {op : Op T}
    {out : Option T} (hs : spacesStep a op = some (a', out)) :
    ∃ st' id' r', step st op = .ok (st', out) ∧ Rep st' a' id' r' := by
  cases op with
  | move v space touch =>
    simp only [spacesStep] at hs
    split at hs
    · cases hs
    · next p hv =>
      cases hs
      obtain ⟨hb, -⟩ := h.view v p.1 p.2 hv
      refine ⟨st, id, r, ?_, h⟩
      simp only [step, viewAt_ok hb, bind_ok, move_none]
      rw [show st.views.set v ⟨some p.1, a.cap, some id, p.2⟩ = st.views from ?_]
      obtain ⟨hl, e⟩ := List.getElem?_eq_some_iff.1 hb
      rw [← e, List.set_getElem_self]
    · next p c s hv =>
      cases hs
      obtain ⟨hb, -⟩ := h.view v p c hv
      obtain ⟨hm, hmono⟩ := h.holds.move (fun _ => none) s (!c && touch)
      refine ⟨⟨st.heap.set id (some (moveRecord (fun _ => none) r s (!c && touch))), st.views.set v ⟨some s, a.cap, some id, c⟩⟩, id,
        moveRecord (fun _ => none) r s (!c && touch), ?_, h.pos, Heap.get_set h.heap _, ?_, by simp [h.length], fun v' p' c' hv' => ?_⟩
      · simp only [step, viewAt_ok hb, bind_ok, move_ok _ h.heap (b := ⟨some p, a.cap, some id, c⟩) rfl h.pos]
      · simp only [Bool.and_comm touch]; exact hm
      · rcases view_set hv' with ⟨e, hv''⟩ | ⟨rfl, hlt, e⟩
        · obtain ⟨hb', hc'⟩ := h.view v' p' c' hv''
          exact ⟨by simpa [List.getElem?_set_ne (Ne.symm e)] using hb', hmono _ hc'⟩
        · cases e
          refine ⟨by simp [h.length, hlt], ?_⟩
          rw [hm.copy]; exact fun e => by cases e
  | capture v space =>
    simp only [spacesStep] at hs
    split at hs
    · cases hs
    · next p hv =>
      cases hs
      obtain ⟨hb, hc⟩ := h.view v p.1 p.2 hv
      refine ⟨⟨st.heap, st.views ++ [⟨some p.1, a.cap, some id, p.2⟩]⟩, id, r, ?_, h.pos, h.heap, h.holds, by simp [h.length],
        fun v' p' c' hv' => ?_⟩
      · simp only [step, viewAt_ok hb, bind_ok, copyConstruct, move_none]
      · rcases view_append hv' with hv'' | ⟨rfl, e⟩
        · obtain ⟨hb', hc'⟩ := h.view v' p' c' hv''
          exact ⟨by rw [List.getElem?_append_left (by rw [h.length]; exact view_lt hv'')]; exact hb', hc'⟩
        · subst e
          exact ⟨by simp [← h.length], hc⟩
    · next p c s hv =>
      cases hs
      obtain ⟨hb, -⟩ := h.view v p c hv
      obtain ⟨hm, hmono⟩ := h.holds.move (fun _ => none) s (!c && true)
      refine ⟨⟨st.heap.set id (some (moveRecord (fun _ => none) r s (!c && true))), st.views ++ [⟨some s, a.cap, some id, c⟩]⟩, id,
        moveRecord (fun _ => none) r s (!c && true), ?_, h.pos, Heap.get_set h.heap _, ?_, by simp [h.length], fun v' p' c' hv' => ?_⟩
      · simp only [step, viewAt_ok hb, bind_ok, copyConstruct, move_ok _ h.heap (b := ⟨some p, a.cap, some id, c⟩) rfl h.pos]
      · simp only [Bool.and_true] at hm ⊢; exact hm
      · rcases view_append hv' with hv'' | ⟨rfl, e⟩
        · obtain ⟨hb', hc'⟩ := h.view v' p' c' hv''
          exact ⟨by rw [List.getElem?_append_left (by rw [h.length]; exact view_lt hv'')]; exact hb', hmono _ hc'⟩
        · cases e
          refine ⟨by simp [← h.length], ?_⟩
          rw [hm.copy]; exact fun e => by cases e
  | toViewConst v =>
    simp only [spacesStep] at hs
    split at hs
    · cases hs
    · next s c hv =>
      cases hs
      obtain ⟨hb, hc⟩ := h.view v s c hv
      refine ⟨⟨st.heap, st.views ++ [⟨some s, a.cap, some id, true⟩]⟩, id, r, ?_, h.pos, h.heap, h.holds, by simp [h.length],
        fun v' p' c' hv' => ?_⟩
      · simp only [step, viewAt_ok hb, bind_ok, toConst]
      · rcases view_append hv' with hv'' | ⟨rfl, e⟩
        · obtain ⟨hb', hc'⟩ := h.view v' p' c' hv''
          exact ⟨by rw [List.getElem?_append_left (by rw [h.length]; exact view_lt hv'')]; exact hb', hc'⟩
        · cases e
          exact ⟨by simp [← h.length], hc⟩
  | write v s i x =>
    simp only [spacesStep] at hs
    split at hs
    · cases hs
    · next p c hv =>
      split at hs
      · next hc =>
        cases hs
        obtain ⟨rfl, rfl, rfl, ht, hi⟩ := hc
        obtain ⟨hb, -⟩ := h.view v _ _ hv
        have hh := h.holds
        rw [ht] at hh
        obtain ⟨hw, hmono⟩ := hh.write (fun j => if j = i then some x else a.value j)
        refine ⟨⟨st.heap.set id (some { r with copy := put r.copy a.current (some (fun j => if j = i then some x else a.value j)) }),
          st.views⟩, id, { r with copy := put r.copy a.current (some (fun j => if j = i then some x else a.value j)) }, ?_,
          h.pos, Heap.get_set h.heap _, ?_, h.length, fun v' p' c' hv' => ?_⟩
        · simp only [step, viewAt_ok hb, bind_ok, Chai.write, deref_ok h.heap (b := ⟨some a.current, a.cap, some id, false⟩) rfl rfl hh.copy,
            hi, if_true, h.heap]
        · simp only [ht]; exact hw
        · obtain ⟨hb', hc'⟩ := h.view v' p' c' hv'
          exact ⟨hb', hmono _ hc'⟩
      · cases hs
  | read v s i =>
    simp only [spacesStep] at hs
    split at hs
    · cases hs
    · next p c hv =>
      split at hs
      · next hc =>
        obtain ⟨rfl, rfl, hi⟩ := hc
        split at hs
        · cases hs
        · next x hx =>
          cases hs
          obtain ⟨hb, -⟩ := h.view v _ _ hv
          refine ⟨st, id, r, ?_, h⟩
          simp only [step, viewAt_ok hb, bind_ok, Chai.read, deref_ok h.heap (b := ⟨some a.current, a.cap, some id, c⟩) rfl rfl h.holds.copy,
            hi, if_true, hx]
      · cases hs
  | registerTouch v s =>
    simp only [spacesStep] at hs
    split at hs
    · cases hs
    · next p hv =>
      split at hs
      · next hc =>
        cases hs
        obtain ⟨hb, -⟩ := h.view v p.1 p.2 hv
        have hh := h.holds
        refine ⟨⟨st.heap.set id (some { r with touched := put r.touched s true, last := some s }), st.views⟩, id,
          { r with touched := put r.touched s true, last := some s }, ?_, h.pos, Heap.get_set h.heap _, ?_, h.length, h.view⟩
        · simp only [step, viewAt_ok hb, bind_ok, Chai.registerTouch, h.heap]
        · refine ⟨rfl, ?_, put_same _ _ _, fun s' hs' => ?_, fun e => by cases e⟩
          · rcases hc with rfl | ht
            · exact hh.copy
            · exact hh.same ht s
          · show put r.touched s true s' = false
            rw [put_ne _ _ hs']
            rcases hc with rfl | ht
            · exact hh.other s' hs'
            · by_cases e : s' = a.current
              · rw [e, hh.here, ht]
              · exact hh.other s' e
      · cases hs
  | grow size newCap =>
    simp only [spacesStep] at hs
    split at hs
    · cases hs
    · next p c hv =>
      split at hs
      · next hc =>
        cases hs
        obtain ⟨rfl, hcur, hsz, hpos⟩ := hc
        obtain ⟨hb, -⟩ := h.view 0 _ _ hv
        have hcopy := h.holds.copy
        rw [hcur] at hcopy
        have ho : overlap st.heap ⟨some .host, a.cap, some id, c⟩ size .host newCap =
            .ok (fun i => if i < min newCap size then a.value i else none) := by
          simp only [overlap]
          split
          · rw [if_neg (by simp), deref_ok h.heap (b := ⟨some .host, a.cap, some id, c⟩) rfl rfl hcopy, bind_ok]
          · next hz =>
            have : size = 0 := by omega
            subst this
            simp
        obtain ⟨new, hnew⟩ : ∃ new : Record (Data T), new =
          { copy := put (fun _ => none) .host (some (fun i => if i < min newCap size then a.value i else none)),
            touched := put (fun _ => false) .host true, last := some .host } := ⟨_, rfl⟩
        have hlt := view_lt hv
        refine ⟨⟨st.heap.set id none ++ [some new], st.views.set 0 ⟨some .host, newCap, some st.heap.length, c⟩⟩, st.heap.length, new,
          ?_, hpos, ?_, ?_, by simp [h.length], fun v' p' c' hv' => ?_⟩
        · simp only [step, viewAt_ok hb, bind_ok, reallocate, h.heap, ho, ← hnew]
        · simp [Heap.get]
        · rw [hnew]
          refine ⟨rfl, rfl, rfl, fun s hs => put_ne (fun _ => false) true hs, fun e => by cases e⟩
        · by_cases e : v' = 0
          · subst e
            have : c = c' ∧ p' = .host := by
              simp only [Everywhere.view, List.getElem?_set_self', List.getElem?_replicate, hlt, if_true] at hv'
              simp at hv'
              exact ⟨hv'.2, hv'.1.symm⟩
            obtain ⟨rfl, rfl⟩ := this
            refine ⟨by simp [h.length, hlt], ?_⟩
            rw [hnew]; simp [put]
          · simp only [Everywhere.view] at hv'
            rw [List.getElem?_set_ne (Ne.symm e), List.getElem?_replicate] at hv'
            split at hv' <;> cases hv'
      · cases hs

theorem chai_run {T : Type} (ops : List (Op T)) : ∀ {st : State T} {a a' : Everywhere T} {id : Nat} {r : Record (Data T)},
    Rep st a id r → ∀ {outs : List T}, spacesRun a ops = some (a', outs) →
    ∃ st' id' r', run st ops = .ok (st', outs) ∧ Rep st' a' id' r' := by
  induction ops with
  | nil =>
    intro st a a' id r h outs hs
    cases hs
    exact ⟨st, id, r, rfl, h⟩
  | cons op ops ih =>
    intro st a a' id r h outs hs
    simp only [spacesRun] at hs
    split at hs
    · cases hs
    · next a1 out h1 =>
      split at hs
      · cases hs
      · next a2 outs2 h2 =>
        cases hs
        obtain ⟨st1, id1, r1, e1, hr1⟩ := chai_step h h1
        obtain ⟨st2, id2, r2, e2, hr2⟩ := ih hr1 h2
        refine ⟨st2, id2, r2, ?_, hr2⟩
        simp only [run, e1, bind_ok, e2]

/-- For every history of an array and its views that keeps the documented rules, no error occurs and every read returns the value that
was last written, in whichever space that was. -/
theorem C38_coherent {T : Type} (n : Nat) (hn : 0 < n) (ops : List (Op T)) (a' : Everywhere T) (outs : List T)
    (h : spacesRun (fresh T n) ops = some (a', outs)) :
    ∃ st', (start n >>= fun st => run st ops) = .ok (st', outs) := by
  have h0 : ∃ st id r, start n = .ok st ∧ Rep st (fresh T n) id r := by
    refine ⟨⟨[none, some ⟨put (fun _ => none) .host (some (fun _ => none)), put (fun _ => false) .host true, some .host⟩],
      [⟨some .host, n, some 1, false⟩]⟩, 1, ⟨put (fun _ => none) .host (some (fun _ => none)), put (fun _ => false) .host true, some .host⟩,
      ?_, hn, rfl, ⟨rfl, rfl, rfl, fun s hs => put_ne (fun _ => false) true hs, fun e => by cases e⟩, rfl, fun v p c hv => ?_⟩
    · rfl
    · match v, hv with
      | 0, hv => cases hv; exact ⟨rfl, fun e => by cases e⟩
      | v + 1, hv => simp [Everywhere.view, fresh] at hv
  obtain ⟨st, id, r, e, hr⟩ := h0
  obtain ⟨st', _, _, e', _⟩ := chai_run ops hr h
  exact ⟨st', by rw [e, bind_ok, e']⟩

/-- The rules are needed: a value written after a move that did not touch is lost. -/
theorem C38_untouched_write_lost :
    (start (T := Nat) 1 >>= fun st => run st [.write 0 .host 0 5, .move 0 (some .device) false, .write 0 .device 0 7,
      .move 0 (some .host) true, .read 0 .host 0]).map Prod.snd = .ok [5] := rfl

/-- `registerTouch` makes up for a move that did not touch. -/
theorem C38_registered_write_kept :
    (start (T := Nat) 1 >>= fun st => run st [.write 0 .host 0 5, .move 0 (some .device) false, .registerTouch 0 .device,
      .write 0 .device 0 7, .move 0 (some .host) true, .read 0 .host 0]).map Prod.snd = .ok [7] := rfl

/-- The rules are needed: registering a touch elsewhere while a modification is pending loses the modification. -/
theorem C38_registerTouch_elsewhere_lost :
    (start (T := Nat) 1 >>= fun st => run st [.write 0 .host 0 5, .move 0 (some .device) true, .write 0 .device 0 7,
      .registerTouch 0 .host, .move 0 (some .host) true, .read 0 .host 0]).map Prod.snd = .ok [5] := rfl

/-- The rules are needed: if the array gets a new allocation on the host while its values are on the device, what a kernel wrote is lost. -/
theorem C38_grow_elsewhere_lost :
    (start (T := Nat) 1 >>= fun st => run st [.write 0 .host 0 5, .capture 0 (some .device), .write 1 .device 0 7,
      .grow 1 2, .read 0 .host 0]).map Prod.snd = .ok [5] := rfl

/-- A history that keeps the rules: values are written on both sides, read through a read-only view, and the array grows. -/
example : (spacesRun (fresh Nat 2) [.write 0 .host 0 5, .write 0 .host 1 6, .toViewConst 0, .capture 1 (some .device), .read 2 .device 0,
    .capture 0 (some .device), .write 3 .device 1 8, .move 0 (some .host) true, .read 0 .host 1, .grow 2 4, .write 0 .host 3 9,
    .capture 0 (some .device), .read 4 .device 1, .read 4 .device 3]).map Prod.snd = some [5, 8, 8, 9] := rfl

/-- A history that keeps the rules with `registerTouch`, in the space of the data and, nothing being pending, in the other one. -/
example : (spacesRun (fresh Nat 1) [.write 0 .host 0 5, .toViewConst 0, .move 0 (some .device) false, .registerTouch 0 .device,
    .write 0 .device 0 7, .move 1 (some .host) false, .read 1 .host 0, .registerTouch 0 .device, .write 0 .device 0 8,
    .move 1 (some .host) false, .read 1 .host 0]).map Prod.snd = some [7, 8] := rfl

end LvArray.Props

import Verif.Spec.ChaiCopy
import Verif.ChaiLemmas
/-!
# Lemmas about copies between arrays
-/

namespace LvArray.Chai

open LvArray.Spec

variable {T : Type}

/-- An operation that only reads keeps the allocation and the values. -/
theorem step_onlyReads {st : State T} {a a' : Everywhere T} {id : Nat} {r : Record (Data T)} (h : Rep st a id r) {op : Op T}
    {out : Option T} (ho : onlyReads op = true) (hs : spacesStep a op = some (a', out)) :
    ∃ st', step st op = .ok (st', out) ∧ Rep st' a' id r ∧ a'.value = a.value ∧ a'.current = a.current ∧ a'.touched = a.touched := by
  cases op with
  | read v s i =>
    simp only [spacesStep] at hs
    split at hs
    · cases hs
    · next p c hv =>
      split at hs
      · next hc =>
        obtain ⟨rfl, rfl, hi⟩ := hc
        split at hs
        · cases hs
        · next x hx =>
          cases hs
          obtain ⟨hb, -⟩ := h.view v _ _ hv
          refine ⟨st, ?_, h, rfl, rfl, rfl⟩
          simp only [step, viewAt_ok hb, bind_ok, Chai.read, deref_ok h.heap (b := ⟨some a.current, a.cap, some id, c⟩) rfl rfl h.holds.copy,
            hi, if_true, hx]
      · cases hs
  | toViewConst v =>
    simp only [spacesStep] at hs
    split at hs
    · cases hs
    · next s c hv =>
      cases hs
      obtain ⟨hb, hc⟩ := h.view v s c hv
      refine ⟨⟨st.heap, st.views ++ [⟨some s, a.cap, some id, true⟩]⟩, ?_, ⟨h.pos, h.heap, h.holds, by simp [h.length],
        fun v' p' c' hv' => ?_⟩, rfl, rfl, rfl⟩
      · simp only [step, viewAt_ok hb, bind_ok, toConst]
      · rcases view_append hv' with hv'' | ⟨rfl, e⟩
        · obtain ⟨hb', hc'⟩ := h.view v' p' c' hv''
          exact ⟨by rw [List.getElem?_append_left (by rw [h.length]; exact view_lt hv'')]; exact hb', hc'⟩
        · cases e
          exact ⟨by simp [← h.length], hc⟩
  | move => cases ho
  | capture => cases ho
  | write => cases ho
  | registerTouch => cases ho
  | grow => cases ho

/-- Moving a view to where the data is keeps the allocation. -/
theorem moveToPrevious_ok {st : State T} {a a' : Everywhere T} {id : Nat} {r : Record (Data T)} (h : Rep st a id r) {v : Nat} {touch : Bool}
    {out : Option T} (hs : spacesStep a (.move v (some a.current) touch) = some (a', out)) :
    ∃ st' r', moveToPrevious st v touch = .ok st' ∧ Rep st' a' id r' := by
  simp only [spacesStep] at hs
  split at hs
  · cases hs
  · next he => cases he
  · next p c s hv he =>
    cases hs
    cases he
    obtain ⟨hb, -⟩ := h.view v p c hv
    obtain ⟨hm, hmono⟩ := h.holds.move (fun _ => none) a.current (!c && touch)
    refine ⟨⟨st.heap.set id (some (moveRecord (fun _ => none) r a.current (!c && touch))),
      st.views.set v ⟨some a.current, a.cap, some id, c⟩⟩, moveRecord (fun _ => none) r a.current (!c && touch), ?_, h.pos,
      Heap.get_set h.heap _, ?_, by simp [h.length], fun v' p' c' hv' => ?_⟩
    · simp only [moveToPrevious, previousSpace, viewAt_ok hb, bind_ok, h.heap, h.holds.last, step,
        move_ok _ h.heap (b := ⟨some p, a.cap, some id, c⟩) rfl h.pos]
    · have e : (touch && !c) = (!c && touch) := Bool.and_comm _ _
      show Holds _ a.value a.current ((touch && !c) || (a.touched && decide (a.current = a.current)))
      rw [e]
      exact hm
    · rcases view_set hv' with ⟨e, hv''⟩ | ⟨rfl, hlt, e⟩
      · obtain ⟨hb', hc'⟩ := h.view v' p' c' hv''
        exact ⟨by simpa [List.getElem?_set_ne (Ne.symm e)] using hb', hmono _ hc'⟩
      · cases e
        refine ⟨by simp [h.length, hlt], ?_⟩
        rw [hm.copy]; exact fun e => by cases e

/-- Replacing a value of the array in the touched space. -/
theorem rep_store {st : State T} {a : Everywhere T} {id : Nat} {r : Record (Data T)} (h : Rep st a id r) (ht : a.touched = true) (i : Nat)
    (x : Option T) :
    Rep { st with heap := st.heap.set id (some { r with copy := put r.copy a.current (some (fun k => if k = i then x else a.value k)) }) }
      { a with value := fun k => if k = i then x else a.value k } id
      { r with copy := put r.copy a.current (some (fun k => if k = i then x else a.value k)) } := by
  have hh := h.holds
  rw [ht] at hh
  obtain ⟨hw, hmono⟩ := hh.write (fun j => if j = i then x else a.value j)
  refine ⟨h.pos, Heap.get_set h.heap _, ?_, h.length, fun v' p' c' hv' => ?_⟩
  · simp only [ht]; exact hw
  · obtain ⟨hb', hc'⟩ := h.view v' p' c' hv'
    exact ⟨hb', hmono _ hc'⟩

/-- What is known of a copy that has elements left: `value` are the values in the allocations, `ids` the pointer records. -/
structure Running (arrays : List (Everywhere T)) (value : Nat → Nat → Option T) (ids : Nat → Nat) (t : Transfer) : Prop where
  dst : ∃ x, arrays[t.dst.array]? = some x ∧ t.dst.record = ids t.dst.array ∧ t.dst.space = x.current ∧ x.touched = true ∧
    ∀ j, j ∈ t.todo → value t.src.array (t.src.first + j) = x.value (t.dst.first + j)
  src : ∃ y, arrays[t.src.array]? = some y ∧ t.src.record = ids t.src.array ∧ t.src.space = y.current
  apart : t.dst.array = t.src.array → ∀ j j', j ∈ t.todo → j' ∈ t.todo → t.dst.first + j ≠ t.src.first + j'

/-- The arrays and the specification. -/
structure CopyRep (w : Arrays T) (a : Copied T) (value : Nat → Nat → Option T) (ids : Nat → Nat) : Prop where
  length : w.arrays.length = a.arrays.length
  rep : ∀ (k : Nat) (st : State T) (x : Everywhere T), w.arrays[k]? = some st → a.arrays[k]? = some x →
    ∃ r, Rep st { x with value := value k } (ids k) r
  events : w.copies.length = a.active.length
  running : ∀ (e : Nat) (t : Transfer), w.copies[e]? = some t → t.todo ≠ [] →
    (∃ len, a.active[e]? = some (some (⟨t.dst.array, t.dst.first, len⟩, ⟨t.src.array, t.src.first, len⟩)) ∧ ∀ j, j ∈ t.todo → j < len) ∧
    Running a.arrays value ids t
  values : ∀ (k : Nat) (x : Everywhere T) (i : Nat), a.arrays[k]? = some x → value k i ≠ x.value i →
    ∃ (e : Nat) (t : Transfer), w.copies[e]? = some t ∧ t.dst.array = k ∧ ∃ j, j ∈ t.todo ∧ i = t.dst.first + j
  apart : ∀ (e e' : Nat) (d s d' s' : Range), a.active[e]? = some (some (d, s)) → a.active[e']? = some (some (d', s')) → e ≠ e' →
    d.meets d' = false ∧ d.meets s' = false

/-- Slots of ranges that do not meet. -/
theorem meets_ne {k f n f' n' j j' : Nat} (h : Range.meets ⟨k, f, n⟩ ⟨k, f', n'⟩ = false) (hj : j < n) (hj' : j' < n') : f + j ≠ f' + j' := by
  intro e
  simp [Range.meets] at h
  omega

theorem isDst_of {a : Copied T} {e : Nat} {d s : Range} (h : a.active[e]? = some (some (d, s))) : a.isDst d.array = true := by
  unfold Copied.isDst
  rw [List.any_eq_true]
  exact ⟨some (d, s), List.mem_of_getElem? h, by simp⟩

theorem isSrc_of {a : Copied T} {e : Nat} {d s : Range} (h : a.active[e]? = some (some (d, s))) : a.isSrc s.array = true := by
  unfold Copied.isSrc
  rw [List.any_eq_true]
  exact ⟨some (d, s), List.mem_of_getElem? h, by simp⟩

/-- The values of an array that is not the destination of a copy. -/
theorem CopyRep.quiet {w : Arrays T} {a : Copied T} {value : Nat → Nat → Option T} {ids : Nat → Nat} (h : CopyRep w a value ids) {k : Nat}
    {x : Everywhere T} (hx : a.arrays[k]? = some x) (hk : a.isDst k = false) : value k = x.value := by
  funext i
  refine Classical.byContradiction fun hne => ?_
  obtain ⟨e, t, ht, rfl, j, hj, -⟩ := h.values k x i hx hne
  obtain ⟨⟨len, hact, -⟩, -⟩ := h.running e t ht (List.ne_nil_of_mem hj)
  have := isDst_of hact
  rw [hk] at this
  cases this

theorem CopyRep.at {w : Arrays T} {a : Copied T} {value : Nat → Nat → Option T} {ids : Nat → Nat} (h : CopyRep w a value ids) {k : Nat}
    {x : Everywhere T} (hx : a.arrays[k]? = some x) : ∃ st r, w.arrays[k]? = some st ∧ Rep st { x with value := value k } (ids k) r := by
  have hlt : k < w.arrays.length := by
    rw [h.length]; exact (List.getElem?_eq_some_iff.1 hx).1
  obtain ⟨r, hr⟩ := h.rep k w.arrays[k] x (List.getElem?_eq_getElem hlt) hx
  exact ⟨_, r, List.getElem?_eq_getElem hlt, hr⟩

theorem arrayAt_ok {ws : List (State T)} {k : Nat} {st : State T} (h : ws[k]? = some st) : arrayAt ws k = .ok st := by
  simp [arrayAt, h]

/-- One element of a copy. -/
theorem copyElement_ok {w : Arrays T} {a : Copied T} {value : Nat → Nat → Option T} {ids : Nat → Nat} (h : CopyRep w a value ids)
    {e : Nat} {t : Transfer} (ht : w.copies[e]? = some t) {j : Nat} (hj : j ∈ t.todo) {todo : List Nat}
    (hsub : ∀ i, i ∈ todo → i ∈ t.todo) (hrest : ∀ i, i ∈ t.todo → i ≠ j → i ∈ todo) :
    ∃ ws value', copyElement w.arrays t.dst t.src j = .ok ws ∧
      CopyRep { arrays := ws, copies := w.copies.set e { t with todo := todo } } a value' ids := by
  obtain ⟨⟨len, hact, hlen⟩, ⟨x, hx, hxid, hxs, hxt, hval⟩, ⟨y, hy, hyid, hys⟩, hapart⟩ := h.running e t ht (List.ne_nil_of_mem hj)
  obtain ⟨sd, rd, hsd, hrd⟩ := h.at hx
  obtain ⟨ss, rs, hss, hrs⟩ := h.at hy
  have hload : load w.arrays t.src j = .ok (x.value (t.dst.first + j)) := by
    have h1 := hrs.heap
    have h2 := hrs.holds.copy
    rw [← hyid] at h1
    simp only at h2
    rw [← hys] at h2
    simp only [load, arrayAt_ok hss, bind_ok, h1, h2, hval j hj]
  have hdlt : t.dst.array < w.arrays.length := (List.getElem?_eq_some_iff.1 hsd).1
  have hstore : store w.arrays t.dst j (x.value (t.dst.first + j)) = .ok (w.arrays.set t.dst.array
      { sd with
        heap := sd.heap.set (ids t.dst.array) (some { rd with
          copy := put rd.copy x.current (some (fun k => if k = t.dst.first + j then x.value (t.dst.first + j) else value t.dst.array k)) }) }) := by
    have h1 := hrd.heap
    have h2 := hrd.holds.copy
    simp only at h2
    simp only [store, arrayAt_ok hsd, bind_ok, hxid, h1, hxs, h2]
  have hrep := rep_store hrd hxt (t.dst.first + j) (x.value (t.dst.first + j))
  simp only at hrep
  -- the values in the allocations afterwards
  obtain ⟨value', hv'⟩ : ∃ value' : Nat → Nat → Option T, value' = fun k => if k = t.dst.array then
      (fun i => if i = t.dst.first + j then x.value (t.dst.first + j) else value t.dst.array i) else value k := ⟨_, rfl⟩
  have hv'd : value' t.dst.array = fun i => if i = t.dst.first + j then x.value (t.dst.first + j) else value t.dst.array i := by
    rw [hv']; exact if_pos rfl
  have hv'n : ∀ k, k ≠ t.dst.array → value' k = value k := fun k hk => by rw [hv']; exact if_neg hk
  have helt : e < w.copies.length := (List.getElem?_eq_some_iff.1 ht).1
  have hcopy := hstore
  rw [show store w.arrays t.dst j (x.value (t.dst.first + j)) = copyElement w.arrays t.dst t.src j by
    simp only [copyElement, hload, bind_ok]] at hcopy
  refine ⟨_, value', hcopy, ?_, ?_, ?_, ?_, ?_, h.apart⟩
  · simpa using h.length
  · intro k st z hst hz
    by_cases hk : k = t.dst.array
    · subst hk
      rw [List.getElem?_set_self hdlt] at hst
      rw [hx] at hz
      cases hst
      cases hz
      rw [hv'd]
      exact ⟨_, hrep⟩
    · rw [List.getElem?_set_ne (Ne.symm hk)] at hst
      rw [hv'n k hk]
      exact h.rep k st z hst hz
  · simpa using h.events
  · intro e' t' ht' hne
    by_cases he : e' = e
    · subst he
      rw [List.getElem?_set_self helt] at ht'
      cases ht'
      refine ⟨⟨len, hact, fun i hi => hlen i (hsub i hi)⟩, ⟨x, hx, hxid, hxs, hxt, fun i hi => ?_⟩, ⟨y, hy, hyid, hys⟩, fun e1 i i' hi hi' =>
        hapart e1 i i' (hsub i hi) (hsub i' hi')⟩
      show value' t.src.array (t.src.first + i) = x.value (t.dst.first + i)
      by_cases hds : t.src.array = t.dst.array
      · rw [hds, hv'd]
        dsimp only
        rw [if_neg (fun e2 => hapart hds.symm j i hj (hsub i hi) e2.symm), ← hds]
        exact hval i (hsub i hi)
      · rw [hv'n _ hds]
        exact hval i (hsub i hi)
    · rw [List.getElem?_set_ne (Ne.symm he)] at ht'
      obtain ⟨⟨len', hact', hlen'⟩, ⟨x', hx', hxid', hxs', hxt', hval'⟩, hsrc', hapart'⟩ := h.running e' t' ht' hne
      refine ⟨⟨len', hact', hlen'⟩, ⟨x', hx', hxid', hxs', hxt', fun i hi => ?_⟩, hsrc', hapart'⟩
      have hm := (h.apart e e' _ _ _ _ hact hact' (Ne.symm he)).2
      by_cases hds : t'.src.array = t.dst.array
      · rw [hds] at hm
        rw [hds, hv'd]
        dsimp only
        rw [if_neg (Ne.symm (meets_ne hm (hlen j hj) (hlen' i hi))), ← hds]
        exact hval' i hi
      · rw [hv'n _ hds]
        exact hval' i hi
  · intro k z i hz hne
    by_cases hk : k = t.dst.array
    · subst hk
      rw [hx] at hz
      cases hz
      rw [hv'd] at hne
      dsimp only at hne
      by_cases hi : i = t.dst.first + j
      · rw [if_pos hi, hi] at hne
        exact absurd rfl hne
      · rw [if_neg hi] at hne
        obtain ⟨e', t', ht', hd', j', hj', hij⟩ := h.values _ _ i hx hne
        by_cases hee : e' = e
        · subst hee
          rw [ht] at ht'
          cases ht'
          refine ⟨e', { t with todo := todo }, by rw [List.getElem?_set_self helt], rfl, j', hrest j' hj' ?_, hij⟩
          rintro rfl
          exact hi hij
        · exact ⟨e', t', by rw [List.getElem?_set_ne (Ne.symm hee)]; exact ht', hd', j', hj', hij⟩
    · rw [hv'n k hk] at hne
      obtain ⟨e', t', ht', hd', j', hj', hij⟩ := h.values k z i hz hne
      have hee : e' ≠ e := by
        rintro rfl
        rw [ht] at ht'
        cases ht'
        exact hk hd'.symm
      exact ⟨e', t', by rw [List.getElem?_set_ne (Ne.symm hee)]; exact ht', hd', j', hj', hij⟩

/-- All elements that are left. -/
theorem copyElements_ok : ∀ (todo : List Nat) {ws : List (State T)} {copies : List Transfer} {a : Copied T} {value : Nat → Nat → Option T}
    {ids : Nat → Nat} {e : Nat} {dst src : Place}, CopyRep ⟨ws, copies⟩ a value ids → copies[e]? = some ⟨dst, src, todo⟩ →
    ∃ ws' value', copyElements dst src ws todo = .ok ws' ∧ CopyRep ⟨ws', copies.set e ⟨dst, src, []⟩⟩ a value' ids
  | [], ws, copies, a, value, ids, e, dst, src, h, ht => by
    refine ⟨ws, value, rfl, ?_⟩
    obtain ⟨hlt, he⟩ := List.getElem?_eq_some_iff.1 ht
    have : copies.set e ⟨dst, src, []⟩ = copies := by
      rw [← he, List.set_getElem_self]
    rw [this]
    exact h
  | j :: todo, ws, copies, a, value, ids, e, dst, src, h, ht => by
    obtain ⟨ws1, value1, e1, h1⟩ := copyElement_ok h ht (j := j) (by simp) (todo := todo) (fun i hi => List.mem_cons_of_mem _ hi)
      (fun i hi hne => (List.mem_cons.1 hi).resolve_left hne)
    have hlt : e < copies.length := (List.getElem?_eq_some_iff.1 ht).1
    obtain ⟨ws2, value2, e2, h2⟩ := copyElements_ok todo h1 (e := e) (dst := dst) (src := src)
      (by rw [List.getElem?_set_self hlt])
    refine ⟨ws2, value2, ?_, by simpa using h2⟩
    simp only [copyElements]
    rw [show copyElement ws dst src j = .ok ws1 from e1, bind_ok, e2]

/-- The event of a copy that has no elements left is waited for. -/
theorem CopyRep.waited {w : Arrays T} {a : Copied T} {value : Nat → Nat → Option T} {ids : Nat → Nat} (h : CopyRep w a value ids)
    {e : Nat} {t : Transfer} (ht : w.copies[e]? = some t) (hnil : t.todo = []) :
    CopyRep w { a with active := a.active.set e none } value ids := by
  have hact : ∀ (e' : Nat) (p : Range × Range), (a.active.set e none)[e']? = some (some p) → a.active[e']? = some (some p) := by
    intro e' p hp
    by_cases he : e' = e
    · subst he
      rw [List.getElem?_set] at hp
      simp at hp
    · rwa [List.getElem?_set_ne (Ne.symm he)] at hp
  refine ⟨h.length, h.rep, by simpa using h.events, fun e' t' ht' hne => ?_, h.values, fun e1 e2 d s d' s' h1 h2 hne =>
    h.apart e1 e2 d s d' s' (hact _ _ h1) (hact _ _ h2) hne⟩
  have he : e' ≠ e := by
    rintro rfl
    rw [ht] at ht'
    cases ht'
    exact hne hnil
  obtain ⟨⟨len, h1, h2⟩, h3⟩ := h.running e' t' ht' hne
  exact ⟨⟨len, by rw [List.getElem?_set_ne (Ne.symm he)]; exact h1, h2⟩, h3⟩

/-- A step of an array that no copy uses. -/
theorem CopyRep.replace_quiet {w : Arrays T} {a : Copied T} {value : Nat → Nat → Option T} {ids : Nat → Nat} (h : CopyRep w a value ids)
    {k : Nat} {x x' : Everywhere T} (hx : a.arrays[k]? = some x) (hd : a.isDst k = false) (hs : a.isSrc k = false) {st' : State T} {id' : Nat}
    {r' : Record (Data T)} (hr : Rep st' x' id' r') :
    ∃ value' ids', CopyRep { w with arrays := w.arrays.set k st' } { a with arrays := a.arrays.set k x' } value' ids' := by
  have hlt : k < a.arrays.length := (List.getElem?_eq_some_iff.1 hx).1
  have hltw : k < w.arrays.length := by rw [h.length]; exact hlt
  obtain ⟨value', hv'⟩ : ∃ value' : Nat → Nat → Option T, value' = fun m => if m = k then x'.value else value m := ⟨_, rfl⟩
  obtain ⟨ids', hi'⟩ : ∃ ids' : Nat → Nat, ids' = fun m => if m = k then id' else ids m := ⟨_, rfl⟩
  have hvk : value' k = x'.value := by rw [hv']; exact if_pos rfl
  have hvn : ∀ m, m ≠ k → value' m = value m := fun m hm => by rw [hv']; exact if_neg hm
  have hik : ids' k = id' := by rw [hi']; exact if_pos rfl
  have hin : ∀ m, m ≠ k → ids' m = ids m := fun m hm => by rw [hi']; exact if_neg hm
  refine ⟨value', ids', by simpa using h.length, fun m st z hst hz => ?_, h.events, fun e t ht hne => ?_, fun m z i hz hne => ?_, h.apart⟩
  · by_cases hm : m = k
    · subst hm
      rw [List.getElem?_set_self hltw] at hst
      simp only at hz
      rw [List.getElem?_set_self hlt] at hz
      cases hst
      cases hz
      rw [hvk, hik]
      exact ⟨r', hr⟩
    · rw [List.getElem?_set_ne (Ne.symm hm)] at hst
      simp only at hz
      rw [List.getElem?_set_ne (Ne.symm hm)] at hz
      rw [hvn m hm, hin m hm]
      exact h.rep m st z hst hz
  · obtain ⟨⟨len, hact, hlen⟩, ⟨y, hy, h1, h2, h3, h4⟩, ⟨z, hz, h5, h6⟩, h7⟩ := h.running e t ht hne
    have hdk : t.dst.array ≠ k := by
      intro e'
      have := isDst_of hact
      rw [show (Range.mk t.dst.array t.dst.first len).array = k from e', hd] at this
      cases this
    have hsk : t.src.array ≠ k := by
      intro e'
      have := isSrc_of hact
      rw [show (Range.mk t.src.array t.src.first len).array = k from e', hs] at this
      cases this
    refine ⟨⟨len, hact, hlen⟩, ⟨y, ?_, by rw [hin _ hdk]; exact h1, h2, h3, fun j hj => by rw [hvn _ hsk]; exact h4 j hj⟩,
      ⟨z, ?_, by rw [hin _ hsk]; exact h5, h6⟩, h7⟩
    · show (a.arrays.set k x')[t.dst.array]? = some y
      rw [List.getElem?_set_ne (Ne.symm hdk)]
      exact hy
    · show (a.arrays.set k x')[t.src.array]? = some z
      rw [List.getElem?_set_ne (Ne.symm hsk)]
      exact hz
  · by_cases hm : m = k
    · subst hm
      simp only at hz
      rw [List.getElem?_set_self hlt] at hz
      cases hz
      rw [hvk] at hne
      exact absurd rfl hne
    · simp only at hz
      rw [List.getElem?_set_ne (Ne.symm hm)] at hz
      rw [hvn m hm] at hne
      exact h.values m z i hz hne

/-- A step of an array that keeps its allocation, its values and where they are. -/
theorem CopyRep.replace_same {w : Arrays T} {a : Copied T} {value : Nat → Nat → Option T} {ids : Nat → Nat} (h : CopyRep w a value ids)
    {k : Nat} {x x' : Everywhere T} (hx : a.arrays[k]? = some x) (hv : x'.value = x.value) (hc : x'.current = x.current)
    (ht : x.touched = true → x'.touched = true) {st' : State T} {r' : Record (Data T)}
    (hr : Rep st' { x' with value := value k } (ids k) r') :
    CopyRep { w with arrays := w.arrays.set k st' } { a with arrays := a.arrays.set k x' } value ids := by
  have hlt : k < a.arrays.length := (List.getElem?_eq_some_iff.1 hx).1
  have hltw : k < w.arrays.length := by rw [h.length]; exact hlt
  have hget : ∀ (m : Nat) (y : Everywhere T), a.arrays[m]? = some y → ∃ y', (a.arrays.set k x')[m]? = some y' ∧ y'.value = y.value ∧
      y'.current = y.current ∧ (y.touched = true → y'.touched = true) := by
    intro m y hy
    by_cases hm : m = k
    · subst hm
      rw [hx] at hy
      cases hy
      exact ⟨x', List.getElem?_set_self hlt, hv, hc, ht⟩
    · exact ⟨y, by rw [List.getElem?_set_ne (Ne.symm hm)]; exact hy, rfl, rfl, id⟩
  refine ⟨by simpa using h.length, fun m st z hst hz => ?_, h.events, fun e t hte hne => ?_, fun m z i hz hne => ?_, h.apart⟩
  · by_cases hm : m = k
    · subst hm
      rw [List.getElem?_set_self hltw] at hst
      simp only at hz
      rw [List.getElem?_set_self hlt] at hz
      cases hst
      cases hz
      exact ⟨r', hr⟩
    · rw [List.getElem?_set_ne (Ne.symm hm)] at hst
      simp only at hz
      rw [List.getElem?_set_ne (Ne.symm hm)] at hz
      exact h.rep m st z hst hz
  · obtain ⟨hact, ⟨y, hy, h1, h2, h3, h4⟩, ⟨z, hz, h5, h6⟩, h7⟩ := h.running e t hte hne
    obtain ⟨y', hy', ey1, ey2, ey3⟩ := hget _ _ hy
    obtain ⟨z', hz', ez1, ez2, ez3⟩ := hget _ _ hz
    exact ⟨hact, ⟨y', hy', h1, by rw [ey2]; exact h2, ey3 h3, fun j hj => by rw [ey1]; exact h4 j hj⟩, ⟨z', hz', h5, by rw [ez2]; exact h6⟩, h7⟩
  · by_cases hm : m = k
    · subst hm
      simp only at hz
      rw [List.getElem?_set_self hlt] at hz
      cases hz
      rw [hv] at hne
      exact h.values m x i hx hne
    · simp only at hz
      rw [List.getElem?_set_ne (Ne.symm hm)] at hz
      exact h.values m z i hz hne

/-- What a move to the space of the data does to the specification. -/
theorem move_current {x x' : Everywhere T} {v : Nat} {touch : Bool} {out : Option T}
    (hs : spacesStep x (.move v (some x.current) touch) = some (x', out)) :
    ∃ p c, x.view v = some (p, c) ∧
      x' = { x with touched := (touch && !c) || x.touched, views := x.views.set v (some (x.current, c)) } := by
  simp only [spacesStep] at hs
  split at hs
  · cases hs
  · next he => cases he
  · next p c s hv he =>
    cases he
    cases hs
    exact ⟨p, c, hv, by simp⟩

/-- A view that was moved is where the data is, and stays there when views are moved there. -/
theorem view_current_self {x : Everywhere T} {v : Nat} {p : Space × Bool} (hv : x.view v = some p) (b : Bool) (c : Bool) :
    ({ x with touched := b, views := x.views.set v (some (x.current, c)) } : Everywhere T).view v = some (x.current, c) := by
  simp [Everywhere.view, view_lt hv]

theorem view_current_other {x : Everywhere T} {v w : Nat} {p c c' : _} (hv : x.view v = some (x.current, c)) (hw : x.view w = some (p, c'))
    (b : Bool) :
    ({ x with touched := b, views := x.views.set w (some (x.current, c')) } : Everywhere T).view v = some (x.current, c) := by
  by_cases e : v = w
  · subst e
    rw [hv] at hw
    cases hw
    exact view_current_self hv b c
  · simp only [Everywhere.view]
    rw [List.getElem?_set_ne (Ne.symm e)]
    exact hv

/-- One of the two moves of `memcpy`. -/
theorem moved_ok {w : Arrays T} {a : Copied T} {value : Nat → Nat → Option T} {ids : Nat → Nat} (h : CopyRep w a value ids)
    {k v : Nat} {touch : Bool} {x x' : Everywhere T} {out : Option T} (hx : a.arrays[k]? = some x)
    (hs : spacesStep x (.move v (some x.current) touch) = some (x', out)) :
    ∃ st st', w.arrays[k]? = some st ∧ moveToPrevious st v touch = .ok st' ∧
      CopyRep { w with arrays := w.arrays.set k st' } { a with arrays := a.arrays.set k x' } value ids := by
  obtain ⟨st, r, hst, hr⟩ := h.at hx
  obtain ⟨p, c, hv, hx'⟩ := move_current hs
  have hs' : spacesStep { x with value := value k } (.move v (some ({ x with value := value k } : Everywhere T).current) touch) =
      some ({ x' with value := value k }, out) := by
    simp only [spacesStep] at hs ⊢
    rw [show ({ x with value := value k } : Everywhere T).view v = x.view v from rfl]
    rw [hv] at hs ⊢
    simp only at hs ⊢
    cases hs
    rfl
  obtain ⟨st', r', hm, hr'⟩ := moveToPrevious_ok hr hs'
  refine ⟨st, st', hst, hm, h.replace_same hx ?_ ?_ ?_ hr'⟩
  · rw [hx']
  · rw [hx']
  · intro ht
    rw [hx']
    simp [ht]

/-- `meets` is symmetric. -/
theorem meets_comm (a b : Range) : a.meets b = b.meets a := by
  rw [Bool.eq_iff_iff]
  simp [Range.meets]
  omega

theorem allows_apart {a : Copied T} {d s d' s' : Range} (h : a.allows d s = true) {e : Nat} (he : a.active[e]? = some (some (d', s'))) :
    d.meets d' = false ∧ d.meets s' = false ∧ s.meets d' = false := by
  simp only [Copied.allows, Bool.and_eq_true, List.all_eq_true] at h
  have := h.2 _ (List.mem_of_getElem? he)
  simp only [Bool.and_eq_true, Bool.not_eq_true'] at this
  exact ⟨this.1.1, this.1.2, this.2⟩

theorem allows_self {a : Copied T} {d s : Range} (h : a.allows d s = true) : d.meets s = false := by
  simp only [Copied.allows, Bool.and_eq_true, Bool.not_eq_true'] at h
  exact h.1

/-- A copy is started. -/
theorem started_ok {w : Arrays T} {a : Copied T} {value : Nat → Nat → Option T} {ids : Nat → Nat} (h : CopyRep w a value ids)
    {d s dstFirst srcFirst len : Nat} {x y : Everywhere T} (hx : a.arrays[d]? = some x) (hy : a.arrays[s]? = some y)
    (htouch : x.touched = true) (hallows : a.allows ⟨d, dstFirst, len⟩ ⟨s, srcFirst, len⟩ = true) :
    CopyRep { w with copies := w.copies ++ [⟨⟨d, ids d, x.current, dstFirst⟩, ⟨s, ids s, y.current, srcFirst⟩, List.range len⟩] }
      { arrays := a.arrays.set d { x with value := pasted x.value y.value dstFirst srcFirst len },
        active := a.active ++ [some (⟨d, dstFirst, len⟩, ⟨s, srcFirst, len⟩)] } value ids := by
  have hlt : d < a.arrays.length := (List.getElem?_eq_some_iff.1 hx).1
  have hself := allows_self hallows
  have hin : ∀ j, j < len → pasted x.value y.value dstFirst srcFirst len (dstFirst + j) = y.value (srcFirst + j) := by
    intro j hj
    simp only [pasted]
    rw [if_pos (by omega), show dstFirst + j - dstFirst = j by omega]
  have hget : ∀ (m : Nat) (z : Everywhere T), a.arrays[m]? = some z →
      ∃ z', (a.arrays.set d { x with value := pasted x.value y.value dstFirst srcFirst len })[m]? = some z' ∧
        z'.current = z.current ∧ z'.touched = z.touched ∧
        (∀ i, (m = d → ¬ (dstFirst ≤ i ∧ i < dstFirst + len)) → z'.value i = z.value i) := by
    intro m z hz
    by_cases hm : m = d
    · subst hm
      rw [hx] at hz
      cases hz
      refine ⟨_, List.getElem?_set_self hlt, rfl, rfl, fun i hi => ?_⟩
      simp only [pasted]
      rw [if_neg (hi rfl)]
    · exact ⟨z, by rw [List.getElem?_set_ne (Ne.symm hm)]; exact hz, rfl, rfl, fun _ _ => rfl⟩
  refine ⟨by simpa using h.length, fun m st z hst hz => ?_, by simp [h.events], fun e t hte hne => ?_, fun m z i hz hne => ?_, ?_⟩
  · by_cases hm : m = d
    · subst hm
      simp only at hz
      rw [List.getElem?_set_self hlt] at hz
      cases hz
      obtain ⟨r, hr⟩ := h.rep m st x hst hx
      exact ⟨r, hr⟩
    · simp only at hz
      rw [List.getElem?_set_ne (Ne.symm hm)] at hz
      exact h.rep m st z hst hz
  · rcases Nat.lt_or_ge e w.copies.length with he | he
    · simp only at hte ⊢
      rw [List.getElem?_append_left he] at hte
      rw [List.getElem?_append_left (by rw [← h.events]; exact he)]
      obtain ⟨⟨n, hact, hn⟩, ⟨z, hz, h1, h2, h3, h4⟩, ⟨u, hu, h5, h6⟩, h7⟩ := h.running e t hte hne
      obtain ⟨z', hz', ez1, ez2, ez3⟩ := hget _ _ hz
      obtain ⟨u', hu', eu1, -, -⟩ := hget _ _ hu
      refine ⟨⟨n, hact, hn⟩, ⟨z', hz', h1, by rw [ez1]; exact h2, by rw [ez2]; exact h3, fun j hj => ?_⟩, ⟨u', hu', h5, by rw [eu1]; exact h6⟩, h7⟩
      rw [ez3 _ fun hd hi => ?_]
      · exact h4 j hj
      · have hm := (allows_apart hallows hact).1
        rw [hd] at hm
        have := meets_ne hm (j := t.dst.first + j - dstFirst) (j' := j) (by omega) (hn j hj)
        omega
    · simp only at hte ⊢
      rw [List.getElem?_append_right he] at hte
      rw [List.getElem?_append_right (by rw [← h.events]; exact he), ← h.events]
      obtain ⟨hz, ht⟩ : e - w.copies.length = 0 ∧ t = ⟨⟨d, ids d, x.current, dstFirst⟩, ⟨s, ids s, y.current, srcFirst⟩, List.range len⟩ := by
        obtain ⟨hl, e'⟩ := List.getElem?_eq_some_iff.1 hte
        simp only [List.length_cons, List.length_nil] at hl
        have h0 : e - w.copies.length = 0 := by omega
        simp only [h0, List.getElem_cons_zero] at e'
        exact ⟨h0, e'.symm⟩
      rw [hz, ht]
      obtain ⟨y', hy', ey1, -, -⟩ := hget _ _ hy
      refine ⟨⟨len, rfl, fun j hj => List.mem_range.1 hj⟩, ⟨_, List.getElem?_set_self hlt, rfl, rfl, htouch, fun j hj => ?_⟩,
        ⟨y', hy', rfl, ey1.symm⟩, fun hds j j' hj hj' => ?_⟩
      · have hj' : j < len := List.mem_range.1 hj
        show value s (srcFirst + j) = pasted x.value y.value dstFirst srcFirst len (dstFirst + j)
        rw [hin j hj']
        refine Classical.byContradiction fun hne' => ?_
        obtain ⟨e2, t2, ht2, hd2, j2, hj2, he2⟩ := h.values s y _ hy hne'
        obtain ⟨⟨n, hact, hn⟩, -⟩ := h.running e2 t2 ht2 (List.ne_nil_of_mem hj2)
        have hm := (allows_apart hallows hact).2.2
        rw [hd2] at hm
        exact meets_ne hm hj' (hn _ hj2) he2
      · have : d = s := hds
        rw [this] at hself
        exact meets_ne hself (List.mem_range.1 hj) (List.mem_range.1 hj')
  · have hmem : m < a.arrays.length := by
      have := (List.getElem?_eq_some_iff.1 hz).1
      simpa using this
    obtain ⟨z', hz', -, -, ez⟩ := hget m a.arrays[m] (List.getElem?_eq_getElem hmem)
    simp only at hz
    rw [hz'] at hz
    cases hz
    by_cases hi : m = d ∧ dstFirst ≤ i ∧ i < dstFirst + len
    · refine ⟨w.copies.length, ⟨⟨d, ids d, x.current, dstFirst⟩, ⟨s, ids s, y.current, srcFirst⟩, List.range len⟩, by simp, hi.1.symm,
        i - dstFirst, ?_, ?_⟩
      · rw [List.mem_range]; omega
      · show i = dstFirst + (i - dstFirst); omega
    · rw [ez i fun hm hi' => hi ⟨hm, hi'⟩] at hne
      obtain ⟨e, t, ht, hd, hj⟩ := h.values m _ i (List.getElem?_eq_getElem hmem) hne
      refine ⟨e, t, ?_, hd, hj⟩
      simp only
      rw [List.getElem?_append_left (List.getElem?_eq_some_iff.1 ht).1]
      exact ht
  · intro e e' D S D' S' h1 h2 hne
    simp only at h1 h2
    have key : ∀ (f : Nat) (p : Option (Range × Range)), (a.active ++ [some (⟨d, dstFirst, len⟩, ⟨s, srcFirst, len⟩)])[f]? = some p →
        a.active[f]? = some p ∨ (f = a.active.length ∧ p = some (⟨d, dstFirst, len⟩, ⟨s, srcFirst, len⟩)) := by
      intro f p hf
      rcases Nat.lt_or_ge f a.active.length with hl | hl
      · left
        rwa [List.getElem?_append_left hl] at hf
      · right
        rw [List.getElem?_append_right hl] at hf
        obtain ⟨hl', e'⟩ := List.getElem?_eq_some_iff.1 hf
        simp only [List.length_cons, List.length_nil] at hl'
        have h0 : f - a.active.length = 0 := by omega
        simp only [h0, List.getElem_cons_zero] at e'
        exact ⟨by omega, e'.symm⟩
    rcases key e _ h1 with h1 | ⟨he1, h1⟩ <;> rcases key e' _ h2 with h2 | ⟨he2, h2⟩
    · exact h.apart e e' D S D' S' h1 h2 hne
    · cases h2
      obtain ⟨p1, p2, p3⟩ := allows_apart hallows h1
      exact ⟨by rw [meets_comm]; exact p1, by rw [meets_comm]; exact p3⟩
    · cases h1
      obtain ⟨p1, p2, p3⟩ := allows_apart hallows h2
      exact ⟨p1, p2⟩
    · omega

end LvArray.Chai

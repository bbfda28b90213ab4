import Verif.PlacedLemmas
import Verif.PlacedFrame

/-!
# Histories of a container with several buffers
-/

namespace LvArray.Placed

open Chai (Space Record Heap Buffer put Holds)
open Spec (allParts placedStep placedRun placedStart threadsRun Apart)
open Parallel (Frame Cfgs)

variable {X T V ρ κ η ω ω' : Type}

/-- What the views know about one buffer. -/
def partOf (part : Part) (vs : List (Option (Space × (Part → Bool)))) : List (Option (Space × Bool)) :=
  vs.map (Option.map fun x => (x.1, x.2 part))

theorem partOf_at {part : Part} {vs : List (Option (Space × (Part → Bool)))} {v : Nat} {p : Space} {ro : Part → Bool}
    (h : at_ vs v = some (p, ro)) : at_ (partOf part vs) v = some (p, ro part) :=
  at_map_of (f := fun x : Space × (Part → Bool) => (x.1, x.2 part)) h

/-- What code finds in the entries. -/
def entriesOf (e : Bool) (s : RowStore T V) : Buf V := if e then s.entries else Buf.empty

/-- A store as code finds it: allocations of size zero hold nothing; `e`: the container has entries. -/
def normStore (e : Bool) (s : RowStore T V) : RowStore T V :=
  { shape := ⟨s.shape.numArrays, norm s.shape.offsets, norm s.shape.sizes⟩, values := norm s.values,
    entries := if e then norm s.entries else freshBuf s.values.cap }

/-- The records and views of `st` are those of a container with the contents `s`, which is in the state `a` of the specification. -/
structure RepS (e : Bool) (st : State T V) (a : Spec.Placed ρ) (s : RowStore T V) : Prop where
  offsets : ∃ rec, rec ≠ none ∧ Track st.offsets (st.views.map (·.offsets)) (partOf .offsets a.views) s.shape.offsets a.current
    (a.touched .offsets) rec
  sizes : ∃ rec, rec ≠ none ∧ Track st.sizes (st.views.map (·.sizes)) (partOf .sizes a.views) s.shape.sizes a.current
    (a.touched .sizes) rec
  values : ∃ rec, rec ≠ none ∧ Track st.values (st.views.map (·.values)) (partOf .values a.views) s.values a.current
    (a.touched .values) rec
  entries : ∃ rec, (rec = none ↔ e = false) ∧ Track st.entries (st.views.map (·.entries)) (partOf .entries a.views) (entriesOf e s)
    a.current (a.touched .entries) rec
  dummy : e = false → s.entries = freshBuf s.values.cap
  num : ∀ v x, at_ a.views v = some x → ∃ w, st.views[v]? = some w ∧ w.numArrays = s.shape.numArrays
  owner : ∀ p ro, at_ a.views 0 = some (p, ro) → ∀ part, ro part = false

section part

variable {views : List View} {w w' : View} {vs : List (Option (Space × (Part → Bool)))} {sel : View → Buffer} {part : Part}
  {h : Heap (Buf X)} {value : Buf X} {cur : Space} {touched : Bool} {rec : Option Nat} {v : Nat} {p : Space} {ro : Part → Bool}

theorem sel_at (hw : views[v]? = some w) : (views.map sel)[v]? = some (sel w) := by rw [List.getElem?_map, hw]; rfl

theorem move_part (t : Track h (views.map sel) (partOf part vs) value cur touched rec) (hv : at_ vs v = some (p, ro))
    (hw : views[v]? = some w) (s : Space) (touch : Bool) :
    ∃ ptr h', moveBuf h (sel w) (some s) touch = .ok (h', ⟨ptr, value.cap, rec, ro part⟩) ∧ (0 < value.cap → ptr = some s) ∧
      Track h' (views.map sel) (partOf part vs) value s ((touch && !ro part) || (touched && decide (s = cur))) rec := by
  obtain ⟨b, ptr, h', h1, h2, h3, h4⟩ := t.move (partOf_at hv) s touch
  rw [sel_at hw] at h1
  cases h1
  exact ⟨ptr, h', h2, h3, h4⟩

theorem none_part (t : Track h (views.map sel) (partOf part vs) value cur touched rec) (hv : at_ vs v = some (p, ro))
    (hw : views[v]? = some w) (touch : Bool) :
    ∃ ptr, moveBuf h (sel w) none touch = .ok (h, sel w) ∧ sel w = ⟨ptr, value.cap, rec, ro part⟩ ∧ (0 < value.cap → ptr = some p) := by
  obtain ⟨ptr, h1, h2, h3⟩ := t.moveNone (partOf_at hv) touch
  rw [sel_at hw] at h1
  have h1 := Option.some.inj h1
  exact ⟨ptr, by rw [h1]; exact h2, h1, h3⟩

theorem set_part (t : Track h (views.map sel) (partOf part vs) value cur touched rec) {ptr : Option Space}
    (hp : 0 < value.cap → ptr = some p) (hs : sel w = ⟨ptr, value.cap, rec, ro part⟩) :
    Track h ((views.set v w).map sel) (partOf part (vs.set v (some (p, ro)))) value cur touched rec := by
  rw [List.map_set, partOf, List.map_set, hs]
  exact t.set hp

theorem append_part (t : Track h (views.map sel) (partOf part vs) value cur touched rec) {ptr : Option Space}
    (hp : 0 < value.cap → ptr = some p) (hs : sel w = ⟨ptr, value.cap, rec, ro part⟩) :
    Track h ((views ++ [w]).map sel) (partOf part (vs ++ [some (p, ro)])) value cur touched rec := by
  rw [List.map_append, partOf, List.map_append, List.map_singleton, List.map_singleton, hs]
  exact t.append hp

theorem self_part (t : Track h (views.map sel) (partOf part vs) value cur touched rec) (hv : at_ vs v = some (p, ro))
    (hw : views[v]? = some w) : Track h ((views.set v w).map sel) (partOf part vs) value cur touched rec := by
  obtain ⟨hl, he⟩ := List.getElem?_eq_some_iff.1 hw
  rw [← he, List.set_getElem_self]
  exact t

/-- Code in the space of the data has changed the buffer, if it was allowed to. -/
theorem write_part (t : Track h (views.map sel) (partOf part vs) value cur touched rec) (hv : at_ vs v = some (cur, ro))
    (hw : views[v]? = some w) {x : Buf X} (hc : x.cap = value.cap) {W : Bool} (h1 : W = false → x = value)
    (h2 : W = true → ro part = false ∧ touched = true) :
    ∃ h', writeBack h (sel w) cur x = .ok h' ∧ Track h' (views.map sel) (partOf part vs) (norm x) cur touched rec :=
  t.write (partOf_at hv) (sel_at hw) hc (by
    cases W with
    | true => exact .inl (h2 rfl)
    | false => exact .inr (h1 rfl))

end part

theorem at_set_num {e : Bool} {st : State T V} {a : Spec.Placed ρ} {s : RowStore T V} (r : RepS e st a s) {w : View} {v : Nat}
    {x : Space × (Part → Bool)} (hw : w.numArrays = s.shape.numArrays) :
    ∀ v' x', at_ (a.views.set v (some x)) v' = some x' → ∃ w', (st.views.set v w)[v']? = some w' ∧ w'.numArrays = s.shape.numArrays := by
  obtain ⟨rec, -, t⟩ := r.offsets
  have hl := t.len
  simp only [List.length_map, partOf] at hl
  intro v' x' h
  rcases at_set h with ⟨hne, h⟩ | ⟨rfl, hlt, rfl⟩
  · obtain ⟨w', h1, h2⟩ := r.num v' x' h
    exact ⟨w', by rw [List.getElem?_set_ne (Ne.symm hne)]; exact h1, h2⟩
  · exact ⟨w, List.getElem?_set_self (by omega), hw⟩

theorem at_append_num {e : Bool} {st : State T V} {a : Spec.Placed ρ} {s : RowStore T V} (r : RepS e st a s) {w : View}
    {x : Space × (Part → Bool)} (hw : w.numArrays = s.shape.numArrays) :
    ∀ v' x', at_ (a.views ++ [some x]) v' = some x' → ∃ w', (st.views ++ [w])[v']? = some w' ∧ w'.numArrays = s.shape.numArrays := by
  obtain ⟨rec, -, t⟩ := r.offsets
  have hl := t.len
  simp only [List.length_map, partOf] at hl
  intro v' x' h
  rcases at_append h with h | ⟨rfl, rfl⟩
  · obtain ⟨w', h1, h2⟩ := r.num v' x' h
    have := (List.getElem?_eq_some_iff.1 h1).1
    exact ⟨w', by rw [List.getElem?_append_left this]; exact h1, h2⟩
  · exact ⟨w, by rw [← hl]; simp, hw⟩

theorem owner_append {a : Spec.Placed ρ} {x : Space × (Part → Bool)} {v : Nat} {y : Space × (Part → Bool)} (hv : at_ a.views v = some y)
    (h : ∀ p ro, at_ a.views 0 = some (p, ro) → ∀ part, ro part = false) :
    ∀ p ro, at_ (a.views ++ [some x]) 0 = some (p, ro) → ∀ part, ro part = false := by
  intro p ro h0
  have := at_lt hv
  rcases at_append h0 with h0 | ⟨h1, -⟩
  · exact h p ro h0
  · omega

namespace RepS

variable {e : Bool} {st : State T V} {a : Spec.Placed ρ} {s : RowStore T V} {v : Nat} {p : Space} {ro : Part → Bool}

/-- `move` to a space. -/
theorem move (r : RepS e st a s) (hv : at_ a.views v = some (p, ro)) (sp : Space) (touch : Bool) :
    ∃ w st' w', viewAt st.views v = .ok w ∧ w.move st (some sp) touch = .ok (st', w') ∧
      RepS e { st' with views := st'.views.set v w' }
        { a with current := sp
                 touched := fun part => (touch && !(part = .offsets && sp = .device) && !ro part) || (a.touched part && sp = a.current)
                 views := a.views.set v (some (sp, ro)) } s := by
  obtain ⟨w, hw, hn⟩ := r.num v _ hv
  obtain ⟨ro1, n1, t1⟩ := r.offsets
  obtain ⟨ro2, n2, t2⟩ := r.sizes
  obtain ⟨ro3, n3, t3⟩ := r.values
  obtain ⟨ro4, n4, t4⟩ := r.entries
  obtain ⟨p1, h1, m1, q1, t1⟩ := move_part t1 hv hw sp (if some sp = some Space.device then false else touch)
  obtain ⟨p2, h2, m2, q2, t2⟩ := move_part t2 hv hw sp touch
  obtain ⟨p3, h3, m3, q3, t3⟩ := move_part t3 hv hw sp touch
  obtain ⟨p4, h4, m4, q4, t4⟩ := move_part t4 hv hw sp touch
  have b1 : ((if some sp = some Space.device then false else touch) && !ro .offsets) =
      (touch && !(decide (Part.offsets = .offsets) && decide (sp = .device)) && !ro .offsets) := by
    cases sp <;> simp
  have b2 : ∀ part, part ≠ Part.offsets →
      (touch && !ro part) = (touch && !(decide (part = .offsets) && decide (sp = .device)) && !ro part) := by
    intro part hp
    simp [hp]
  rw [b1] at t1
  rw [b2 _ (by decide)] at t2 t3 t4
  refine ⟨w, _, _, by simp only [viewAt, hw], by simp only [View.move, m1, m2, m3, m4, bind_ok]; rfl, ?_⟩
  refine ⟨⟨ro1, n1, set_part t1 q1 rfl⟩, ⟨ro2, n2, set_part t2 q2 rfl⟩, ⟨ro3, n3, set_part t3 q3 rfl⟩, ⟨ro4, n4, set_part t4 q4 rfl⟩,
    r.dummy, at_set_num r hn, ?_⟩
  · intro p' ro' h0
    rcases at_set h0 with ⟨-, h1⟩ | ⟨h1, -, h2⟩
    · exact r.owner p' ro' h1
    · cases h2
      subst h1
      exact r.owner p ro hv

/-- `move` to no space. -/
theorem moveNone (r : RepS e st a s) (hv : at_ a.views v = some (p, ro)) (touch : Bool) :
    ∃ w, viewAt st.views v = .ok w ∧ w.move st none touch = .ok (st, w) ∧ w.copy st none = .ok (st, w) ∧
      RepS e { st with views := st.views.set v w } a s ∧
      RepS e { st with views := st.views ++ [w] } { a with views := a.views ++ [some (p, ro)] } s := by
  obtain ⟨w, hw, hn⟩ := r.num v _ hv
  obtain ⟨ro1, n1, t1⟩ := r.offsets
  obtain ⟨ro2, n2, t2⟩ := r.sizes
  obtain ⟨ro3, n3, t3⟩ := r.values
  obtain ⟨ro4, n4, t4⟩ := r.entries
  have hmv : ∀ (Y : Type) (h : Heap (Buf Y)) (b : Buffer) (t : Bool), moveBuf h b none t = .ok (h, b) := fun Y h b t => Chai.move_none _ _ _ _
  obtain ⟨p1, -, e1, q1⟩ := none_part t1 hv hw touch
  obtain ⟨p2, -, e2, q2⟩ := none_part t2 hv hw touch
  obtain ⟨p3, -, e3, q3⟩ := none_part t3 hv hw touch
  obtain ⟨p4, -, e4, q4⟩ := none_part t4 hv hw touch
  have hset : st.views.set v w = st.views := by
    obtain ⟨hl, he⟩ := List.getElem?_eq_some_iff.1 hw
    rw [← he, List.set_getElem_self]
  refine ⟨w, by simp only [viewAt, hw], by simp only [View.move, hmv, bind_ok], by simp only [View.copy, hmv, bind_ok],
    by rw [hset]; exact r, ?_⟩
  exact ⟨⟨ro1, n1, append_part t1 q1 e1⟩, ⟨ro2, n2, append_part t2 q2 e2⟩, ⟨ro3, n3, append_part t3 q3 e3⟩,
    ⟨ro4, n4, append_part t4 q4 e4⟩, r.dummy, at_append_num r hn, owner_append hv r.owner⟩

/-- A kernel captures a view. -/
theorem capture (r : RepS e st a s) (hv : at_ a.views v = some (p, ro)) (sp : Space) :
    ∃ w st' w', viewAt st.views v = .ok w ∧ w.copy st (some sp) = .ok (st', w') ∧
      RepS e { st' with views := st'.views ++ [w'] }
        { a with current := sp
                 touched := fun part => !ro part || (a.touched part && sp = a.current)
                 views := a.views ++ [some (sp, ro)] } s := by
  obtain ⟨w, hw, hn⟩ := r.num v _ hv
  obtain ⟨ro1, n1, t1⟩ := r.offsets
  obtain ⟨ro2, n2, t2⟩ := r.sizes
  obtain ⟨ro3, n3, t3⟩ := r.values
  obtain ⟨ro4, n4, t4⟩ := r.entries
  obtain ⟨p1, h1, m1, q1, t1⟩ := move_part t1 hv hw sp true
  obtain ⟨p2, h2, m2, q2, t2⟩ := move_part t2 hv hw sp true
  obtain ⟨p3, h3, m3, q3, t3⟩ := move_part t3 hv hw sp true
  obtain ⟨p4, h4, m4, q4, t4⟩ := move_part t4 hv hw sp true
  simp only [Bool.true_and] at t1 t2 t3 t4
  refine ⟨w, _, _, by simp only [viewAt, hw], by simp only [View.copy, m1, m2, m3, m4, bind_ok]; rfl, ?_⟩
  exact ⟨⟨ro1, n1, append_part t1 q1 rfl⟩, ⟨ro2, n2, append_part t2 q2 rfl⟩, ⟨ro3, n3, append_part t3 q3 rfl⟩,
    ⟨ro4, n4, append_part t4 q4 rfl⟩, r.dummy, at_append_num r hn, owner_append hv r.owner⟩

/-- `toView` and so on. -/
theorem convert (r : RepS e st a s) (hv : at_ a.views v = some (p, ro)) (readOnly : Part → Bool) :
    ∃ w, viewAt st.views v = .ok w ∧
      RepS e { st with views := st.views ++ [w.convert readOnly] }
        { a with views := a.views ++ [some (p, fun part => ro part || readOnly part)] } s := by
  obtain ⟨w, hw, hn⟩ := r.num v _ hv
  obtain ⟨ro1, n1, t1⟩ := r.offsets
  obtain ⟨ro2, n2, t2⟩ := r.sizes
  obtain ⟨ro3, n3, t3⟩ := r.values
  obtain ⟨ro4, n4, t4⟩ := r.entries
  obtain ⟨p1, -, e1, q1⟩ := none_part t1 hv hw true
  obtain ⟨p2, -, e2, q2⟩ := none_part t2 hv hw true
  obtain ⟨p3, -, e3, q3⟩ := none_part t3 hv hw true
  obtain ⟨p4, -, e4, q4⟩ := none_part t4 hv hw true
  refine ⟨w, by simp only [viewAt, hw], ?_⟩
  exact ⟨⟨ro1, n1, append_part t1 q1 (by simp only [View.convert, convertBuf, e1])⟩,
    ⟨ro2, n2, append_part t2 q2 (by simp only [View.convert, convertBuf, e2])⟩,
    ⟨ro3, n3, append_part t3 q3 (by simp only [View.convert, convertBuf, e3])⟩,
    ⟨ro4, n4, append_part t4 q4 (by simp only [View.convert, convertBuf, e4])⟩, r.dummy, at_append_num r hn, owner_append hv r.owner⟩

/-- What code in the space of the data sees. -/
theorem store (r : RepS e st a s) (hv : at_ a.views v = some (a.current, ro)) :
    ∃ w, viewAt st.views v = .ok w ∧ st.views[v]? = some w ∧ w.store st a.current = .ok s := by
  obtain ⟨w, hw, hn⟩ := r.num v _ hv
  obtain ⟨ro1, n1, t1⟩ := r.offsets
  obtain ⟨ro2, n2, t2⟩ := r.sizes
  obtain ⟨ro3, n3, t3⟩ := r.values
  obtain ⟨ro4, n4, t4⟩ := r.entries
  have c1 := t1.content (partOf_at hv) (sel_at hw)
  have c2 := t2.content (partOf_at hv) (sel_at hw)
  have c3 := t3.content (partOf_at hv) (sel_at hw)
  have c4 := t4.content (partOf_at hv) (sel_at hw)
  obtain ⟨p4, -, e4, -⟩ := none_part t4 hv hw true
  refine ⟨w, by simp only [viewAt, hw], hw, ?_⟩
  have hent : w.entriesIn st a.current s.values.cap = .ok s.entries := by
    unfold View.entriesIn
    cases he : e with
    | false =>
      rw [if_pos (by rw [e4]; exact n4.2 he), r.dummy he]
    | true =>
      have hne : w.entries.record ≠ none := by
        rw [e4]
        intro h0
        rw [n4.1 h0] at he
        cases he
      rw [if_neg hne, c4, entriesOf, he, if_pos rfl]
  simp only [View.store, c1, c2, c3, hent, bind_ok, hn]

/-- A kernel has changed the buffers it was allowed to change. -/
theorem written (r : RepS e st a s) (hv : at_ a.views v = some (a.current, ro)) {w : View} (hw : st.views[v]? = some w)
    {s' : RowStore T V} {W : Part → Bool} (f : Frame (fun part => W part || (!e && decide (part = .entries))) s s')
    (hW : ∀ part, W part = true → ro part = false ∧ a.touched part = true) (rows : List ρ) :
    ∃ h2 h3 h4, writeBack st.sizes w.sizes a.current s'.shape.sizes = .ok h2 ∧ writeBack st.values w.values a.current s'.values = .ok h3 ∧
      writeBack st.entries w.entries a.current s'.entries = .ok h4 ∧
      RepS e { st with sizes := h2, values := h3, entries := h4 } { a with rows := rows } (normStore e s') := by
  obtain ⟨ro1, n1, t1⟩ := r.offsets
  obtain ⟨ro2, n2, t2⟩ := r.sizes
  obtain ⟨ro3, n3, t3⟩ := r.values
  obtain ⟨ro4, n4, t4⟩ := r.entries
  obtain ⟨h2, w2, t2⟩ := write_part t2 hv hw f.sizesCap (W := W .sizes) (fun h => f.sizes (by simp [h])) (hW _)
  obtain ⟨h3, w3, t3⟩ := write_part t3 hv hw f.valuesCap (W := W .values) (fun h => f.values (by simp [h])) (hW _)
  have hent : ∃ h4, writeBack st.entries w.entries a.current s'.entries = .ok h4 ∧
      Track h4 (st.views.map (·.entries)) (partOf .entries a.views) (entriesOf e (normStore e s')) a.current (a.touched .entries) ro4 := by
    cases he : e with
    | false =>
      subst he
      obtain ⟨p4, -, e4, -⟩ := none_part t4 hv hw true
      refine ⟨st.entries, ?_, t4⟩
      unfold writeBack
      rw [if_pos (Or.inl (by rw [e4]; rfl))]
    | true =>
      subst he
      exact write_part t4 hv hw f.entriesCap (W := W .entries) (fun h => f.entries (by simp [h])) (hW _)
  obtain ⟨h4, w4, t4⟩ := hent
  refine ⟨h2, h3, h4, w2, w3, w4, ⟨ro1, n1, ?_⟩, ⟨ro2, n2, t2⟩, ⟨ro3, n3, t3⟩, ⟨ro4, n4, t4⟩, fun he => ?_, fun v' x hx => ?_, r.owner⟩
  · have : norm s'.shape.offsets = s.shape.offsets := by
      rw [f.offsets]
      by_cases hz : s.shape.offsets.cap = 0
      · rw [t1.zero hz]; rfl
      · exact norm_of_pos hz
    show Track _ _ _ (norm s'.shape.offsets) _ _ _
    rw [this]
    exact t1
  · simp [normStore, he, norm_cap]
  · obtain ⟨w', h5, h6⟩ := r.num v' x hx
    exact ⟨w', h5, by rw [h6]; exact f.num.symm⟩

/-- The container has been changed on the host. -/
theorem replaced (r : RepS e st a s) (hv : at_ a.views 0 = some (.host, ro)) (hc : a.current = .host)
    (ht : ∀ part, a.touched part = true) {w : View} (hw : st.views[0]? = some w) (again : Part → Bool) (s' : RowStore T V)
    (rows : List ρ) :
    ∃ h1 h2 h3 h4 b1 b2 b3 b4, replace st.offsets w.offsets (again .offsets) s'.shape.offsets = .ok (h1, b1) ∧
      replace st.sizes w.sizes (again .sizes) s'.shape.sizes = .ok (h2, b2) ∧
      replace st.values w.values (again .values) s'.values = .ok (h3, b3) ∧
      replace st.entries w.entries (again .entries) s'.entries = .ok (h4, b4) ∧
      RepS e { offsets := h1, sizes := h2, values := h3, entries := h4, views := st.views.set 0 ⟨s'.shape.numArrays, b1, b2, b3, b4⟩ }
        { a with rows := rows, views := (List.replicate a.views.length none).set 0 (some (.host, ro)) } (normStore e s') := by
  obtain ⟨ro1, n1, t1⟩ := r.offsets
  obtain ⟨ro2, n2, t2⟩ := r.sizes
  obtain ⟨ro3, n3, t3⟩ := r.values
  obtain ⟨ro4, n4, t4⟩ := r.entries
  have hro := r.owner _ _ hv
  rw [hc, ht] at t1 t2 t3 t4
  have hat : ∀ part, at_ (partOf part a.views) 0 = some (.host, false) := fun part => by rw [partOf_at hv, hro part]
  have hpart : ∀ part, partOf part ((List.replicate a.views.length none).set 0 (some (.host, ro))) =
      (List.replicate (partOf part a.views).length none).set 0 (some (.host, false)) := by
    intro part
    simp [partOf, List.map_set, hro part]
  obtain ⟨h1, b1, r1, n1, e1, t1⟩ := t1.replace (hat _) n1 (sel_at hw) (again .offsets) s'.shape.offsets
  obtain ⟨h2, b2, r2, n2, e2, t2⟩ := t2.replace (hat _) n2 (sel_at hw) (again .sizes) s'.shape.sizes
  obtain ⟨h3, b3, r3, n3, e3, t3⟩ := t3.replace (hat _) n3 (sel_at hw) (again .values) s'.values
  have hent : ∃ h4 b4 r4, (r4 = none ↔ e = false) ∧ replace st.entries w.entries (again .entries) s'.entries = .ok (h4, b4) ∧
      Track h4 ((st.views.map (·.entries)).set 0 b4) ((List.replicate (partOf .entries a.views).length none).set 0 (some (.host, false)))
        (entriesOf e (normStore e s')) .host true r4 := by
    cases he : e with
    | false =>
      subst he
      have : ro4 = none := n4.2 rfl
      subst this
      obtain ⟨e4, t4⟩ := Track.absent t4 (hat _) (sel_at hw) (again .entries) s'.entries
      exact ⟨_, _, none, by simp, e4, t4⟩
    | true =>
      subst he
      obtain ⟨h4, b4, r4, n4, e4, t4⟩ := t4.replace (hat _) (fun h => by cases n4.1 h) (sel_at hw) (again .entries) s'.entries
      exact ⟨h4, b4, r4, by simp [n4], e4, t4⟩
  obtain ⟨h4, b4, r4, n4, e4, t4⟩ := hent
  refine ⟨h1, h2, h3, h4, b1, b2, b3, b4, e1, e2, e3, e4, ⟨r1, n1, ?_⟩, ⟨r2, n2, ?_⟩, ⟨r3, n3, ?_⟩, ⟨r4, n4, ?_⟩, fun he => ?_,
    fun v' x hx => ?_, fun p' ro' h0 => ?_⟩
  · simp only [hpart, hc, ht, List.map_set]; exact t1
  · simp only [hpart, hc, ht, List.map_set]; exact t2
  · simp only [hpart, hc, ht, List.map_set]; exact t3
  · simp only [hpart, hc, ht, List.map_set]; exact t4
  · simp [normStore, he, norm_cap]
  · rcases at_set hx with ⟨_, hx⟩ | ⟨rfl, _, _⟩
    · simp only [at_, List.getElem?_replicate] at hx
      split at hx <;> cases hx
    · exact ⟨_, List.getElem?_set_self (List.getElem?_eq_some_iff.1 hw).1, rfl⟩
  · rcases at_set h0 with ⟨_, h1⟩ | ⟨_, _, h2⟩
    · simp only [at_, List.getElem?_replicate] at h1
      split at h1 <;> cases h1
    · cases h2
      exact hro

/-- A container on the host. -/
theorem start (e : Bool) (s : RowStore T V) (rows : List ρ) : RepS e (Placed.start s e) (placedStart rows) (normStore e s) := by
  refine ⟨⟨some 0, by simp, Track.start _⟩, ⟨some 0, by simp, Track.start _⟩, ⟨some 0, by simp, Track.start _⟩, ?_, fun he => ?_,
    fun v x hx => ?_, fun p ro h0 => ?_⟩
  · cases e with
    | false => exact ⟨none, by simp, Track.startAbsent⟩
    | true => exact ⟨some 0, by simp, Track.start _⟩
  · simp [normStore, he, norm_cap]
  · match v, hx with
    | 0, _ => exact ⟨_, rfl, rfl⟩
    | v + 1, hx => simp [placedStart, at_] at hx
  · cases h0
    exact fun _ => rfl

end RepS

/-- What a container has to guarantee: `Good s rows` says that `s` has the contents `rows`, `Ok` which calls of the container are
considered. -/
structure Sound (e : Bool) (cs : Cfgs) (code : κ → Parallel.Code T V ω) (own : η → RowStore T V → R (RowStore T V × ω'))
    (step : κ → ρ → Option (ρ × ω)) (writes : κ → Part → Bool) (ownS : η → List ρ → Option (List ρ × ω'))
    (Good : RowStore T V → List ρ → Prop) (Ok : η → Prop) : Prop where
  norm : ∀ s rows, Good s rows → Good (normStore e s) rows
  kernel : ∀ s rows rows' work outs, Good s rows → (e = false → s.entries = freshBuf s.values.cap) → Apart work →
    threadsRun step rows work = some (rows', outs) → ∀ sched, ∃ s' ts,
      interleave (Parallel.Prog.turn cs) s (Parallel.threads code work) sched = .ok (s', ts) ∧
      ∀ ys, ts = ys.map .ret → ys = outs ∧ Good s' rows'
  within : ∀ call, (code call).Within fun part => writes call part || (!e && decide (part = .entries))
  own : ∀ s rows op rows' out, Good s rows → (e = false → s.entries = freshBuf s.values.cap) → Ok op →
    ownS op rows = some (rows', out) → ∃ s', own op s = .ok (s', out) ∧ Good s' rows'

/-- No row is used by two threads of a kernel, and only the considered calls are made. -/
def OpOk (Ok : η → Prop) : Op κ η → Prop
  | .kernel _ _ work _ => Apart work
  | .own op _ => Ok op
  | _ => True

section run

variable {e : Bool} {cs : Cfgs} {code : κ → Parallel.Code T V ω} {own : η → RowStore T V → R (RowStore T V × ω')}
  {step : κ → ρ → Option (ρ × ω)} {writes : κ → Part → Bool} {ownS : η → List ρ → Option (List ρ × ω')}
  {Good : RowStore T V → List ρ → Prop} {Ok : η → Prop}

theorem kernel_ok (H : Sound e cs code own step writes ownS Good Ok) {st : State T V} {a : Spec.Placed ρ} {s : RowStore T V}
    (r : RepS e st a s) (hg : Good s a.rows) {v : Nat} {ro : Part → Bool} (hv : at_ a.views v = some (a.current, ro))
    {work : List (List (Nat × κ))} (hap : Apart work)
    (hw : ∀ calls ∈ work, ∀ q ∈ calls, ∀ part ∈ allParts, writes q.2 part = true → ro part = false ∧ a.touched part = true)
    {rows' : List ρ} {outs : List (List ω)} (hr : threadsRun step a.rows work = some (rows', outs)) (sched : List Nat) :
    ∃ w st' s', viewAt st.views v = .ok w ∧ w.kernel cs code st a.current work sched = .ok (st', outs) ∧
      RepS e st' { a with rows := rows' } s' ∧ Good s' rows' := by
  obtain ⟨w, h1, h2, h3⟩ := r.store hv
  have hk := H.kernel s a.rows rows' work outs hg r.dummy hap hr
  obtain ⟨sched', s', ys, h4, h5⟩ := Parallel.execute_ok (c := cs) (code := code) (s := s) (work := work)
    (fun sched => (hk sched).elim fun s' h => h.elim fun ts h => ⟨_, h.1⟩) sched
  obtain ⟨s1, ts1, h6, h7⟩ := hk sched'
  rw [h5] at h6
  cases h6
  obtain ⟨rfl, h8⟩ := h7 ys rfl
  have hall : ∀ part : Part, part ∈ allParts := by intro part; cases part <;> decide
  obtain ⟨b2, b3, b4, w2, w3, w4, r'⟩ := r.written hv h2 (W := fun part => work.any fun calls => calls.any fun q => writes q.2 part)
    (Parallel.interleave_frame (Parallel.threads_within fun calls hc q hq => (H.within q.2).mono fun part hp => by
      rcases Bool.or_eq_true _ _ ▸ hp with hp | hp
      · rw [Bool.or_eq_true]
        exact .inl (List.any_eq_true.2 ⟨calls, hc, List.any_eq_true.2 ⟨q, hq, hp⟩⟩)
      · rw [Bool.or_eq_true]
        exact .inr hp) h5)
    (fun part hp => by
      obtain ⟨calls, hc, hp⟩ := List.any_eq_true.1 hp
      obtain ⟨q, hq, hp⟩ := List.any_eq_true.1 hp
      exact hw calls hc q hq part (hall part) hp) rows'
  exact ⟨w, _, _, h1, by simp only [View.kernel, h3, bind_ok, h4, w2, w3, w4], r', H.norm _ _ h8⟩

theorem own_ok (H : Sound e cs code own step writes ownS Good Ok) {st : State T V} {a : Spec.Placed ρ} {s : RowStore T V}
    (r : RepS e st a s) (hg : Good s a.rows) {ro : Part → Bool} (hv : at_ a.views 0 = some (.host, ro)) (hc : a.current = .host)
    (ht : ∀ part ∈ allParts, a.touched part = true) {op : η} (hok : Ok op) {rows' : List ρ} {out : ω'}
    (hr : ownS op a.rows = some (rows', out)) (again : Part → Bool) :
    ∃ w st' w' s', viewAt st.views 0 = .ok w ∧ w.own (own op) st again = .ok (st', w', out) ∧
      RepS e { st' with views := st'.views.set 0 w' }
        { a with rows := rows', views := (List.replicate a.views.length none).set 0 (some (.host, ro)) } s' ∧ Good s' rows' := by
  have hv' : at_ a.views 0 = some (a.current, ro) := by rw [hc]; exact hv
  obtain ⟨w, h1, h2, h3⟩ := r.store hv'
  rw [hc] at h3
  obtain ⟨s', h4, h5⟩ := H.own s a.rows op rows' out hg r.dummy hok hr
  have hall : ∀ part : Part, part ∈ allParts := by intro part; cases part <;> decide
  obtain ⟨g1, g2, g3, g4, b1, b2, b3, b4, e1, e2, e3, e4, r'⟩ := r.replaced hv hc (fun part => ht part (hall part)) h2 again s' rows'
  exact ⟨w, _, _, _, h1, by simp only [View.own, h3, bind_ok, h4, e1, e2, e3, e4]; rfl, r', H.norm _ _ h5⟩

/-- One operation. -/
theorem step_ok (H : Sound e cs code own step writes ownS Good Ok) {st : State T V} {a a' : Spec.Placed ρ} {s : RowStore T V}
    (r : RepS e st a s) (hg : Good s a.rows) {op : Op κ η} (hok : OpOk Ok op) {out : Out ω ω'}
    (hs : placedStep step writes ownS a op = some (a', out)) :
    ∃ st' s', Placed.step cs code own st op = .ok (st', out) ∧ RepS e st' a' s' ∧ Good s' a'.rows := by
  cases op with
  | move v space touch =>
    simp only [placedStep] at hs
    split at hs
    · cases hs
    · next hv =>
      cases hs
      obtain ⟨w, h1, h2, -, h3, -⟩ := r.moveNone hv touch
      exact ⟨_, s, by simp only [Placed.step, h1, h2, bind_ok], h3, hg⟩
    · next hv =>
      cases hs
      obtain ⟨w, st', w', h1, h2, h3⟩ := r.move hv _ touch
      exact ⟨_, s, by simp only [Placed.step, h1, h2, bind_ok], h3, hg⟩
  | capture v space =>
    simp only [placedStep] at hs
    split at hs
    · cases hs
    split at hs
    · cases hs
    · next hv =>
      cases hs
      obtain ⟨w, h1, -, h2, -, h3⟩ := r.moveNone hv true
      exact ⟨_, s, by simp only [Placed.step, h1, h2, bind_ok], h3, hg⟩
    · next hv =>
      cases hs
      obtain ⟨w, st', w', h1, h2, h3⟩ := r.capture hv _
      exact ⟨_, s, by simp only [Placed.step, h1, h2, bind_ok], h3, hg⟩
  | convert v readOnly =>
    simp only [placedStep] at hs
    split at hs
    · cases hs
    · next hv =>
      cases hs
      obtain ⟨w, h1, h3⟩ := r.convert hv readOnly
      exact ⟨_, s, by simp only [Placed.step, h1, bind_ok], h3, hg⟩
  | kernel v sp work sched =>
    simp only [placedStep] at hs
    split at hs
    · cases hs
    · next p ro hv =>
      split at hs
      · next hc =>
        obtain ⟨rfl, rfl, hw⟩ := hc
        obtain ⟨⟨rows', outs⟩, hr, e⟩ := Option.map_eq_some_iff.1 hs
        cases e
        obtain ⟨w, st', s', h1, h2, h3, h4⟩ := kernel_ok H r hg hv hok hw hr sched
        exact ⟨st', s', by simp only [Placed.step, h1, h2, bind_ok], h3, h4⟩
      · cases hs
  | own op again =>
    simp only [placedStep] at hs
    split at hs
    · cases hs
    · next p ro hv =>
      split at hs
      · next hc =>
        obtain ⟨rfl, hc, ht⟩ := hc
        obtain ⟨⟨rows', out⟩, hr, e⟩ := Option.map_eq_some_iff.1 hs
        cases e
        obtain ⟨w, st', w', s', h1, h2, h3, h4⟩ := own_ok H r hg hv hc ht hok hr again
        exact ⟨_, s', by simp only [Placed.step, h1, h2, bind_ok], h3, h4⟩
      · cases hs

/-- A history that keeps the rules. -/
theorem run_ok (H : Sound e cs code own step writes ownS Good Ok) (ops : List (Op κ η)) {st : State T V} {a a' : Spec.Placed ρ}
    {s : RowStore T V} (r : RepS e st a s) (hg : Good s a.rows) (hok : ∀ op ∈ ops, OpOk Ok op) {outs : List (Out ω ω')}
    (hs : placedRun step writes ownS a ops = some (a', outs)) :
    ∃ st' s', Placed.run cs code own st ops = .ok (st', outs) ∧ RepS e st' a' s' ∧ Good s' a'.rows := by
  induction ops generalizing st a s outs with
  | nil => cases hs; exact ⟨st, s, rfl, r, hg⟩
  | cons op ops ih =>
    simp only [placedRun] at hs
    split at hs
    · cases hs
    · next a1 out h1 =>
      split at hs
      · cases hs
      · next a2 outs2 h2 =>
        cases hs
        obtain ⟨st1, s1, h3, r1, g1⟩ := step_ok H r hg (hok op (by simp)) h1
        obtain ⟨st2, s2, h4, r2, g2⟩ := ih r1 g1 (fun op' h => hok op' (by simp [h])) h2
        exact ⟨st2, s2, by simp only [Placed.run, h3, h4, bind_ok], r2, g2⟩

end run

end LvArray.Placed

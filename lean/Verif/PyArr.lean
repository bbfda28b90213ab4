import Verif.PyRows
import Verif.Props.ArrayResize

/-!
# `pylvarray.Array` refines boxes of values
-/

namespace LvArray.Python

open Spec Props

variable {T : Type} {c : Cfg}

theorem inside_iff (dims : List Nat) (idx : List Int) : inside dims idx = true ↔ InBounds dims idx := by
  induction dims generalizing idx with
  | nil => cases idx <;> simp [inside, InBounds]
  | cons d ds ih => cases idx <;> simp [inside, InBounds, ih, and_assoc]

theorem offset_eq (strides : List Nat) (idx : List Int) (h : ∀ i ∈ idx, 0 ≤ i) :
    (offset strides idx : Int) = (List.zipWith (fun (i : Int) (s : Nat) => i * s) idx strides).sum := by
  induction strides generalizing idx with
  | nil => cases idx <;> simp [offset]
  | cons s ss ih =>
    cases idx with
    | nil => simp [offset]
    | cons i is =>
      have h0 : ((i.toNat : Nat) : Int) = i := Int.toNat_of_nonneg (h i (by simp))
      simp only [offset, List.zipWith_cons_cons, List.sum_cons, Int.natCast_add, Int.natCast_mul, h0]
      rw [ih is (fun j hj => h j (by simp [hj]))]

theorem InBounds.nonneg {dims : List Nat} {idx : List Int} (h : InBounds dims idx) : ∀ i ∈ idx, 0 ≤ i := by
  induction dims generalizing idx with
  | nil => cases idx <;> simp_all [InBounds]
  | cons d ds ih =>
    cases idx with
    | nil => simp [InBounds] at h
    | cons i is =>
      simp only [InBounds] at h
      intro j hj
      rcases List.mem_cons.1 hj with rfl | hj
      · exact h.1.1
      · exact ih h.2 j hj

/-- The address NumPy computes from the strides is the one of `a( idx... )`. -/
theorem view_call [Inhabited T] {a : ArrayN T} (h : Wf a) {idx : List Int} (hi : InBounds a.dims idx) :
    a.view.call c idx = .ok ((offset a.strides idx : Nat) : Int) := by
  have hp := h.isPerm
  rw [h.view, call_ok hp c hi, ← linearIndex_eq_horner hp (LvArray.InBounds.length hi), offset_eq _ _ (InBounds.nonneg hi), h.strides]
  rw [getLinearIndex_eq (by rw [LvArray.InBounds.length hi, (calculateStrides_spec hp).1]) (fun k hk he => ?_)]
  have hn : a.dims ≠ [] := by
    intro hn
    have := (calculateStrides_spec hp).1
    rw [this, hn] at hk
    simp at hk
  have : k = typeManipulation.getStrideOneDimension a.perm := by exact_mod_cast he
  rw [this]; exact stride_usd hp hn

/-- The object holds the values that are known. -/
structure BoxRel [Inhabited T] (c : Cfg) (a : ArrayN T) (s : Box T) : Prop where
  wf : Wf a
  kind : a.buf.kind = .malloc
  dims : a.dims = s.dims
  index : a.resizeIndex = s.resizeIndex
  elem : ∀ idx x, InBounds a.dims idx → s.elem idx = some x → a.get c idx = .ok x

/-- The window is the whole array. -/
def BoxVal (a : ArrayN T) (win : Window) (_ : Unit) : Prop := win.start = 0 ∧ win.dims = a.dims ∧ win.strides = a.strides

theorem room_of_malloc {b : Buf T} (h : b.kind = .malloc) (n : Nat) : b.room n := .inl h

theorem box_meets [Inhabited T] (level : Int) {a : ArrayN T} {s : Box T} (h : BoxRel c a s) (m : ArrayM) (out)
    (hs : pyArrayCall level s m = some out) :
    Meets (K := array T) (A := pyArray T) (BoxRel c) BoxVal a (arrayCall c level a m) out := by
  obtain ⟨hw, hk, hd, hx, he⟩ := h
  cases m with
  | getResizeIndex => cases hs; show done _ _ = _; rw [hx]; rfl
  | setResizeIndex dim =>
    simp only [pyArrayCall] at hs
    simp only [arrayCall]
    rcases resizing_some hs with ⟨hl, rfl⟩ | ⟨hl, hs⟩
    · rw [if_pos hl]; rfl
    rw [if_neg hl, hd]
    split at hs
    · rename_i hb
      cases hs
      rw [if_pos hb]
      rfl
    · rename_i hb
      cases hs
      rw [if_neg hb]
      unfold ArrayN.setSingleParameterResizeIndex
      have h1 : decide (dim < 0) = false := by simpa using fun hh => hb (.inl hh)
      have h2 : decide (dim ≥ a.dims.length) = false := by rw [hd]; simpa using fun hh => hb (.inr hh)
      rw [h1, h2, errorIf_false, bind_ok, bind_ok, bind_ok]
      refine ⟨_, rfl, ⟨⟨hw.perm, hw.len, hw.strides, ?_, hw.data⟩, hk, hd, rfl, he⟩, fun _ => ⟨mayMove_self _, fun _ _ hv => hv⟩⟩
      show dim.toNat < a.dims.length
      rw [hd]; omega
  | resize n =>
    simp only [pyArrayCall] at hs
    simp only [arrayCall]
    rcases resizing_some hs with ⟨hl, rfl⟩ | ⟨hl, hs⟩
    · rw [if_pos hl]; rfl
    rw [if_neg hl]
    split at hs
    · rename_i hb
      cases hs
      rw [if_pos hb]
      rfl
    · rename_i hb
      cases hs
      rw [if_neg hb]
      obtain ⟨a', h1, h2, -, h4, h5, h6, h7, h8, -⟩ :=
        (C10_resize_preserves c a hw n default).2.2 (by omega) (room_of_malloc hk _)
      rw [h1, bind_ok]
      refine ⟨_, rfl, ⟨h2, h8.trans hk, by rw [h5, hd, hx], h4.trans hx, fun idx x hi hsx => ?_⟩, fun hh => by cases hh⟩
      have hsx : (if InBounds s.dims idx then s.elem idx else some default) = some x := hsx
      rw [← hd] at hsx
      split at hsx
      · rename_i hin
        rw [h6 idx hin hi]
        exact he idx x hin hsx
      · rename_i hin
        cases hsx
        exact h7 idx hin hi
  | resizeAll dims =>
    cases dims with
    | none =>
      simp only [pyArrayCall] at hs
      simp only [arrayCall]
      rcases resizing_some hs with ⟨hl, rfl⟩ | ⟨hl, hs⟩
      · rw [if_pos hl]; rfl
      rw [if_neg hl]
      cases hs
      rfl
    | some dims =>
      simp only [pyArrayCall] at hs
      simp only [arrayCall]
      rcases resizing_some hs with ⟨hl, rfl⟩ | ⟨hl, hs⟩
      · rw [if_pos hl]; rfl
      rw [if_neg hl, hd]
      split at hs
      · rename_i hb
        cases hs
        rw [if_pos hb]
        rfl
      · rename_i hb
        rw [if_neg hb]
        split at hs
        · cases hs
        · rename_i hneg
          cases hs
          obtain ⟨a', h1, h2⟩ := ((C11_resize c a hw dims default).2 (by rw [hd]; exact Decidable.not_not.1 hb)
            (fun d hd => Decidable.byContradiction fun hh => hneg ⟨d, hd, by omega⟩)).1 (room_of_malloc hk _)
          rw [h1, bind_ok]
          obtain ⟨hwf, -, hri, hdm, -, -, hkd, -⟩ := h2
          exact ⟨_, rfl, ⟨hwf, hkd.trans hk, hdm, hri.trans hx, fun idx x _ hsx => by cases hsx⟩, fun hh => by cases hh⟩
  | toNumPy =>
    cases hs
    exact ⟨_, rfl, hd, rfl, rfl, rfl, rfl⟩

/-- **Refinement.** -/
theorem box_refines [Inhabited T] : Refines c (pyArray T) (BoxRel c) BoxVal := by
  have split_get : ∀ {s : Box T} {idx x}, (if InBounds s.dims idx then some (s.elem idx) else none) = some x →
      InBounds s.dims idx ∧ s.elem idx = x := by
    intro s idx x hg
    split at hg
    · exact ⟨by assumption, Option.some.inj hg⟩
    · cases hg
  refine Refines.of_meets rfl (fun {level w s m out} h hs => box_meets level h m out hs) ?_ ?_ ?_
  · intro (a : ArrayN T) (s : Box T) win _ idx h hv hg
    have hg : (if InBounds s.dims idx then some (s.elem idx) else none) = none := hg
    rw [Bool.eq_false_iff, hv.2.1, (h : BoxRel c a s).dims]
    intro hh
    rw [if_pos ((inside_iff _ _).1 hh)] at hg
    cases hg
  · intro (a : ArrayN T) (s : Box T) win _ idx x h hv hg
    have h : BoxRel c a s := h
    obtain ⟨hin, hx⟩ := split_get hg
    rw [← h.dims] at hin
    refine ⟨by rw [hv.2.1]; exact (inside_iff _ _).2 hin, fun v hvx => ?_⟩
    have hget := h.elem idx v hin (hx.trans hvx)
    unfold ArrayN.get at hget
    rw [view_call h.wf hin, bind_ok, if_neg (by omega), Int.toNat_natCast] at hget
    rw [hv.1, hv.2.2, Nat.zero_add]
    exact hget
  · intro (a : ArrayN T) (s : Box T) win _ idx x v h hv _ hg
    have h : BoxRel c a s := h
    obtain ⟨hin, hx⟩ := split_get hg
    rw [← h.dims] at hin
    obtain ⟨a', h1, h2, h3, h4, h5, h6, h7⟩ := set_spec c a h.wf idx v hin
    unfold ArrayN.set at h1
    rw [view_call h.wf hin, bind_ok, if_neg (by omega), Int.toNat_natCast] at h1
    obtain ⟨b, h8, h9⟩ := bind_eq_ok.1 h1
    cases h9
    rw [hv.1, hv.2.2, Nat.zero_add]
    refine ⟨b, h8, ⟨h2, ?_, h.dims, h.index, fun j y hj hy => ?_⟩, fun win' part' hv' => hv'⟩
    · have h8 : a.buf.write c (offset a.strides idx) v = .ok b := h8
      unfold Buf.write at h8
      split at h8
      · split at h8 <;> cases h8; exact h.kind
      · cases h8
    · have hy : (if j = idx then some v else s.elem j) = some y := hy
      split at hy
      · rename_i hji
        cases hy
        subst hji
        exact h6
      · rename_i hji
        show ArrayN.get c { a with buf := b } j = .ok y
        rw [h7 j hj hji]
        exact h.elem j y hj hy

end LvArray.Python

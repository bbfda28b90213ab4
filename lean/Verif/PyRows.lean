import Verif.PyLemmas
import Verif.AoAState
import Verif.AoAStep

/-!
# `pylvarray.ArrayOfArrays` refines lists of lists
-/

namespace LvArray.Python

open Spec Layout

variable {T : Type} [Inhabited T]

/-- The object holds these lists. -/
def RowsRel (a : AoA T) (rows : List (List T)) : Prop := ∃ L : Layout T, AGood a L ∧ L.map (·.1) = rows

/-- The window is inner array `i`. -/
def RowsVal (c : Cfg) (a : AoA T) (win : Window) (i : Nat) : Prop :=
  i < a.shape.numArrays ∧ ∃ n p, a.shape.sizeOfArray c i = .ok n ∧ a.ptr i = .ok p ∧ win.start = p ∧ win.dims = [n] ∧
    win.strides = [1]

variable {c : Cfg} {a : AoA T} {rows rows' : List (List T)}

theorem RowsRel.step (ht : c.trivial = true) (h : RowsRel a rows) (op : AoAOp T) (hs : vvStep rows op = some rows')
    (hd : c.debug = true → op.nonEmptyInsert) : ∃ a', a.step c op = .ok a' ∧ RowsRel a' rows' := by
  obtain ⟨L, hg, rfl⟩ := h
  rw [← vvcStep_fst] at hs
  cases hL : vvcStep L op with
  | none => rw [hL] at hs; cases hs
  | some L' =>
    rw [hL] at hs
    rcases step_exact c hg op hL hd with ⟨_, a', h1, h2, _⟩ | ⟨h1, _⟩
    · exact ⟨a', h1, L', h2, by simpa using hs⟩
    · exact absurd (.inr (.inl ht)) h1

theorem RowsRel.num (h : RowsRel a rows) : a.shape.numArrays = rows.length := by
  obtain ⟨L, hg, rfl⟩ := h
  rw [hg.shape.num]; simp

/-- One row of the object. -/
theorem RowsRel.at_ (h : RowsRel a rows) {i : Nat} (hi : i < rows.length) :
    ∃ A cap B, A.length = i ∧ AGood a (A ++ (rows[i], cap) :: B) ∧
      ∀ ys a', AGood a' (A ++ (ys, cap) :: B) → RowsRel a' (rows.set i ys) := by
  obtain ⟨L, hg, rfl⟩ := h
  simp only [List.length_map] at hi
  obtain ⟨A, xs, cap, B, rfl, rfl, _⟩ := split1 hi
  refine ⟨A, cap, B, rfl, by simpa using hg, fun ys a' hg' => ⟨_, hg', ?_⟩⟩
  simp

theorem RowsRel.sizeOf (h : RowsRel a rows) {i : Nat} (hi : i < rows.length) : a.shape.sizeOfArray c i = .ok rows[i].length := by
  obtain ⟨A, cap, B, rfl, hg, -⟩ := h.at_ hi
  exact hg.shape.sizeOfAt rfl

theorem getD_of_lt {X : Type} (xs : List X) {i : Nat} (d : X) (hi : i < xs.length) : xs.getD i d = xs[i] := by
  simp [List.getD_eq_getElem?_getD, hi]

theorem eraseIdx_take_drop {X : Type} (xs : List X) (j : Nat) : xs.eraseIdx j = xs.take j ++ xs.drop (j + 1) :=
  List.eraseIdx_eq_take_drop_succ ..

theorem resizing_some {S P O : Type} {level : Int} {r : Option (PyOut S P O)} {out} (h : resizing level r = some out) :
    (level < RESIZEABLE ∧ out = .raises .runtimeError) ∨ (¬ level < RESIZEABLE ∧ r = some out) := by
  unfold resizing at h
  split at h
  · rename_i hl; cases h; exact .inl ⟨hl, rfl⟩
  · rename_i hl; exact .inr ⟨hl, h⟩

/-- What a class has to do for an outcome of the specification. -/
def Meets {K : Class T} {A : PyClass K} (Rel : K.W → A.S → Prop) (Val : K.W → Window → A.P → Prop) (w : K.W)
    (r : R (Except Exn (K.W × Ret K.O))) : PyOut A.S A.P K.O → Prop
  | .raises e => r = .ok (.error e)
  | .returns o => r = .ok (.ok (w, .val o))
  | .changes keep s' o => ∃ w', r = .ok (.ok (w', .val o)) ∧ Rel w' s' ∧
      (keep = true → mayMove (K.data w) (K.data w') = false ∧ ∀ win part, Val w win part → Val w' win part)
  | .array part dims wr => ∃ win, r = .ok (.ok (w, .view win)) ∧ win.dims = dims ∧ win.writeable = wr ∧ Val w win part

theorem not_isIndex {i : Int} {n : Nat} : ¬ isIndex i n ↔ i < 0 ∨ i ≥ n := by unfold isIndex; omega

theorem rows_meets (ht : c.trivial = true) (level : Int) (h : RowsRel a rows) (m : ArrayOfArraysM T) (out)
    (hs : pyRowsCall c.debug level rows m = some out) :
    Meets (K := arrayOfArrays T) (A := pyRows T c.debug) RowsRel (RowsVal c) a (arrayOfArraysCall c level a m) out := by
  have hn := h.num
  cases m with
  | len => cases hs; show done _ _ = _; rw [hn]; rfl
  | getItem i =>
    simp only [pyRowsCall] at hs
    simp only [arrayOfArraysCall, hn]
    split at hs
    · rename_i hi
      cases hs
      rw [if_neg (fun hh => not_isIndex.2 hh hi)]
      have hlt : i.toNat < rows.length := by unfold isIndex at hi; omega
      obtain ⟨A, cap, B, hA, hg, -⟩ := h.at_ hlt
      have e1 := h.sizeOf (c := c) hlt
      have e2 : a.ptr i.toNat = .ok (total A) := by rw [← hA]; exact hg.ptr
      rw [e1, bind_ok, e2, bind_ok, getD_of_lt _ _ hlt]
      exact ⟨_, rfl, rfl, rfl, by rw [hn]; exact hlt, _, _, e1, e2, rfl, rfl, rfl⟩
    · rename_i hi
      cases hs
      rw [if_pos (not_isIndex.1 hi)]
      rfl
  | delItem i =>
    simp only [pyRowsCall] at hs
    simp only [arrayOfArraysCall, hn]
    rcases resizing_some hs with ⟨hl, rfl⟩ | ⟨hl, hs⟩
    · rw [if_pos hl]; rfl
    rw [if_neg hl]
    split at hs
    · rename_i hi
      cases hs
      rw [if_neg (fun hh => not_isIndex.2 hh hi)]
      have hlt : i.toNat < rows.length := by unfold isIndex at hi; omega
      obtain ⟨a', h1, h2⟩ := h.step ht (.eraseArray i.toNat) (by simp [vvStep, hlt]; rfl) (fun _ => trivial)
      rw [show a.eraseArray c i.toNat = .ok a' from h1, bind_ok]
      exact ⟨a', rfl, h2, fun hh => by cases hh⟩
    · rename_i hi
      cases hs
      rw [if_pos (not_isIndex.1 hi)]
      rfl
  | setItem i =>
    simp only [pyRowsCall] at hs
    simp only [arrayOfArraysCall]
    rcases resizing_some hs with ⟨hl, rfl⟩ | ⟨hl, hs⟩
    · rw [if_pos hl]; rfl
    · rw [if_neg hl]; cases hs; rfl
  | insertInto i j vs =>
    simp only [pyRowsCall] at hs
    simp only [arrayOfArraysCall, hn]
    rcases resizing_some hs with ⟨hl, rfl⟩ | ⟨hl, hs⟩
    · rw [if_pos hl]; rfl
    rw [if_neg hl]
    by_cases hi : isIndex i rows.length
    · have hlt : i.toNat < rows.length := by unfold isIndex at hi; omega
      have e1 := h.sizeOf (c := c) hlt
      rw [getD_of_lt _ _ hlt] at hs
      have hi' := hi
      unfold isIndex at hi'
      by_cases hj : isIndex j (rows[i.toNat].length + 1)
      · rw [if_pos ⟨hi, hj⟩] at hs
        unfold isIndex at hj
        rw [if_neg (by omega), e1, bind_ok, if_neg (by omega)]
        cases vs with
        | none => cases hs; rfl
        | some vs =>
          simp only at hs ⊢
          split at hs
          · cases hs
          · rename_i hd
            cases hs
            obtain ⟨a', h1, h2⟩ := h.step ht (.insertIntoArray i.toNat j.toNat vs) (rows' := rows.set i.toNat
                (rows[i.toNat].take j.toNat ++ vs ++ rows[i.toNat].drop j.toNat))
              (by simp [vvStep, onRow, List.getElem?_eq_getElem hlt]; omega) (fun hh he => hd ⟨hh, he⟩)
            rw [show a.insertIntoArray c i.toNat j.toNat vs = .ok a' from h1, bind_ok]
            exact ⟨a', rfl, h2, fun hh => by cases hh⟩
      · rw [if_neg (fun hh => hj hh.2)] at hs
        cases hs
        unfold isIndex at hj
        by_cases hj0 : j < 0
        · rw [if_pos (by omega)]; rfl
        · rw [if_neg (by omega), e1, bind_ok, if_pos (by omega)]; rfl
    · rw [if_neg (fun hh => hi hh.1)] at hs
      cases hs
      have := not_isIndex.1 hi
      rw [if_pos (by omega)]; rfl
  | insert i vs =>
    simp only [pyRowsCall] at hs
    simp only [arrayOfArraysCall, hn]
    rcases resizing_some hs with ⟨hl, rfl⟩ | ⟨hl, hs⟩
    · rw [if_pos hl]; rfl
    rw [if_neg hl]
    split at hs
    · rename_i hi
      unfold isIndex at hi
      rw [if_neg (by omega)]
      cases vs with
      | none => cases hs; rfl
      | some vs =>
        cases hs
        obtain ⟨a', h1, h2⟩ := h.step ht (.insertArray i.toNat vs)
          (rows' := rows.take i.toNat ++ vs :: rows.drop i.toNat) (by simp [vvStep]; omega) (fun _ => trivial)
        simp only
        rw [show a.insertArray c i.toNat vs = .ok a' from h1, bind_ok]
        exact ⟨a', rfl, h2, fun hh => by cases hh⟩
    · rename_i hi
      cases hs
      unfold isIndex at hi
      rw [if_pos (by omega)]
      rfl
  | eraseFrom i j =>
    simp only [pyRowsCall] at hs
    simp only [arrayOfArraysCall, hn]
    rcases resizing_some hs with ⟨hl, rfl⟩ | ⟨hl, hs⟩
    · rw [if_pos hl]; rfl
    rw [if_neg hl]
    by_cases hi : isIndex i rows.length
    · have hlt : i.toNat < rows.length := by unfold isIndex at hi; omega
      have e1 := h.sizeOf (c := c) hlt
      rw [getD_of_lt _ _ hlt] at hs
      have hi' := hi
      unfold isIndex at hi'
      by_cases hj : isIndex j rows[i.toNat].length
      · rw [if_pos ⟨hi, hj⟩] at hs
        cases hs
        unfold isIndex at hj
        rw [if_neg (by omega), e1, bind_ok, if_neg (by omega)]
        obtain ⟨a', h1, h2⟩ := h.step ht (.eraseFromArray i.toNat j.toNat 1) (rows' := rows.set i.toNat
            (rows[i.toNat].eraseIdx j.toNat))
          (by
            have : j.toNat < rows[i.toNat].length ∧ j.toNat + 1 ≤ rows[i.toNat].length := by omega
            simp [vvStep, onRow, List.getElem?_eq_getElem hlt, this, eraseIdx_take_drop]) (fun _ => trivial)
        rw [show a.eraseFromArray c i.toNat j.toNat 1 = .ok a' from h1, bind_ok]
        exact ⟨a', rfl, h2, fun hh => by cases hh⟩
      · rw [if_neg (fun hh => hj hh.2)] at hs
        cases hs
        unfold isIndex at hj
        by_cases hj0 : j < 0
        · rw [if_pos (by omega)]; rfl
        · rw [if_neg (by omega), e1, bind_ok, if_pos (by omega)]; rfl
    · rw [if_neg (fun hh => hi hh.1)] at hs
      cases hs
      have := not_isIndex.1 hi
      rw [if_pos (by omega)]; rfl

/-- From `Meets` and the obligations for arrays to `Refines`. -/
theorem Refines.of_meets {U : Type} {c : Cfg} {K : Class U} {A : PyClass K} {Rel : K.W → A.S → Prop}
    {Val : K.W → Window → A.P → Prop} (space : A.takesSpace = K.takesSpace)
    (call : ∀ {level w s m out}, Rel w s → A.call level s m = some out → Meets Rel Val w (K.call c level w m) out)
    (outside : ∀ {w s win part idx}, Rel w s → Val w win part → A.get s part idx = none → inside win.dims idx = false)
    (read : ∀ {w s win part idx x}, Rel w s → Val w win part → A.get s part idx = some x → inside win.dims idx = true ∧
      ∀ v, x = some v → (K.data w).read (win.start + offset win.strides idx) = .ok v)
    (write : ∀ {w s win part idx x v}, Rel w s → Val w win part → win.writeable = true → A.get s part idx = some x →
      ∃ b, (K.data w).write c (win.start + offset win.strides idx) v = .ok b ∧ Rel (K.withData w b) (A.set s part idx v) ∧
        ∀ win' part', Val w win' part' → Val (K.withData w b) win' part') : Refines c A Rel Val where
  space := space
  raises := fun h hs => call h hs
  returns := fun h hs => call h hs
  changes := fun h hs => call h hs
  array := fun h hs => call h hs
  outside := outside
  read := read
  write := write

/-- **Refinement.** -/
theorem rows_refines (ht : c.trivial = true) : Refines c (pyRows T c.debug) RowsRel (RowsVal c) := by
  refine Refines.of_meets rfl (fun {level w s m out} h hs => rows_meets ht level h m out hs) ?_ ?_ ?_
  · intro (a : AoA T) (rows : List (List T)) win (i : Nat) idx h hv hg
    obtain ⟨hi, n, p, h1, h2, h3, h4, h5⟩ := hv
    have hi' : i < rows.length := by rw [← RowsRel.num h]; exact hi
    rw [RowsRel.sizeOf h hi'] at h1
    cases h1
    rw [h4]
    have : nth (rows.getD i []) idx = none := hg
    rw [getD_of_lt _ _ hi'] at this
    exact nth_none this
  · intro (a : AoA T) (rows : List (List T)) win (i : Nat) idx x h hv hg
    obtain ⟨hi, n, p, h1, h2, h3, h4, h5⟩ := hv
    have hi' : i < rows.length := by rw [← RowsRel.num h]; exact hi
    rw [RowsRel.sizeOf h hi'] at h1
    cases h1
    have hg : nth (rows.getD i []) idx = some x := hg
    rw [getD_of_lt _ _ hi'] at hg
    obtain ⟨j, rfl, hj, rfl⟩ := nth_some hg
    refine ⟨by rw [h4]; exact (inside_one _ _).2 ⟨j, hj, rfl⟩, fun v hv => ?_⟩
    cases hv
    obtain ⟨A, cap, B, rfl, hgd, -⟩ := RowsRel.at_ h hi'
    rw [hgd.ptr] at h2
    cases h2
    rw [h3, h5, offset_one]
    exact (hgd.lay.toWin IsRaw).read_front j hj
  · intro (a : AoA T) (rows : List (List T)) win (i : Nat) idx x v h hv _ hg
    have hv0 := hv
    obtain ⟨hi, n, p, h1, h2, h3, h4, h5⟩ := hv
    have hi' : i < rows.length := by rw [← RowsRel.num h]; exact hi
    have hg : nth (rows.getD i []) idx = some x := hg
    rw [getD_of_lt _ _ hi'] at hg
    obtain ⟨j, rfl, hj, rfl⟩ := nth_some hg
    obtain ⟨A, cap, B, rfl, hgd, hset⟩ := RowsRel.at_ h hi'
    rw [hgd.ptr] at h2
    cases h2
    obtain ⟨a', h6, h7, -⟩ := hgd.set (c := c) j hj v
    unfold AoA.set at h6
    rw [ShGood.checkBounds2 hgd.shape (by simp) (by simpa [szs] using hj), bind_ok, hgd.ptr, bind_ok] at h6
    obtain ⟨b, h8, h9⟩ := bind_eq_ok.1 h6
    cases h9
    rw [h3, h5, offset_one]
    refine ⟨b, h8, ?_, fun win' part' hv' => hv'⟩
    have := hset _ _ h7
    show RowsRel _ (rows.set A.length ((rows.getD A.length []).set ((j : Int)).toNat v))
    rw [getD_of_lt _ _ hi']
    exact this

end LvArray.Python

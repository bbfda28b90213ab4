import Verif.Props.SliceOps

/-!
# C45: views of the same bytes as another element type
-/

namespace LvArray.Props

open indexing Spec

/-- Dot product of indices and strides. -/
def dot (idx : List Int) (s : List Nat) : Int := (List.zipWith (fun (i : Int) (s : Nat) => i * s) idx s).sum

theorem dot_cons (i : Int) (is : List Int) (s : Nat) (ss : List Nat) : dot (i :: is) (s :: ss) = i * s + dot is ss := by
  simp [dot]

theorem dot_set : ∀ (idx : List Int) (s : List Nat) (u : Nat) (x : Int), u < idx.length → idx.length = s.length →
    dot (idx.set u x) s = dot (idx.set u 0) s + x * (s.getD u 0 : Nat)
  | [], _, _, _, h, _ => by simp at h
  | _ :: _, [], _, _, _, h => by simp at h
  | i :: is, s :: ss, 0, x, _, _ => by
    simp only [List.set_cons_zero, dot_cons, List.getD_cons_zero, Int.zero_mul]; omega
  | i :: is, s :: ss, u + 1, x, h, h' => by
    simp only [List.set_cons_succ, dot_cons, List.getD_cons_succ]
    rw [dot_set is ss u x (by simpa using h) (by simpa using h')]; omega

theorem dot_scale (k : Nat) : ∀ (idx : List Int) (s s' : List Nat) (u : Nat), idx.length = s.length →
    s'.length = s.length → (∀ i < s.length, i ≠ u → s'.getD i 0 = k * s.getD i 0) →
    dot (idx.set u 0) s' = k * dot (idx.set u 0) s
  | [], s, s', u, h, h', _ => by simp [dot]
  | _ :: _, [], _, _, h, _, _ => by simp at h
  | _ :: _, _ :: _, [], _, _, h, _ => by simp at h
  | i :: is, s :: ss, s' :: ss', u, h, h', hs => by
    cases u with
    | zero =>
      have : ss' = ss.map (fun x => k * x) := by
        apply List.ext_getElem (by simpa using h')
        intro j h1 h2
        have := hs (j + 1) (by simp at h' ⊢; omega) (by omega)
        have hj : j < ss.length := by simp at h'; omega
        simpa [List.getD_eq_getElem?_getD, List.getElem?_eq_getElem h1, List.getElem?_eq_getElem hj] using this
      simp only [List.set_cons_zero, dot_cons, Int.zero_mul, Int.zero_add]
      subst this
      clear hs h h'
      induction is generalizing ss with
      | nil => simp [dot]
      | cons j js ih =>
        cases ss with
        | nil => simp [dot]
        | cons t ts =>
          simp only [List.map_cons, dot_cons, ih ts]
          push_cast
          rw [Int.mul_add]
          congr 1
          rw [← Int.mul_assoc, ← Int.mul_assoc, Int.mul_comm j]
    | succ u =>
      simp only [List.set_cons_succ, dot_cons]
      rw [dot_scale k is ss ss' u (by simpa using h) (by simpa using h') (fun j hj hne => by
        simpa using hs (j + 1) (by simpa using hj) (by omega))]
      have := hs 0 (by simp) (by omega)
      simp at this
      rw [this]
      push_cast
      rw [Int.mul_add]
      congr 1
      rw [← Int.mul_assoc, ← Int.mul_assoc, Int.mul_comm i]

theorem convertStrides_ok (sizeT sizeU : Nat) (u : Nat) (g : Nat → Nat) : ∀ (ss : List Nat) (i : Nat),
    (∀ j < ss.length, i + j ≠ u → convertSize sizeT sizeU (ss.getD j 0) = .ok (g (ss.getD j 0))) →
    ∃ ss', convertStrides sizeT sizeU (u : Nat) i ss = .ok ss' ∧ ss'.length = ss.length ∧
      ∀ j < ss.length, ss'.getD j 0 = if i + j = u then ss.getD j 0 else g (ss.getD j 0)
  | [], i, _ => ⟨[], rfl, rfl, by simp⟩
  | s :: ss, i, h => by
    obtain ⟨ss', h1, h2, h3⟩ := convertStrides_ok sizeT sizeU u g ss (i + 1) (fun j hj hne => by
      simpa using h (j + 1) (by simpa using hj) (by omega))
    by_cases hi : i = u
    · refine ⟨s :: ss', by rw [convertStrides, if_neg (by omega), h1]; rfl, by simp [h2], fun j hj => ?_⟩
      cases j with
      | zero => simp [hi]
      | succ j => simpa [show i + (j + 1) = i + 1 + j by omega] using h3 j (by simpa using hj)
    · have h0 := h 0 (by simp) (by omega)
      simp only [List.getD_cons_zero] at h0
      refine ⟨g s :: ss', ?_, by simp [h2], fun j hj => ?_⟩
      · rw [convertStrides, if_pos (by omega), h0, h1]; rfl
      · cases j with
        | zero => simp [hi]
        | succ j => simpa [show i + (j + 1) = i + 1 + j by omega] using h3 j (by simpa using hj)

theorem unit_lt {p dims : List Nat} (hp : IsPermutation p dims.length) (hn : dims ≠ []) :
    typeManipulation.getStrideOneDimension p < dims.length := by
  have hlen := IsPermutation.length hp
  have : 0 < p.length := by rw [hlen]; exact List.length_pos_iff.mpr hn
  exact (IsPermutation.mem hp).mp (by
    unfold typeManipulation.getStrideOneDimension
    exact getD_mem (by omega))

/-- Every stride but the unit one is a multiple of the length of the unit stride dimension. -/
theorem unit_dvd {p dims : List Nat} (hp : IsPermutation p dims.length) (j : Nat) (hj : j < dims.length)
    (hne : j ≠ typeManipulation.getStrideOneDimension p) :
    dims.getD (typeManipulation.getStrideOneDimension p) 0 ∣ (calculateStrides p dims).getD j 0 := by
  obtain ⟨l, r, e⟩ := exists_split ((IsPermutation.mem hp).mpr hj)
  rw [strides_split hp e]
  have hr : r ≠ [] := by
    rintro rfl
    exact hne (getStrideOneDimension_eq e).symm
  apply List.dvd_prod
  refine List.mem_map.mpr ⟨typeManipulation.getStrideOneDimension p, ?_, rfl⟩
  have e2 : p = (l ++ j :: r.dropLast) ++ [r.getLast hr] := by
    rw [e, List.append_assoc, List.cons_append, List.dropLast_append_getLast]
  rw [getStrideOneDimension_eq e2]
  exact List.getLast_mem hr

theorem inBounds_set {dims : List Nat} {idx : List Int} {u d : Nat} {x : Int} (hu : u < dims.length)
    (hl : idx.length = dims.length) :
    InBounds (dims.set u d) (idx.set u x) ↔ (0 ≤ x ∧ x < d) ∧ ∀ k < dims.length, k ≠ u →
      0 ≤ idx.getD k 0 ∧ idx.getD k 0 < (dims.getD k 0 : Nat) := by
  rw [inBounds_iff]
  simp only [List.length_set, hl, true_and]
  constructor
  · intro h
    refine ⟨by simpa [List.getD_eq_getElem?_getD, List.getElem?_set_self, hu, hl] using h u hu, fun k hk hne => ?_⟩
    simpa [List.getD_eq_getElem?_getD, List.getElem?_set_ne (Ne.symm hne)] using h k hk
  · rintro ⟨h1, h2⟩ k hk
    by_cases he : k = u
    · subst he
      simpa [List.getD_eq_getElem?_getD, List.getElem?_set_self, hk, hl] using h1
    · simpa [List.getD_eq_getElem?_getD, List.getElem?_set_ne (Ne.symm he)] using h2 k hk he

theorem set_getD_self (idx : List Int) (u : Nat) : idx.set u (idx.getD u 0) = idx := by
  apply List.ext_getElem
  · simp
  · intro i h1 h2
    rw [List.getElem_set]
    split
    · rename_i h; subst h; simp [h2]
    · rfl

theorem set_getD_nat (dims : List Nat) (u : Nat) : dims.set u (dims.getD u 0) = dims := by
  apply List.ext_getElem
  · simp
  · intro i h1 h2
    rw [List.getElem_set]
    split
    · rename_i h; subst h; simp [h2]
    · rfl

theorem prod_set (dims : List Nat) (u x k : Nat) (hu : u < dims.length) (h : x * k = dims.getD u 0) :
    (dims.set u x).prod * k = dims.prod := by
  induction dims generalizing u with
  | nil => simp at hu
  | cons d ds ih =>
    cases u with
    | zero =>
      simp at h
      simp only [List.set_cons_zero, List.prod_cons]
      rw [Nat.mul_right_comm, h]
    | succ u =>
      simp only [List.set_cons_succ, List.prod_cons, Nat.mul_assoc]
      rw [ih u (by simpa using hu) (by simpa using h)]

/-- **C45, smaller elements.** Viewing an array of elements of `k * sizeT` bytes as elements of `sizeT` bytes never
aborts.  The new view has the unit stride dimension `u` multiplied by `k` and every other dimension unchanged, covers
the same number of bytes, and its element at `idx` is part number `idx[u] % k` of the old element with index
`idx[u] / k` in dimension `u` and the same other indices. -/
theorem C45_split (c : Cfg) (p dims : List Nat) (hv : typeManipulation.isValidPermutation p = true)
    (hl : p.length = dims.length) (u : Nat) (hu : p.getLast? = some u) (k sizeT : Nat) (hk : 0 < k) (hT : 0 < sizeT) :
    ∃ w, (layout p dims).convert sizeT (k * sizeT) = .ok w ∧
      w.dims = dims.set u (dims.getD u 0 * k) ∧ w.size * sizeT = (layout p dims).size * (k * sizeT) ∧
      ∀ idx, InBounds w.dims idx →
        InBounds dims (idx.set u (idx.getD u 0 / k)) ∧
        ∃ a b, w.call c idx = .ok a ∧ (layout p dims).call c (idx.set u (idx.getD u 0 / k)) = .ok b ∧
          a * sizeT = b * (k * sizeT : Nat) + (idx.getD u 0 % k) * sizeT := by
  have hp := isPermutation_of_valid hv hl
  have hne : dims ≠ [] := by rintro rfl; simp at hl; subst hl; simp at hu
  have hug : typeManipulation.getStrideOneDimension p = u := by
    have hpne : p ≠ [] := by rintro rfl; simp at hu
    rw [List.getLast?_eq_some_getLast hpne] at hu
    exact getStrideOneDimension_eq (by rw [← Option.some.inj hu]; exact (List.dropLast_append_getLast hpne).symm)
  have hul : u < dims.length := hug ▸ unit_lt hp hne
  have hsl := (calculateStrides_spec hp).1
  have hs1 : (calculateStrides p dims).getD u 0 = 1 := hug ▸ stride_usd hp hne
  have hcs : ∀ n, convertSize sizeT (k * sizeT) n = .ok (k * n) := by
    intro n
    rw [convertSize, if_pos (Nat.le_mul_of_pos_left _ hk)]
    congr 1
    rw [← Nat.mul_assoc, Nat.mul_div_cancel _ hT, Nat.mul_comm]
  obtain ⟨ss', h1, h2, h3⟩ := convertStrides_ok sizeT (k * sizeT) u (fun n => k * n) (calculateStrides p dims) 0
    (fun j _ _ => hcs _)
  refine ⟨⟨0, dims.set u (dims.getD u 0 * k), ss', (u : Nat)⟩, ?_, rfl, ?_, ?_⟩
  · unfold Slice.convert layout
    simp only [hug, Int.toNat_natCast, hcs, bind_ok]
    rw [show ((u : Nat) : Int) = ((u : Nat) : Int) from rfl, h1, Nat.mul_comm]
    rfl
  · rw [size_eq, Slice.size, multiplyAll_eq]
    show (dims.set u (dims.getD u 0 * k)).prod * sizeT = dims.prod * (k * sizeT)
    have := prod_set (dims.set u (dims.getD u 0 * k)) u (dims.getD u 0) k (by simpa using hul)
      (by simp [hul])
    rw [List.set_set, set_getD_nat] at this
    rw [← this, Nat.mul_assoc]
  · intro idx hin
    have hil : idx.length = dims.length := by simpa using InBounds.length hin
    have hin0 := hin
    rw [← set_getD_self idx u, inBounds_set hul hil] at hin
    obtain ⟨⟨x0, x1⟩, hrest⟩ := hin
    generalize hx : idx.getD u 0 = x at *
    have hkI : (0 : Int) < k := by omega
    have hold : InBounds dims (idx.set u (x / k)) := by
      rw [← set_getD_nat dims u, inBounds_set hul hil]
      refine ⟨⟨Int.ediv_nonneg x0 (by omega), ?_⟩, hrest⟩
      apply Int.ediv_lt_of_lt_mul hkI
      push_cast at x1; exact x1
    refine ⟨hold, _, _, slice_call_ok c _ hin0, slice_call_ok c _ hold, ?_⟩
    show (0 + getLinearIndex (u : Nat) ss' idx) * sizeT =
      (0 + getLinearIndex (typeManipulation.getStrideOneDimension p : Nat) (calculateStrides p dims)
        (idx.set u (x / k))) * (k * sizeT : Nat) + (x % k) * sizeT
    have hs1' : ss'.getD u 0 = 1 := by
      have := h3 u (by omega)
      rw [if_pos (by omega), hs1] at this; exact this
    have e1 : getLinearIndex (u : Nat) ss' idx = dot idx ss' := by
      refine getLinearIndex_eq (by omega) (fun j hj he => ?_)
      have : j = u := by exact_mod_cast he
      rw [this]; exact hs1'
    have e2 : getLinearIndex (typeManipulation.getStrideOneDimension p : Nat) (calculateStrides p dims)
        (idx.set u (x / k)) = dot (idx.set u (x / k)) (calculateStrides p dims) := by
      refine getLinearIndex_eq (by simp [hil, hsl]) (fun j hj he => ?_)
      have : j = u := by rw [hug] at he; exact_mod_cast he
      rw [this]; exact hs1
    have e3 : dot idx ss' = dot (idx.set u 0) ss' + x := by
      have := dot_set idx ss' u x (by omega) (by omega)
      rw [hs1', ← hx, set_getD_self] at this
      rw [this, hx]; simp
    rw [e1, e2, e3, dot_set idx _ u (x / k) (by omega) (by omega), hs1,
      dot_scale k idx (calculateStrides p dims) ss' u (by omega) h2 (fun i hi hne => by
        have := h3 i hi
        rw [if_neg (by omega)] at this
        exact this)]
    have hdm := Int.mul_ediv_add_emod x k
    generalize dot (idx.set u 0) (calculateStrides p dims) = D
    have hx2 : x = k * (x / k) + x % k := hdm.symm
    generalize x / k = q at *
    generalize x % k = r at *
    subst hx2
    push_cast
    grind

example : (do let w ← (layout [1, 0] [2, 3]).convert 4 8; .ok (w.dims, w.strides)) = (.ok ([4, 3], [1, 4]) : R _) := by
  decide

/-- **C45, larger elements.** Viewing an array of elements of `sizeU` bytes as elements of `k * sizeU` bytes (`k ≥ 2`)
aborts exactly when the unit stride dimension is not a multiple of `k`.  Otherwise the new view has that dimension
divided by `k` and every other dimension unchanged, covers the same number of bytes, and its element at `idx` consists of
the `k` old elements `k * idx[u], ..., k * idx[u] + k - 1` in dimension `u` with the same other indices. -/
theorem C45_merge (c : Cfg) (p dims : List Nat) (hv : typeManipulation.isValidPermutation p = true)
    (hl : p.length = dims.length) (u : Nat) (hu : p.getLast? = some u) (k sizeU : Nat) (hk : 2 ≤ k) (hU : 0 < sizeU) :
    ((dims.getD u 0) % k ≠ 0 → (layout p dims).convert (k * sizeU) sizeU = .error .abort) ∧
    ((dims.getD u 0) % k = 0 → ∃ w, (layout p dims).convert (k * sizeU) sizeU = .ok w ∧
      w.dims = dims.set u (dims.getD u 0 / k) ∧ w.size * (k * sizeU) = (layout p dims).size * sizeU ∧
      ∀ idx, InBounds w.dims idx → ∀ r : Nat, r < k →
        InBounds dims (idx.set u (k * idx.getD u 0 + r)) ∧
        ∃ a b, w.call c idx = .ok a ∧ (layout p dims).call c (idx.set u (k * idx.getD u 0 + r)) = .ok b ∧
          a * (k * sizeU : Nat) + r * sizeU = b * sizeU) := by
  have hp := isPermutation_of_valid hv hl
  have hne : dims ≠ [] := by rintro rfl; simp at hl; subst hl; simp at hu
  have hug : typeManipulation.getStrideOneDimension p = u := by
    have hpne : p ≠ [] := by rintro rfl; simp at hu
    rw [List.getLast?_eq_some_getLast hpne] at hu
    exact getStrideOneDimension_eq (by rw [← Option.some.inj hu]; exact (List.dropLast_append_getLast hpne).symm)
  have hul : u < dims.length := hug ▸ unit_lt hp hne
  have hsl := (calculateStrides_spec hp).1
  have hs1 : (calculateStrides p dims).getD u 0 = 1 := hug ▸ stride_usd hp hne
  have hlt : ¬ k * sizeU ≤ sizeU := by
    have := Nat.mul_le_mul_right sizeU hk
    omega
  have hdiv : k * sizeU / sizeU = k := Nat.mul_div_cancel _ hU
  have hcs : ∀ n, n % k = 0 → convertSize (k * sizeU) sizeU n = .ok (n / k) := by
    intro n hn
    rw [convertSize, if_neg hlt]
    simp [hdiv, hn]
  constructor
  · intro hbad
    unfold Slice.convert layout
    simp only [hug, Int.toNat_natCast]
    have : convertSize (k * sizeU) sizeU (dims.getD u 0) = .error .abort := by
      rw [convertSize, if_neg hlt]
      simp only [hdiv]
      rw [show (dims.getD u 0 % k != 0) = true by simpa using hbad]
      rfl
    rw [this]; rfl
  · intro hgood
    obtain ⟨ss', h1, h2, h3⟩ := convertStrides_ok (k * sizeU) sizeU u (fun n => n / k) (calculateStrides p dims) 0
      (fun j hj hne => hcs _ (by
        have := hug ▸ unit_dvd hp j (by omega) (by rw [hug]; omega)
        exact Nat.mod_eq_zero_of_dvd (Nat.dvd_trans (Nat.dvd_of_mod_eq_zero hgood) this)))
    refine ⟨⟨0, dims.set u (dims.getD u 0 / k), ss', (u : Nat)⟩, ?_, rfl, ?_, ?_⟩
    · unfold Slice.convert layout
      simp only [hug, Int.toNat_natCast, hcs _ hgood, bind_ok]
      rw [h1]
      rfl
    · rw [size_eq, Slice.size, multiplyAll_eq]
      show (dims.set u (dims.getD u 0 / k)).prod * (k * sizeU) = dims.prod * sizeU
      rw [← Nat.mul_assoc, prod_set dims u (dims.getD u 0 / k) k hul (Nat.div_mul_cancel (Nat.dvd_of_mod_eq_zero hgood))]
    · intro idx hin r hr
      have hil : idx.length = dims.length := by simpa using InBounds.length hin
      have hin0 := hin
      rw [← set_getD_self idx u, inBounds_set hul hil] at hin
      obtain ⟨⟨x0, x1⟩, hrest⟩ := hin
      generalize hx : idx.getD u 0 = x at *
      have hkI : (0 : Int) < k := by omega
      have hmul : dims.getD u 0 / k * k = dims.getD u 0 := Nat.div_mul_cancel (Nat.dvd_of_mod_eq_zero hgood)
      have hold : InBounds dims (idx.set u (k * x + r)) := by
        rw [← set_getD_nat dims u, inBounds_set hul hil]
        refine ⟨⟨by have := Int.mul_nonneg (Int.le_of_lt hkI) x0; omega, ?_⟩, hrest⟩
        have h4 : (k : Int) * (x + 1) ≤ k * (dims.getD u 0 / k : Nat) :=
          Int.mul_le_mul_of_nonneg_left (by omega) (by omega)
        have h5 : (k : Int) * (dims.getD u 0 / k : Nat) = (dims.getD u 0 : Nat) := by
          rw [← hmul]; push_cast [Nat.mul_div_cancel _ (show 0 < k by omega)]; rw [Int.mul_comm]
        rw [Int.mul_add] at h4
        omega
      refine ⟨hold, _, _, slice_call_ok c _ hin0, slice_call_ok c _ hold, ?_⟩
      show (0 + getLinearIndex (u : Nat) ss' idx) * (k * sizeU : Nat) + r * sizeU =
        (0 + getLinearIndex (typeManipulation.getStrideOneDimension p : Nat) (calculateStrides p dims)
          (idx.set u (k * x + r))) * sizeU
      have hs1' : ss'.getD u 0 = 1 := by
        have := h3 u (by omega)
        rw [if_pos (by omega), hs1] at this; exact this
      have e1 : getLinearIndex (u : Nat) ss' idx = dot idx ss' := by
        refine getLinearIndex_eq (by omega) (fun j hj he => ?_)
        have : j = u := by exact_mod_cast he
        rw [this]; exact hs1'
      have e2 : getLinearIndex (typeManipulation.getStrideOneDimension p : Nat) (calculateStrides p dims)
          (idx.set u (k * x + r)) = dot (idx.set u (k * x + r)) (calculateStrides p dims) := by
        refine getLinearIndex_eq (by simp [hil, hsl]) (fun j hj he => ?_)
        have : j = u := by rw [hug] at he; exact_mod_cast he
        rw [this]; exact hs1
      have e3 : dot idx ss' = dot (idx.set u 0) ss' + x := by
        have := dot_set idx ss' u x (by omega) (by omega)
        rw [hs1', ← hx, set_getD_self] at this
        rw [this, hx]; simp
      have e4 := dot_scale k idx ss' (calculateStrides p dims) u (by omega) h2.symm (fun i hi hne => by
        have := h3 i (by omega)
        rw [if_neg (by omega)] at this
        rw [this]
        have hd := hug ▸ unit_dvd hp i (by omega) (by rw [hug]; omega)
        exact (Nat.mul_div_cancel' (Nat.dvd_trans (Nat.dvd_of_mod_eq_zero hgood) hd)).symm)
      rw [e1, e2, e3, dot_set idx (calculateStrides p dims) u _ (by omega) (by omega), hs1, e4]
      generalize dot (idx.set u 0) ss' = D
      push_cast
      grind

example : (do let w ← (layout [0, 1] [3, 6]).convert 24 8; .ok (w.dims, w.strides)) = (.ok ([3, 2], [2, 1]) : R _) ∧
    (layout [0, 1] [3, 7]).convert 24 8 = .error .abort := by decide

end LvArray.Props

import Verif.Machine
import Verif.Props.System
import Verif.Props.ArrayResize

/-!
# Lemmas about machine integers: operations whose mathematical result fits are exact
-/

namespace LvArray

open indexing IntTy Props Spec

theorem rep_of_nonneg (t : IntTy) {x : Int} (h0 : 0 ≤ x) (h : x ≤ t.max) : Representable t x := by
  refine ⟨?_, h⟩
  have := two_pow_pos (t.bits - 1)
  unfold IntTy.min; split <;> omega

theorem fit_ok (t : IntTy) (hb : 1 ≤ t.bits) {x : Int} (h : Representable t x) : t.fit x = .ok x := by
  unfold IntTy.fit
  split
  · exact if_pos h
  · rw [cast_of_representable t hb x h]

/-- Both operands and the result of an operation on non-negative numbers survive the conversions. -/
theorem common_nonneg (a b : IntTy) {x y z : Int} (hx : Representable a x) (hy : Representable b y) (h0 : 0 ≤ x)
    (h1 : 0 ≤ y) (hz : 0 ≤ z) (h : z ≤ b.max) :
    Representable (common a b) x ∧ Representable (common a b) y ∧ Representable (common a b) z := by
  have h2 := common_representable a b hx hy (Or.inr ⟨h0, h1⟩)
  have h3 := common_representable a b hx (rep_of_nonneg b hz h) (Or.inr ⟨h0, hz⟩)
  exact ⟨h2.1, h2.2, h3.2⟩

theorem mul_ok (a b : IntTy) (ha : 1 ≤ a.bits) (hb : 1 ≤ b.bits) {x y : Int} (hx : Representable a x)
    (hy : Representable b y) (h0 : 0 ≤ x) (h1 : 0 ≤ y) (h : x * y ≤ b.max) : mul a b x y = .ok (x * y) := by
  have hc := common_bits a b ha hb
  obtain ⟨h2, h3, h4⟩ := common_nonneg a b hx hy h0 h1 (Int.mul_nonneg h0 h1) h
  unfold mul
  rw [cast_of_representable _ hc _ h2, cast_of_representable _ hc _ h3, fit_ok _ hc h4]

theorem add_ok (a b : IntTy) (ha : 1 ≤ a.bits) (hb : 1 ≤ b.bits) {x y : Int} (hx : Representable a x)
    (hy : Representable b y) (h0 : 0 ≤ x) (h1 : 0 ≤ y) (h : x + y ≤ b.max) : add a b x y = .ok (x + y) := by
  have hc := common_bits a b ha hb
  obtain ⟨h2, h3, h4⟩ := common_nonneg a b hx hy h0 h1 (Int.add_nonneg h0 h1) h
  unfold add
  rw [cast_of_representable _ hc _ h2, cast_of_representable _ hc _ h3, fit_ok _ hc h4]

theorem sub_ok (a b : IntTy) (ha : 1 ≤ a.bits) (hb : 1 ≤ b.bits) {x y : Int} (hx : Representable a x)
    (hy : Representable b y) (h0 : y ≤ x) (h1 : 0 ≤ y) : sub a b x y = .ok (x - y) := by
  have hc := common_bits a b ha hb
  have h2 := common_representable a b hx hy (Or.inr ⟨by omega, h1⟩)
  have h3 : Representable (common a b) (x - y) := by
    refine rep_of_nonneg _ (by omega) ?_
    have := h2.1.2
    omega
  unfold sub
  rw [cast_of_representable _ hc _ h2.1, cast_of_representable _ hc _ h2.2, fit_ok _ hc h3]

theorem common_self_max (t : IntTy) : t.max ≤ (common t t).max := by
  have h := max_representable t
  exact (common_representable t t h.1 h.1 (Or.inr ⟨h.2, h.2⟩)).1.2

theorem mulTo_ok (t : IntTy) (hb : 1 ≤ t.bits) {x y : Int} (h0 : 0 ≤ x) (h1 : 0 ≤ y) (hx : x ≤ t.max) (hy : y ≤ t.max)
    (h : x * y ≤ t.max) : t.mulTo x y = .ok (x * y) := by
  unfold IntTy.mulTo
  rw [mul_ok t t hb hb (rep_of_nonneg t h0 hx) (rep_of_nonneg t h1 hy) h0 h1 h, bind_ok,
    cast_of_representable t hb _ (rep_of_nonneg t (Int.mul_nonneg h0 h1) h)]

theorem addTo_ok (t : IntTy) (hb : 1 ≤ t.bits) {x y : Int} (h0 : 0 ≤ x) (h1 : 0 ≤ y) (h : x + y ≤ t.max) :
    t.addTo x y = .ok (x + y) := by
  unfold IntTy.addTo
  rw [add_ok t t hb hb (rep_of_nonneg t h0 (by omega)) (rep_of_nonneg t h1 (by omega)) h0 h1 h, bind_ok,
    cast_of_representable t hb _ (rep_of_nonneg t (Int.add_nonneg h0 h1) h)]

theorem div_ok (a b : IntTy) (ha : 1 ≤ a.bits) (hb : 1 ≤ b.bits) {x y : Int} (hx : Representable a x)
    (hy : Representable b y) (h0 : 0 ≤ x) (h1 : 0 < y) : div a b x y = .ok (x / y) := by
  have hc := common_bits a b ha hb
  have h2 := common_representable a b hx hy (Or.inr ⟨h0, by omega⟩)
  have h3 : Representable (common a b) (x / y) := by
    refine rep_of_nonneg _ (Int.ediv_nonneg h0 (by omega)) ?_
    have h4 : x / y ≤ x := Int.ediv_le_self _ h0
    have := h2.1.2
    omega
  unfold div
  rw [cast_of_representable _ hc _ h2.1, cast_of_representable _ hc _ h2.2, if_neg (by omega),
    Int.tdiv_eq_ediv_of_nonneg h0, fit_ok _ hc h3]

theorem toOffset_ok {n : Nat} (h : (n : Int) ≤ ptrdiff.max) : toOffset n = .ok n := by
  have hc : ptrdiff.cast n = n := cast_of_representable ptrdiff (by decide) _ (rep_of_nonneg _ (by omega) h)
  unfold toOffset
  rw [hc, if_neg (by omega), Int.toNat_natCast]

theorem int_zero : Representable int 0 := by
  refine rep_of_nonneg _ (by omega) ?_
  decide

theorem lt_zero (t : IntTy) (hb : 1 ≤ t.bits) {x : Int} (hx : Representable t x) : lt t int x 0 = decide (x < 0) := by
  have h32 : (1 : Nat) ≤ int.bits := by decide
  refine lt_exact t int hb h32 hx int_zero ?_
  by_cases hs : t.signed = true
  · exact Or.inl ⟨hs, rfl⟩
  · right
    have := hx.1
    unfold IntTy.min at this
    rw [if_neg hs] at this
    exact ⟨this, by omega⟩

/-! ## Sizes, strides, positions -/

/-- The number of elements of a shape and of every part of it is a value of the index type (and of `std::ptrdiff_t`):
the product of the lengths that are not zero is. -/
def Fits (t : IntTy) (dims : List Nat) : Prop :=
  ((dims.filter (· ≠ 0)).prod : Int) ≤ t.max ∧ ((dims.filter (· ≠ 0)).prod : Int) ≤ ptrdiff.max

theorem filter_prod_pos (l : List Nat) : 0 < (l.filter (· ≠ 0)).prod := by
  induction l with
  | nil => decide
  | cons x l ih =>
    rw [List.filter_cons]
    split
    · rename_i h
      rw [List.prod_cons]
      exact Nat.mul_pos (by simp at h; omega) ih
    · exact ih

theorem prod_le_filter (l : List Nat) : l.prod ≤ (l.filter (· ≠ 0)).prod := by
  induction l with
  | nil => decide
  | cons x l ih =>
    rw [List.filter_cons, List.prod_cons]
    split
    · rw [List.prod_cons]; exact Nat.mul_le_mul_left _ ih
    · rename_i h
      have : x = 0 := by simpa using h
      subst this
      rw [Nat.zero_mul]; exact Nat.zero_le _

theorem sublist_filter_le {l m : List Nat} (h : l.Sublist m) : (l.filter (· ≠ 0)).prod ≤ (m.filter (· ≠ 0)).prod := by
  induction h with
  | slnil => exact Nat.le_refl _
  | cons x h ih =>
    refine Nat.le_trans ih ?_
    rw [List.filter_cons]
    split
    · rename_i hx
      rw [List.prod_cons]
      exact Nat.le_mul_of_pos_left _ (by simp at hx; omega)
    · exact Nat.le_refl _
  | cons_cons x h ih =>
    rw [List.filter_cons, List.filter_cons]
    split
    · rw [List.prod_cons, List.prod_cons]; exact Nat.mul_le_mul_left _ ih
    · exact ih

theorem mem_le_filter {l : List Nat} {x : Nat} (h : x ∈ l) : x ≤ (l.filter (· ≠ 0)).prod := by
  by_cases h0 : x = 0
  · omega
  · have := sublist_filter_le (List.singleton_sublist.mpr h)
    simpa [List.filter_cons, h0] using this

theorem perm_filter_prod {l m : List Nat} (h : l.Perm m) : (l.filter (· ≠ 0)).prod = (m.filter (· ≠ 0)).prod :=
  (h.filter _).prod_eq

theorem multiplyAllM_ok (t : IntTy) (hb : 1 ≤ t.bits) : ∀ (l : List Nat),
    ((l.filter (· ≠ 0)).prod : Int) ≤ t.max → multiplyAllM t (l.map Int.ofNat) = .ok (l.prod : Int)
  | [], _ => rfl
  | [x], _ => by simp [multiplyAllM]
  | x :: y :: ys, h => by
    have htail : (((y :: ys).filter (· ≠ 0)).prod : Int) ≤ t.max := by
      have := sublist_filter_le (List.sublist_cons_self x (y :: ys))
      omega
    have ih := multiplyAllM_ok t hb (y :: ys) htail
    have h1 : (x : Int) ≤ t.max := by
      have := mem_le_filter (l := x :: y :: ys) (x := x) (by simp)
      omega
    have h2 : ((y :: ys).prod : Int) ≤ t.max := by
      have := prod_le_filter (y :: ys)
      omega
    have h3 : ((x * (y :: ys).prod : Nat) : Int) ≤ t.max := by
      have := prod_le_filter (x :: y :: ys)
      rw [List.prod_cons] at this
      omega
    show (multiplyAllM t ((y :: ys).map Int.ofNat) >>= fun r => t.mulTo x r) = _
    rw [ih, bind_ok, mulTo_ok t hb (by omega) (by omega) h1 h2 (by push_cast at h3; exact h3), List.prod_cons]
    push_cast; rfl

theorem getD_map_ofNat (l : List Nat) (i : Nat) : (l.map Int.ofNat).getD i 0 = (l.getD i 0 : Int) := by
  simp only [List.getD_eq_getElem?_getD, List.getElem?_map]
  cases l[i]? <;> rfl

theorem foldlM_mul_ok (t : IntTy) (hb : 1 ≤ t.bits) (f : Nat → Nat) : ∀ (l : List Nat) (a : Nat),
    ((a * ((l.map f).filter (· ≠ 0)).prod : Nat) : Int) ≤ t.max → (∀ j ∈ l, (f j : Int) ≤ t.max) →
    l.foldlM (fun (acc : Int) j => t.mulTo acc (f j)) (a : Int) = .ok ((a * (l.map f).prod : Nat) : Int)
  | [], a, _, _ => by simp [pure, Except.pure]
  | x :: l, a, h, hf => by
    have hf' : ∀ j ∈ l, (f j : Int) ≤ t.max := fun j hj => hf j (by simp [hj])
    rw [List.foldlM_cons]
    have hpos := filter_prod_pos (l.map f)
    rw [List.map_cons, List.filter_cons] at h
    have ha : (a : Int) ≤ t.max := by
      have := filter_prod_pos ((x :: l).map f)
      rw [List.map_cons, List.filter_cons] at this
      have := Nat.le_mul_of_pos_right a this
      omega
    by_cases h0 : f x = 0
    · have hmax := (max_representable t).2
      rw [mulTo_ok t hb (by omega) (by omega) ha (by omega) (by rw [h0]; simpa using hmax), bind_ok]
      have := foldlM_mul_ok t hb f l 0 (by simpa using hmax) hf'
      rw [h0]
      simpa [h0] using this
    · rw [if_pos (by simpa using h0), List.prod_cons] at h
      have e1 : a * (f x * ((l.map f).filter (· ≠ 0)).prod) = a * f x * ((l.map f).filter (· ≠ 0)).prod := by
        rw [Nat.mul_assoc]
      rw [e1] at h
      have h2 : a * f x ≤ a * f x * ((l.map f).filter (· ≠ 0)).prod := Nat.le_mul_of_pos_right _ hpos
      have hfx : (f x : Int) ≤ t.max := hf x (by simp)
      have h3 : ((a * f x : Nat) : Int) ≤ t.max := by omega
      rw [mulTo_ok t hb (by omega) (by omega) ha hfx (by push_cast at h3; exact h3), bind_ok]
      have := foldlM_mul_ok t hb f l (a * f x) h hf'
      rw [List.map_cons, List.prod_cons, ← Nat.mul_assoc, ← this]
      push_cast
      rfl

theorem range_map_getD {α : Type} (p : List Nat) (g : Nat → α) :
    (List.range p.length).map (fun j => g (p.getD j 0)) = p.map g := by
  apply List.ext_getElem
  · simp
  · intro n h1 h2
    simp at h1
    simp [List.getD_eq_getElem?_getD, h1]

theorem reorder_perm {p dims : List Nat} (hp : IsPermutation p dims.length) :
    (p.map (fun k => dims.getD k 0)).Perm dims := by
  have h1 : (p.map (fun k => dims.getD k 0)).Perm ((List.range dims.length).map (fun k => dims.getD k 0)) := hp.map _
  have h2 : (List.range dims.length).map (fun k => dims.getD k 0) = dims := by
    have := range_map_getD dims (fun x => x)
    simpa using this
  rwa [h2] at h1

theorem Fits.mem {t : IntTy} {dims : List Nat} (h : Fits t dims) (k : Nat) : (dims.getD k 0 : Int) ≤ t.max := by
  have hm := (max_representable t).2
  by_cases hk : k < dims.length
  · have h1 : dims.getD k 0 = dims[k] := by simp [List.getD_eq_getElem?_getD, hk]
    have := mem_le_filter (List.getElem_mem hk)
    have := h.1
    omega
  · have h1 : dims.getD k 0 = 0 := by
      rw [List.getD_eq_getElem?_getD, List.getElem?_eq_none (by omega)]; rfl
    omega

theorem Fits.prod {t : IntTy} {dims : List Nat} (h : Fits t dims) :
    (dims.prod : Int) ≤ t.max ∧ (dims.prod : Int) ≤ ptrdiff.max := by
  have := prod_le_filter dims
  have := h.1
  have := h.2
  omega

theorem Fits.part {t : IntTy} {p dims : List Nat} (hp : IsPermutation p dims.length) (h : Fits t dims) (n : Nat) :
    ((((p.drop n).map (fun k => dims.getD k 0)).filter (· ≠ 0)).prod : Int) ≤ t.max := by
  have h1 := sublist_filter_le ((List.drop_sublist n p).map (fun k => dims.getD k 0))
  have h2 := perm_filter_prod (reorder_perm hp)
  have := h.1
  omega

theorem foldedStrideM_ok (t : IntTy) (hb : 1 ≤ t.bits) {p dims : List Nat} (hp : IsPermutation p dims.length)
    (h : Fits t dims) (i : Nat) :
    foldedStrideM t p (dims.map Int.ofNat) i = .ok (foldedStride p dims i : Int) := by
  unfold foldedStrideM
  have e1 : (((List.range p.length).drop (i + 1)).map (fun j => dims.getD (p.getD j 0) 0)) =
      (p.drop (i + 1)).map (fun k => dims.getD k 0) := by
    rw [List.map_drop, range_map_getD p (fun k => dims.getD k 0), List.map_drop]
  have h1 := foldlM_mul_ok t hb (fun j => dims.getD (p.getD j 0) 0) ((List.range p.length).drop (i + 1)) 1
    (by rw [e1, Nat.one_mul]; exact Fits.part hp h _) (fun j _ => h.mem _)
  rw [e1, Nat.one_mul] at h1
  rw [foldedStride_eq, ← h1]
  simp only [getD_map_ofNat]
  rfl

theorem calculateStridesM_ok (t : IntTy) (hb : 1 ≤ t.bits) {p dims : List Nat} (hp : IsPermutation p dims.length)
    (h : Fits t dims) :
    calculateStridesM t p (dims.map Int.ofNat) = .ok ((calculateStrides p dims).map Int.ofNat) := by
  unfold calculateStridesM calculateStrides
  have key : ∀ (l : List Nat) (s : List Nat),
      l.foldlM (fun (s : List Int) i => do
        let f ← foldedStrideM t p (dims.map Int.ofNat) i
        (.ok (s.set (p.getD i 0) f) : R (List Int))) (s.map Int.ofNat) =
      .ok ((l.foldl (fun s i => s.set (p.getD i 0) (foldedStride p dims i)) s).map Int.ofNat) := by
    intro l
    induction l with
    | nil => intro s; rfl
    | cons i l ih =>
      intro s
      rw [List.foldlM_cons, foldedStrideM_ok t hb hp h, bind_ok, bind_ok, List.foldl_cons, ← ih]
      rw [List.map_set]
      rfl
  have := key (List.range p.length) (List.replicate p.length 0)
  rw [← this]
  simp

theorem strides_le (t : IntTy) {p dims : List Nat} (hp : IsPermutation p dims.length) (h : Fits t dims) :
    ∀ s ∈ calculateStrides p dims, (s : Int) ≤ t.max := by
  obtain ⟨hl, hs⟩ := calculateStrides_spec hp
  intro s hmem
  obtain ⟨k, hk, rfl⟩ := List.getElem_of_mem hmem
  have hkp : k ∈ p := (IsPermutation.mem hp).mpr (by omega)
  obtain ⟨i, hi, rfl⟩ := List.getElem_of_mem hkp
  have h1 := hs i hi
  have h2 : p.getD i 0 = p[i] := by simp [List.getD_eq_getElem?_getD, hi]
  rw [h2] at h1
  have h3 : (calculateStrides p dims).getD p[i] 0 = (calculateStrides p dims)[p[i]] := by
    simp [List.getD_eq_getElem?_getD, hk]
  rw [h3] at h1
  have h4 := Fits.part hp h (i + 1)
  have h5 := prod_le_filter ((p.drop (i + 1)).map (fun k => dims.getD k 0))
  omega

/-- An index together with an integer type it is a value of. -/
def Typed (i : IntTy × Int) : Prop := 1 ≤ i.1.bits ∧ Representable i.1 i.2

theorem condMulM_ok (t : IntTy) (hb : 1 ≤ t.bits) (isOne : Bool) {i : IntTy × Int} (hi : Typed i) (h0 : 0 ≤ i.2) {s : Nat}
    (hs : (s : Int) ≤ t.max) (h : condMul isOne i.2 s ≤ t.max) :
    ∃ ty, condMulM t isOne i s = .ok (ty, condMul isOne i.2 s) ∧ 1 ≤ ty.bits ∧ Representable ty (condMul isOne i.2 s) ∧
      0 ≤ condMul isOne i.2 s := by
  unfold condMulM
  unfold condMul at *
  cases isOne with
  | true => exact ⟨i.1, by simp, hi.1, by simpa using hi.2, by simpa using h0⟩
  | false =>
    simp only [Bool.false_eq_true, if_false] at h ⊢
    have hs' := rep_of_nonneg t (x := s) (by omega) hs
    rw [mul_ok i.1 t hi.1 hb hi.2 hs' h0 (by omega) h, bind_ok]
    have hn : 0 ≤ i.2 * (s : Int) := Int.mul_nonneg h0 (by omega)
    exact ⟨_, rfl, common_bits _ _ hi.1 hb, (common_nonneg i.1 t hi.2 hs' h0 (by omega) hn h).2.2, hn⟩

theorem getLinearIndexM_ok (t : IntTy) (hb : 1 ≤ t.bits) : ∀ (ss : List Nat) (idx : List (IntTy × Int)) (usd : Int),
    (∀ s ∈ ss, (s : Int) ≤ t.max) → (∀ i ∈ idx, Typed i ∧ 0 ≤ i.2) →
    getLinearIndex usd ss (idx.map Prod.snd) ≤ t.max →
    getLinearIndexM t usd (ss.map Int.ofNat) idx = .ok (getLinearIndex usd ss (idx.map Prod.snd)) ∧
      0 ≤ getLinearIndex usd ss (idx.map Prod.snd)
  | [], [], _, _, _, _ => ⟨rfl, by simp [getLinearIndex]⟩
  | [], [_], _, _, _, _ => ⟨rfl, by simp [getLinearIndex]⟩
  | [], _ :: _ :: _, _, _, _, _ => ⟨rfl, by simp [getLinearIndex]⟩
  | _ :: _, [], _, _, _, _ => ⟨rfl, by simp [getLinearIndex]⟩
  | s :: ss, [i], usd, hs, hi, h => by
    have h1 : condMul (usd == 0) i.2 s ≤ t.max := h
    obtain ⟨ty, e, hty, hr, hn⟩ := condMulM_ok t hb (usd == 0) (hi i (by simp)).1 (hi i (by simp)).2 (hs s (by simp)) h1
    refine ⟨?_, hn⟩
    show (condMulM t (usd == 0) i (s : Int) >>= fun p => (.ok (t.cast p.2) : R Int)) = _
    rw [e, bind_ok, cast_of_representable t hb _ (rep_of_nonneg t hn h1)]
    rfl
  | s :: ss, i :: j :: js, usd, hs, hi, h => by
    have hnn : ∀ (ss : List Nat) (js : List Int) (usd : Int), (∀ i ∈ js, 0 ≤ i) → 0 ≤ getLinearIndex usd ss js := by
      intro ss js usd
      fun_induction getLinearIndex usd ss js with
      | case1 usd s _ i =>
        intro h
        have := h i (by simp)
        unfold condMul
        split
        · exact this
        · exact Int.mul_nonneg this (by omega)
      | case2 usd s ss i j js ih =>
        intro h
        have := h i (by simp)
        have h2 := ih (fun k hk => h k (by simp at hk ⊢; exact Or.inr hk))
        have : 0 ≤ condMul (usd == 0) i s := by
          unfold condMul
          split
          · exact this
          · exact Int.mul_nonneg this (by omega)
        omega
      | case3 => intro _; omega
    have h' : condMul (usd == 0) i.2 s + getLinearIndex (usd - 1) ss ((j :: js).map Prod.snd) ≤ t.max := h
    have hrest := hnn ss ((j :: js).map Prod.snd) (usd - 1) (by
      intro k hk
      obtain ⟨q, hq, rfl⟩ := List.mem_map.mp hk
      exact (hi q (by simp at hq ⊢; exact Or.inr hq)).2)
    have hterm : 0 ≤ condMul (usd == 0) i.2 s := by
      have := (hi i (by simp)).2
      unfold condMul
      split
      · exact this
      · exact Int.mul_nonneg this (by omega)
    obtain ⟨ty, e, hty, hr, hn⟩ := condMulM_ok t hb (usd == 0) (hi i (by simp)).1 (hi i (by simp)).2 (hs s (by simp))
      (by omega)
    obtain ⟨ih, _⟩ := getLinearIndexM_ok t hb ss (j :: js) (usd - 1) (fun q hq => hs q (by simp [hq]))
      (fun q hq => hi q (by simp at hq ⊢; exact Or.inr hq)) (by omega)
    refine ⟨?_, by show 0 ≤ condMul (usd == 0) i.2 s + getLinearIndex (usd - 1) ss ((j :: js).map Prod.snd); omega⟩
    show (condMulM t (usd == 0) i (s : Int) >>= fun p =>
      getLinearIndexM t (usd - 1) (ss.map Int.ofNat) (j :: js) >>= fun r =>
        add p.1 t p.2 r >>= fun q => (.ok (t.cast q) : R Int)) = _
    rw [e, bind_ok, ih, bind_ok]
    rw [add_ok ty t hty hb hr (rep_of_nonneg t hrest (by omega)) hn hrest h', bind_ok,
      cast_of_representable t hb _ (rep_of_nonneg t (by omega) h')]
    rfl

theorem invalidIndicesM_eq (t : IntTy) (hb : 1 ≤ t.bits) (dims : List Nat) (h : ∀ k, (dims.getD k 0 : Int) ≤ t.max)
    (idx : List (IntTy × Int)) (hi : ∀ i ∈ idx, Typed i) :
    invalidIndicesM t (dims.map Int.ofNat) idx = invalidIndices dims (idx.map Prod.snd) := by
  unfold invalidIndicesM invalidIndices
  rw [List.foldl_map]
  have key : ∀ (l : List (IntTy × Int)) (st : Nat × Bool), (∀ i ∈ l, Typed i) →
      l.foldl (fun (st : Nat × Bool) (index : IntTy × Int) =>
        (st.1 + 1, st.2 || lt index.1 int index.2 0 || !lt index.1 t index.2 ((dims.map Int.ofNat).getD st.1 0))) st =
      l.foldl (fun (st : Nat × Bool) (index : IntTy × Int) =>
        (st.1 + 1, st.2 || decide (index.2 < 0) || decide (index.2 ≥ ((dims.getD st.1 0 : Nat) : Int)))) st := by
    intro l
    induction l with
    | nil => intro _ _; rfl
    | cons i l ih =>
      intro st hl
      rw [List.foldl_cons, List.foldl_cons, ih _ (fun q hq => hl q (by simp [hq]))]
      congr 1
      have ht := hl i (by simp)
      rw [lt_zero i.1 ht.1 ht.2, getD_map_ofNat]
      by_cases hneg : i.2 < 0
      · simp [hneg]
      · have := lt_exact i.1 t ht.1 hb ht.2 (rep_of_nonneg t (by omega) (h st.1)) (Or.inr ⟨by omega, by omega⟩)
        rw [this]
        simp [hneg]
        by_cases h2 : i.2 < (dims[st.1]?.getD 0 : Nat) <;> simp_all [List.getD_eq_getElem?_getD] <;> omega
  rw [key idx _ hi]

end LvArray

import Verif.MachineLemmas

/-!
# Arrays with machine integers compute what arrays with unbounded integers compute, as long as the shapes fit
-/

namespace LvArray

open indexing IntTy Props Spec

variable {T : Type}

theorem size_of (t : IntTy) (hb : 1 ≤ t.bits) (a : ArrayN T) (hf : Fits t a.dims) :
    (ArrM.of a).size t = .ok (a.size : Int) := by
  unfold ArrM.size ArrayN.size
  rw [multiplyAll_eq]
  exact multiplyAllM_ok t hb a.dims hf.1

theorem position_of (t : IntTy) (hb : 1 ≤ t.bits) (c : Cfg) (a : ArrayN T) (h : Wf a) (hf : Fits t a.dims)
    (idx : List (IntTy × Int)) (hi : ∀ i ∈ idx, Typed i) (hl : idx.length = a.dims.length)
    (hc : c.boundsCheck = true ∨ InBounds a.dims (idx.map Prod.snd)) :
    (ArrM.of a).position t c idx = a.view.call c (idx.map Prod.snd) := by
  have hinv : invalidIndicesM t (ArrM.of a).dims idx = invalidIndices a.dims (idx.map Prod.snd) :=
    invalidIndicesM_eq t hb a.dims (fun k => hf.mem k) idx hi
  by_cases hin : InBounds a.dims (idx.map Prod.snd)
  · have hcall := call_ok h.isPerm c hin
    rw [h.view, hcall]
    have hv := (invalidIndices_iff a.dims (idx.map Prod.snd) (by simpa using hl)).mpr hin
    unfold ArrM.position
    rw [hinv, hv, errorIf_false]
    have hlin := linearIndex_eq_horner h.isPerm (InBounds.length hin)
    have hbd := horner_bounds ((reorder_inBounds h.isPerm).mp hin).2
    rw [reorder_prod h.isPerm] at hbd
    have hpr := hf.prod
    have hcomp := (getLinearIndexM_ok t hb (calculateStrides a.perm a.dims) idx
      ((typeManipulation.getStrideOneDimension a.perm : Nat) : Int) (strides_le t h.isPerm hf)
      (fun i hmem => ⟨hi i hmem, by
        obtain ⟨k, hk, rfl⟩ := List.getElem_of_mem hmem
        have := (inBounds_iff.mp hin).2 k (by omega)
        simpa [List.getD_eq_getElem?_getD, hk] using this.1⟩)
      (by rw [hlin]; omega)).1
    rw [hlin] at hcomp
    have hs : (ArrM.of a).strides = (calculateStrides a.perm a.dims).map Int.ofNat := by
      show a.strides.map Int.ofNat = _
      rw [h.strides]
    rw [hs]
    dsimp only
    split <;> exact hcomp
  · have hbc := hc.resolve_right hin
    have hv : invalidIndices a.dims (idx.map Prod.snd) = true := by
      cases he : invalidIndices a.dims (idx.map Prod.snd) with
      | true => rfl
      | false => exact absurd ((invalidIndices_iff a.dims _ (by simpa using hl)).mp he) hin
    unfold ArrM.position
    rw [hinv, hv]
    unfold Slice.call
    have : a.view.dims = a.dims := rfl
    rw [if_pos hbc, if_pos hbc, errorIf_true, bind_err, this]
    unfold checkIndices
    rw [hv, errorIf_true, bind_err]

theorem newDimension_eq (t : IntTy) (hb : 1 ≤ t.bits) (d : IntTy × Int) (hd : Typed d) (hs : t.signed = true ∨ 0 ≤ d.2) :
    ArrM.newDimension t d = if 0 ≤ d.2 ∧ d.2 ≤ t.max then .ok d.2 else .error .abort := by
  have hw : ¬ WrapsSilently d.1 t d.2 := by
    rintro ⟨-, h2, -, h4⟩
    rcases hs with h | h
    · rw [h] at h2; cases h2
    · omega
  obtain ⟨h1, h2⟩ := C34_integerConversion_partial d.1 t hd.1 hb d.2 hd.2 hw
  unfold ArrM.newDimension
  by_cases hr : Representable t d.2
  · rw [h1 hr, bind_ok, lt_zero t hb hr]
    by_cases h0 : 0 ≤ d.2
    · rw [if_pos ⟨h0, hr.2⟩, show decide (d.2 < 0) = false by simpa using h0, errorIf_false, bind_ok]
    · rw [if_neg (fun h => h0 h.1), show decide (d.2 < 0) = true by simp; omega, errorIf_true, bind_err]
  · rw [h2 hr, bind_err, if_neg]
    intro h
    exact hr (rep_of_nonneg t h.1 h.2)

theorem mapM_newDimension (t : IntTy) (hb : 1 ≤ t.bits) : ∀ (l : List (IntTy × Int)), (∀ d ∈ l, Typed d) →
    (t.signed = true ∨ ∀ d ∈ l, 0 ≤ d.2) → (∀ d ∈ l, d.2 ≤ t.max) →
    l.mapM (ArrM.newDimension t) =
      if l.any (fun d => decide (d.2 < 0)) then .error .abort else .ok (l.map Prod.snd)
  | [], _, _, _ => rfl
  | d :: l, ht, hs, hm => by
    have ih := mapM_newDimension t hb l (fun x hx => ht x (by simp [hx]))
      (hs.imp_right fun h x hx => h x (by simp [hx])) (fun x hx => hm x (by simp [hx]))
    rw [List.mapM_cons, newDimension_eq t hb d (ht d (by simp)) (hs.imp_right fun h => h d (by simp)), ih]
    have hmd := hm d (by simp)
    rw [List.any_cons]
    by_cases h0 : 0 ≤ d.2
    · rw [if_pos ⟨h0, hmd⟩, bind_ok, show decide (d.2 < 0) = false by simpa using h0, Bool.false_or]
      split <;> rfl
    · rw [if_neg (fun h => h0 h.1), bind_err, show decide (d.2 < 0) = true by simp; omega, Bool.true_or, if_pos rfl]

theorem foldlM_newDimension (t : IntTy) (hb : 1 ≤ t.bits) : ∀ (l : List (Nat × IntTy × Int)) (ds : List Nat),
    (∀ d ∈ l, Typed d.2) → (t.signed = true ∨ ∀ d ∈ l, 0 ≤ d.2.2) → (∀ d ∈ l, d.2.2 ≤ t.max) →
    l.foldlM (fun (ds : List Int) (q : Nat × IntTy × Int) => do
      let k ← ArrM.newDimension t q.2
      (.ok (ds.set q.1 k) : R (List Int))) (ds.map Int.ofNat) =
      if l.any (fun d => decide (d.2.2 < 0)) then .error .abort
      else .ok ((l.foldl (fun ds q => ds.set q.1 q.2.2.toNat) ds).map Int.ofNat)
  | [], _, _, _, _ => rfl
  | d :: l, ds, ht, hs, hm => by
    have ih := foldlM_newDimension t hb l (ds.set d.1 d.2.2.toNat) (fun x hx => ht x (by simp [hx]))
      (hs.imp_right fun h x hx => h x (by simp [hx])) (fun x hx => hm x (by simp [hx]))
    have hmd := hm d (by simp)
    rw [List.foldlM_cons, newDimension_eq t hb d.2 (ht d (by simp)) (hs.imp_right fun h => h d (by simp))]
    rw [List.any_cons]
    by_cases h0 : 0 ≤ d.2.2
    · rw [if_pos ⟨h0, hmd⟩, bind_ok, bind_ok, show decide (d.2.2 < 0) = false by simpa using h0, Bool.false_or, List.foldl_cons, ← ih,
        List.map_set]
      have : Int.ofNat d.2.2.toNat = d.2.2 := Int.toNat_of_nonneg h0
      rw [this]
    · rw [if_neg (fun h => h0 h.1), bind_err, bind_err, show decide (d.2.2 < 0) = true by simp; omega, Bool.true_or, if_pos rfl]

theorem reshape_of (t : IntTy) (hb : 1 ≤ t.bits) (c : Cfg) (a : ArrayN T) (hf : Fits t a.dims) (dims : List Nat) (v : T)
    (hp : IsPermutation a.perm dims.length) (hn : Fits t dims) :
    (ArrM.of a).reshape t c (a.size : Int) (dims.map Int.ofNat) v =
      (do let b ← bufferManipulation.resize c a.buf a.size (multiplyAll dims) v
          (.ok { a with buf := b, dims := dims, strides := calculateStrides a.perm dims } : R (ArrayN T))).map ArrM.of := by
  unfold ArrM.reshape
  have e1 : (ArrM.of a).perm = a.perm := rfl
  have e2 : (ArrM.of a).buf = a.buf := rfl
  have hsz : a.size = a.dims.prod := multiplyAll_eq _
  rw [e1, calculateStridesM_ok t hb hp hn, bind_ok, multiplyAllM_ok t hb dims hn.1, bind_ok, hsz, toOffset_ok hf.prod.2,
    bind_ok, toOffset_ok hn.prod.2, bind_ok, e2, multiplyAll_eq]
  cases bufferManipulation.resize c a.buf a.dims.prod dims.prod v <;> rfl

theorem resize_of (t : IntTy) (hb : 1 ≤ t.bits) (c : Cfg) (a : ArrayN T) (h : Wf a) (hf : Fits t a.dims)
    (dims : List (IntTy × Int)) (v : T) (ht : ∀ d ∈ dims, Typed d) (hs : t.signed = true ∨ ∀ d ∈ dims, 0 ≤ d.2)
    (hn : Fits t (dims.map (fun d => d.2.toNat))) :
    (ArrM.of a).resize t c dims v = (a.resize c (dims.map Prod.snd) v).map ArrM.of := by
  unfold ArrM.resize ArrayN.resize
  have e0 : (ArrM.of a).dims.length = a.dims.length := by simp [ArrM.of]
  rw [e0, List.length_map]
  cases hlen : (dims.length != a.dims.length) with
  | true => rfl
  | false =>
    have hl : dims.length = a.dims.length := by simpa using hlen
    rw [errorIf_false, bind_ok, bind_ok, size_of t hb a hf, bind_ok]
    have hmax : ∀ d ∈ dims, d.2 ≤ t.max := by
      intro d hd
      have := mem_le_filter (List.mem_map.mpr ⟨d, hd, rfl⟩ : d.2.toNat ∈ dims.map (fun d => d.2.toNat))
      have := hn.1
      omega
    rw [mapM_newDimension t hb dims ht hs hmax, List.any_map]
    cases hany : dims.any (fun d => decide (d.2 < 0)) with
    | true =>
      have : dims.any ((fun d => decide (d < 0)) ∘ Prod.snd) = true := hany
      rw [this]
      rfl
    | false =>
      have : dims.any ((fun d => decide (d < 0)) ∘ Prod.snd) = false := hany
      rw [this, errorIf_false, bind_ok]
      simp only [Bool.false_eq_true, if_false]
      rw [bind_ok]
      have e1 : dims.map Prod.snd = (dims.map (fun d => d.2.toNat)).map Int.ofNat := by
        rw [List.map_map]
        apply List.map_congr_left
        intro d hd
        have : ¬ d.2 < 0 := by
          have := List.any_eq_false.mp hany d hd
          simpa using this
        show d.2 = ((d.2.toNat : Nat) : Int)
        omega
      have e2 : (dims.map Prod.snd).map Int.toNat = dims.map (fun d => d.2.toNat) := by rw [List.map_map]; rfl
      rw [e2, e1, reshape_of t hb c a hf _ v (by simpa [hl] using h.isPerm) hn]

theorem resizeDimension_of (t : IntTy) (hb : 1 ≤ t.bits) (c : Cfg) (a : ArrayN T) (h : Wf a) (hf : Fits t a.dims)
    (pairs : List (Nat × IntTy × Int)) (v : T) (ht : ∀ d ∈ pairs, Typed d.2)
    (hs : t.signed = true ∨ ∀ d ∈ pairs, 0 ≤ d.2.2) (hmax : ∀ d ∈ pairs, d.2.2 ≤ t.max)
    (hn : Fits t (pairs.foldl (fun ds q => ds.set q.1 q.2.2.toNat) a.dims)) :
    (ArrM.of a).resizeDimension t c pairs v =
      (a.resizeDimension c (pairs.map (fun q => (q.1, q.2.2))) v).map ArrM.of := by
  unfold ArrM.resizeDimension ArrayN.resizeDimension
  have e0 : (ArrM.of a).dims = a.dims.map Int.ofNat := rfl
  have e3 := foldlM_newDimension t hb pairs a.dims ht hs hmax
  rw [size_of t hb a hf, bind_ok, e0, e3, List.any_map]
  cases hany : pairs.any (fun d => decide (d.2.2 < 0)) with
  | true =>
    have : pairs.any ((fun q => decide (q.2 < 0)) ∘ fun q => (q.1, q.2.2)) = true := hany
    rw [this]
    rfl
  | false =>
    have : pairs.any ((fun q => decide (q.2 < 0)) ∘ fun q => (q.1, q.2.2)) = false := hany
    rw [this, errorIf_false, bind_ok]
    simp only [Bool.false_eq_true, if_false]
    rw [bind_ok]
    have hlen : ∀ (l : List (Nat × IntTy × Int)) (ds : List Nat),
        (l.foldl (fun ds q => ds.set q.1 q.2.2.toNat) ds).length = ds.length := by
      intro l
      induction l with
      | nil => intro ds; rfl
      | cons x l ih => intro ds; rw [List.foldl_cons, ih, List.length_set]
    rw [List.foldl_map, reshape_of t hb c a hf _ v (by rw [hlen]; exact h.isPerm) hn]

theorem filter_set_zero (l : List Nat) (k : Nat) : ((l.set k 0).filter (· ≠ 0)).prod ≤ (l.filter (· ≠ 0)).prod := by
  induction l generalizing k with
  | nil => simp
  | cons x l ih =>
    cases k with
    | zero =>
      rw [List.set_cons_zero, List.filter_cons, if_neg (by simp)]
      exact sublist_filter_le (List.sublist_cons_self x l)
    | succ k =>
      rw [List.set_cons_succ, List.filter_cons, List.filter_cons]
      split
      · rw [List.prod_cons, List.prod_cons]; exact Nat.mul_le_mul_left _ (ih k)
      · exact ih k

theorem Fits.clear {t : IntTy} {dims : List Nat} (h : Fits t dims) (k : Nat) : Fits t (dims.set k 0) := by
  have := filter_set_zero dims k
  have := h.1
  have := h.2
  constructor <;> omega

theorem clear_of (t : IntTy) (hb : 1 ≤ t.bits) (c : Cfg) (a : ArrayN T) (h : Wf a) (hf : Fits t a.dims) (v : T) :
    (ArrM.of a).clear t c v = (a.clear c v).map ArrM.of := by
  unfold ArrM.clear ArrayN.clear
  have hsz : a.size = a.dims.prod := multiplyAll_eq _
  rw [size_of t hb a hf, bind_ok, hsz, toOffset_ok hf.prod.2, bind_ok]
  have e1 : (ArrM.of a).dims.set (ArrM.of a).resizeIndex 0 = (a.dims.set a.resizeIndex 0).map Int.ofNat := by
    rw [List.map_set]; rfl
  have e2 : (ArrM.of a).buf = a.buf := rfl
  have e3 : (ArrM.of a).perm = a.perm := rfl
  rw [e2]
  cases bufferManipulation.resize c a.buf a.dims.prod 0 v with
  | error e => rfl
  | ok b =>
    rw [bind_ok, bind_ok]
    simp only [e1, e3]
    rw [calculateStridesM_ok t hb (by simpa using h.isPerm) (hf.clear _), bind_ok]
    rfl

theorem set_of (t : IntTy) (hb : 1 ≤ t.bits) (c : Cfg) (a : ArrayN T) (h : Wf a) (hf : Fits t a.dims)
    (idx : List (IntTy × Int)) (v : T) (hi : ∀ i ∈ idx, Typed i) (hl : idx.length = a.dims.length)
    (hc : c.boundsCheck = true ∨ InBounds a.dims (idx.map Prod.snd)) :
    (ArrM.of a).set t c idx v = (a.set c (idx.map Prod.snd) v).map ArrM.of := by
  unfold ArrM.set ArrayN.set
  rw [position_of t hb c a h hf idx hi hl hc]
  have e2 : (ArrM.of a).buf = a.buf := rfl
  cases a.view.call c (idx.map Prod.snd) with
  | error e => rfl
  | ok k =>
    rw [bind_ok, bind_ok]
    split
    · rfl
    · rw [e2]
      cases a.buf.write c k.toNat v <;> rfl

theorem get_of (t : IntTy) (hb : 1 ≤ t.bits) (c : Cfg) (a : ArrayN T) (h : Wf a) (hf : Fits t a.dims)
    (idx : List (IntTy × Int)) (hi : ∀ i ∈ idx, Typed i) (hl : idx.length = a.dims.length)
    (hc : c.boundsCheck = true ∨ InBounds a.dims (idx.map Prod.snd)) :
    (ArrM.of a).get t c idx = a.get c (idx.map Prod.snd) := by
  unfold ArrM.get ArrayN.get
  rw [position_of t hb c a h hf idx hi hl hc]
  rfl

/-! ## The single parameter resize -/

theorem forUp_congr {σ : Type} {f g : Nat → σ → R σ} : ∀ (n lo : Nat) (s : σ),
    (∀ i s, lo ≤ i → i < lo + n → f i s = g i s) → forUp n lo f s = forUp n lo g s
  | 0, _, _, _ => rfl
  | n + 1, lo, s, h => by
    show (f lo s >>= forUp n (lo + 1) f) = (g lo s >>= forUp n (lo + 1) g)
    rw [h lo s (Nat.le_refl _) (by omega)]
    cases g lo s with
    | error e => rfl
    | ok s' => exact forUp_congr n (lo + 1) s' (fun i s h1 h2 => h i s (by omega) (by omega))

/-- In a signed type `i - 1` is exact down to `-1`. -/
theorem sub_one_ok (t : IntTy) (hb : 1 ≤ t.bits) (hs : t.signed = true) {i : Int} (h0 : 0 ≤ i) (h : i ≤ t.max) :
    sub t int i 1 = .ok (i - 1) ∧ t.cast (i - 1) = i - 1 := by
  have h32 : (1 : Nat) ≤ int.bits := by decide
  have hr := rep_of_nonneg t h0 h
  have h1 : Representable int 1 := rep_of_nonneg _ (by omega) (by decide)
  have hm1 : Representable int (-1) := ⟨by decide, by decide⟩
  have ha := common_representable t int hr h1 (Or.inl ⟨hs, rfl⟩)
  have hbm := common_representable t int hr hm1 (Or.inl ⟨hs, rfl⟩)
  have hc := common_bits t int hb h32
  have hres : Representable (common t int) (i - 1) := by
    refine ⟨?_, ?_⟩
    · have := hbm.2.1; omega
    · have := ha.1.2; omega
  refine ⟨?_, ?_⟩
  · unfold sub
    rw [cast_of_representable _ hc _ ha.1, cast_of_representable _ hc _ ha.2, fit_ok _ hc hres]
  · refine cast_of_representable t hb _ ⟨?_, by omega⟩
    have := two_pow_pos (t.bits - 1)
    unfold IntTy.min
    rw [if_pos hs]
    omega

theorem growLoop_of (t : IntTy) (hb : 1 ≤ t.bits) (hs : t.signed = true) (c : Cfg) (add shift N : Nat) (v : T)
    (hN : (N : Int) ≤ t.max) (hadd : ((add * N : Nat) : Int) ≤ t.max) (hshift : ((shift * N : Nat) : Int) ≤ t.max)
    (hadd2 : ((add * N : Nat) : Int) ≤ ptrdiff.max) (hshift2 : ((shift * N : Nat) : Int) ≤ ptrdiff.max) :
    ∀ (n fuel : Nat) (b : Buf T), n ≤ N → n < fuel →
      ArrM.growLoop t c add shift v fuel ((n : Int) - 1) b = ArrayN.growLoop c add shift n v b
  | 0, fuel + 1, b, _, _ => by
    show (if lt t int ((0 : Nat) - 1 : Int) 0 = true then _ else _) = _
    have hr : Representable t (-1) := by
      have := two_pow_pos (t.bits - 1)
      have hm := (max_representable t).2
      refine ⟨?_, by omega⟩
      unfold IntTy.min
      rw [if_pos hs]
      omega
    have : lt t int (-1) 0 = true := by rw [lt_zero t hb hr]; rfl
    rw [show (((0 : Nat) : Int) - 1) = -1 by omega, if_pos this]
    rfl
  | n + 1, fuel + 1, b, hn, hfuel => by
    have hmul : ∀ x : Nat, x * n ≤ x * N := fun x => Nat.mul_le_mul_left _ (by omega)
    have hpos : ∀ x : Nat, x ≤ x * N := fun x => Nat.le_mul_of_pos_right _ (by omega)
    have h1 := hmul add
    have h2 := hmul shift
    have h3 := hpos add
    have h4 := hpos shift
    have e0 : (((n + 1 : Nat) : Int) - 1) = (n : Int) := by omega
    rw [e0]
    have hrn : Representable t (n : Int) := rep_of_nonneg t (by omega) (by omega)
    unfold ArrM.growLoop
    have : lt t int (n : Int) 0 = false := by rw [lt_zero t hb hrn]; simp
    rw [this, if_neg (by decide)]
    rw [mulTo_ok t hb (by omega) (by omega) (by omega) (by omega) (by rw [← Int.natCast_mul]; omega), bind_ok,
      mulTo_ok t hb (by omega) (by omega) (by omega) (by omega) (by rw [← Int.natCast_mul]; omega), bind_ok,
      ← Int.natCast_mul, ← Int.natCast_mul, toOffset_ok (by omega), bind_ok, toOffset_ok (by omega), bind_ok,
      toOffset_ok (by omega), bind_ok, toOffset_ok (by omega), bind_ok]
    obtain ⟨s1, s2⟩ := sub_one_ok t hb hs (i := n) (by omega) (by omega)
    show _ = forDown (n + 1) 0 _ b
    unfold forDown
    simp only [Nat.zero_add]
    cases arrayManipulation.shiftUp c b (shift * n) shift 0 (add * n) with
    | error e => rfl
    | ok b1 =>
      simp only [bind_ok]
      cases arrayManipulation.constructRange c b1 (shift * n + shift + add * n) add (fun _ => v) with
      | error e => rfl
      | ok b2 =>
        simp only [bind_ok]
        rw [s1, bind_ok, s2]
        exact growLoop_of t hb hs c add shift N v hN hadd hshift hadd2 hshift2 n fuel b2 (by omega) (by omega)

theorem cast_nat (t : IntTy) (hb : 1 ≤ t.bits) {n : Nat} (h : (n : Int) ≤ t.max) : t.cast n = n :=
  cast_of_representable t hb _ (rep_of_nonneg t (by omega) h)

/-- The numbers the two branches compute before their loops. -/
theorem counts_ok (t : IntTy) (hb : 1 ≤ t.bits) (st big small N : Nat) (hlt : small < big) (hst : 0 < st) (hN : 0 < N)
    (hfit : ((st * big * N : Nat) : Int) ≤ t.max) :
    sub t t (big : Int) (small : Int) = .ok ((big - small : Nat) : Int) ∧
    mul t (common t t) (st : Int) ((big - small : Nat) : Int) = .ok ((st * (big - small) : Nat) : Int) ∧
    t.cast ((st * (big - small) : Nat) : Int) = ((st * (big - small) : Nat) : Int) ∧
    t.mulTo (st : Int) (small : Int) = .ok ((st * small : Nat) : Int) ∧
    sub t t ((st * big * N : Nat) : Int) ((st * small * N : Nat) : Int) = .ok ((st * big * N - st * small * N : Nat) : Int) ∧
    div (common t t) t ((st * big * N - st * small * N : Nat) : Int) ((st * (big - small) : Nat) : Int) = .ok (N : Int) ∧
    t.cast (N : Int) = N ∧ (st * big * N - st * small * N) / (st * (big - small)) = N ∧
    st * (big - small) * N ≤ st * big * N ∧ st * small * N ≤ st * big * N ∧ (N : Int) ≤ t.max := by
  have b1 : big ≤ st * big := Nat.le_mul_of_pos_left _ hst
  have b2 : st * big ≤ st * big * N := Nat.le_mul_of_pos_right _ hN
  have b3 : st * (big - small) ≤ st * big := Nat.mul_le_mul_left _ (by omega)
  have b4 : st * small ≤ st * big := Nat.mul_le_mul_left _ (by omega)
  have b5 : st ≤ st * big := Nat.le_mul_of_pos_right _ (by omega)
  have b6 : N ≤ st * big * N := Nat.le_mul_of_pos_left _ (Nat.mul_pos hst (by omega))
  have b7 : st * small * N ≤ st * big * N := Nat.mul_le_mul_right _ b4
  have b8 : st * (big - small) * N ≤ st * big * N := Nat.mul_le_mul_right _ b3
  have hc := common_bits t t hb hb
  have hcm := common_self_max t
  have hpos : 0 < st * (big - small) := Nat.mul_pos hst (by omega)
  have hdiv : (st * big * N - st * small * N) / (st * (big - small)) = N := by
    have : st * big * N - st * small * N = N * (st * (big - small)) := by
      rw [← Nat.sub_mul, ← Nat.mul_sub, Nat.mul_comm]
    rw [this, Nat.mul_div_cancel _ hpos]
  have nn : ∀ n : Nat, (n : Int) ≤ t.max → Representable t (n : Int) := fun n h => rep_of_nonneg t (by omega) h
  have nc : ∀ n : Nat, (n : Int) ≤ t.max → Representable (common t t) (n : Int) :=
    fun n h => rep_of_nonneg _ (by omega) (by omega)
  refine ⟨?_, ?_, cast_nat t hb (by omega), ?_, ?_, ?_, cast_nat t hb (by omega), hdiv, b8, b7, by omega⟩
  · rw [sub_ok t t hb hb (nn big (by omega)) (nn small (by omega)) (by omega) (by omega)]
    congr 1; omega
  · rw [mul_ok t _ hb hc (nn st (by omega)) (nc _ (by omega)) (by omega) (by omega)
      (by rw [← Int.natCast_mul]; omega)]
    rw [Int.natCast_mul]
  · rw [mulTo_ok t hb (by omega) (by omega) (by omega) (by omega) (by rw [← Int.natCast_mul]; omega), Int.natCast_mul]
  · rw [sub_ok t t hb hb (nn _ (by omega)) (nn _ (by omega)) (by omega) (by omega)]
    congr 1; omega
  · rw [div_ok _ t hc hb (nc _ (by omega)) (nn _ (by omega)) (by omega) (by omega), ← Int.natCast_ediv, hdiv]

theorem grow_of (t : IntTy) (hb : 1 ≤ t.bits) (hs : t.signed = true) (c : Cfg) (b : Buf T) (st m n N : Nat) (v : T)
    (hlt : m < n) (hst : 0 < st) (hN : 0 < N) (hfit : ((st * n * N : Nat) : Int) ≤ t.max)
    (hfit2 : ((st * n * N : Nat) : Int) ≤ ptrdiff.max) :
    ArrM.grow t c b m n st ((st * m * N : Nat) : Int) ((st * n * N : Nat) : Int) v =
      (do let b ← bufferManipulation.reserve c b (st * m * N) (st * n * N)
          ArrayN.growLoop c (st * (n - m)) (st * m) ((st * n * N - st * m * N) / (st * (n - m))) v b) := by
  obtain ⟨k1, k2, k3, k4, k5, k6, k7, k8, k9, k10, k11⟩ := counts_ok t hb st n m N hlt hst hN hfit
  unfold ArrM.grow
  rw [toOffset_ok (by omega), bind_ok, toOffset_ok (by omega), bind_ok]
  cases bufferManipulation.reserve c b (st * m * N) (st * n * N) with
  | error e => rfl
  | ok b =>
    obtain ⟨s1, s2⟩ := sub_one_ok t hb hs (i := N) (by omega) k11
    simp only [bind_ok, k1, k2, k3, k4, k5, k6, k7, s1, s2]
    rw [Int.toNat_natCast, k8]
    exact growLoop_of t hb hs c _ _ N v k11 (by omega) (by omega) (by omega) (by omega) N (N + 2) b (Nat.le_refl _) (by omega)

theorem shrink_of (t : IntTy) (hb : 1 ≤ t.bits) (c : Cfg) (b : Buf T) (st m n N : Nat) (hlt : n < m) (hst : 0 < st)
    (hN : 0 < N) (hfit : ((st * m * N : Nat) : Int) ≤ t.max) (hfit2 : ((st * m * N : Nat) : Int) ≤ ptrdiff.max) :
    ArrM.shrink t c b m n st ((st * m * N : Nat) : Int) ((st * n * N : Nat) : Int) =
      ArrayN.shrinkLoop c (st * (m - n)) (st * n) ((st * m * N - st * n * N) / (st * (m - n))) (st * n * N) b := by
  obtain ⟨k1, k2, k3, k4, k5, k6, k7, k8, k9, k10, k11⟩ := counts_ok t hb st m n N hlt hst hN hfit
  have hsum : st * (m - n) + st * n = st * m := by rw [← Nat.mul_add]; congr 1; omega
  unfold ArrM.shrink ArrayN.shrinkLoop
  simp only [bind_ok, k1, k2, k3, k4, k5, k6, k7]
  rw [Int.toNat_natCast, k8]
  have hloop : ∀ b : Buf T, forUp (N - 1) 1 (fun i b => do
      let amountToShift ← t.mulTo ((st * (m - n) : Nat) : Int) i
      let start ← t.mulTo ((st * n : Nat) : Int) i
      let len ← add t t ((st * n : Nat) : Int) amountToShift
      let startOfShift ← toOffset start
      let length ← toOffset len
      let amount ← toOffset amountToShift
      arrayManipulation.shiftDown c b startOfShift length amount amount) b =
      forUp (N - 1) 1 (fun i b => arrayManipulation.shiftDown c b (st * n * i) (st * n + st * (m - n) * i)
        (st * (m - n) * i) (st * (m - n) * i)) b := by
    intro b
    apply forUp_congr
    intro i b hi1 hi2
    have g1 : st * (m - n) * i ≤ st * (m - n) * N := Nat.mul_le_mul_left _ (by omega)
    have g2 : st * n * i ≤ st * n * N := Nat.mul_le_mul_left _ (by omega)
    have g3 : st * (m - n) ≤ st * (m - n) * N := Nat.le_mul_of_pos_right _ hN
    have g4 : st * n ≤ st * n * N := Nat.le_mul_of_pos_right _ hN
    have g5 : st * (m - n) * N + st * n * N = st * m * N := by rw [← Nat.add_mul, hsum]
    rw [mulTo_ok t hb (by omega) (by omega) (by omega) (by omega) (by rw [← Int.natCast_mul]; omega), bind_ok,
      mulTo_ok t hb (by omega) (by omega) (by omega) (by omega) (by rw [← Int.natCast_mul]; omega), bind_ok,
      ← Int.natCast_mul, ← Int.natCast_mul,
      add_ok t t hb hb (rep_of_nonneg t (by omega) (by omega)) (rep_of_nonneg t (by omega) (by omega)) (by omega) (by omega)
        (by omega), bind_ok, ← Int.natCast_add, toOffset_ok (by omega), bind_ok, toOffset_ok (by omega), bind_ok,
      toOffset_ok (by omega), bind_ok]
  rw [hloop]
  have g3 : st * (m - n) ≤ st * (m - n) * N := Nat.le_mul_of_pos_right _ hN
  have g5 : st * n * N ≤ st * m * N := k10
  cases forUp (N - 1) 1 (fun i b => arrayManipulation.shiftDown c b (st * n * i) (st * n + st * (m - n) * i)
        (st * (m - n) * i) (st * (m - n) * i)) b with
  | error e => rfl
  | ok b1 =>
    simp only [bind_ok]
    rw [mulTo_ok t hb (by omega) (by omega) (by omega) (by omega) (by rw [← Int.natCast_mul]; omega), bind_ok,
      ← Int.natCast_mul, toOffset_ok (by omega), bind_ok, toOffset_ok (by omega), bind_ok]

theorem resizeDefaultDimension_of (t : IntTy) (hb : 1 ≤ t.bits) (c : Cfg) (a : ArrayN T) (h : Wf a) (hf : Fits t a.dims)
    (n : Int) (v : T) (hr : Representable t n) (hn : Fits t (a.dims.set a.resizeIndex n.toNat))
    (hs : t.signed = true ∨ n ≤ (a.dims.getD a.resizeIndex 0 : Nat)) :
    (ArrM.of a).resizeDefaultDimension t c n v = (a.resizeDefaultDimension c n v).map ArrM.of := by
  unfold ArrM.resizeDefaultDimension ArrayN.resizeDefaultDimension
  rw [lt_zero t hb hr]
  by_cases hneg : n < 0
  · rw [show decide (n < 0) = true by simpa using hneg, errorIf_true, bind_err, bind_err]; rfl
  rw [show decide (n < 0) = false by simpa using hneg, errorIf_false, bind_ok, bind_ok]
  obtain ⟨k, rfl⟩ : ∃ k : Nat, n = k := ⟨n.toNat, by omega⟩
  rw [Int.toNat_natCast] at hn
  simp only [Int.toNat_natCast]
  have hp := h.isPerm
  have hpn : IsPermutation a.perm (a.dims.set a.resizeIndex k).length := by simpa using hp
  obtain ⟨outer, inner, N, st, hN1, hsplit⟩ := address_split hp h.index
  have e1 := (hsplit (a.dims.getD a.resizeIndex 0)).2.1
  have e1s := (hsplit (a.dims.getD a.resizeIndex 0)).1
  have e2 := (hsplit k).2.1
  rw [set_self] at e1 e1s
  have e0 : (ArrM.of a).dims.set a.resizeIndex (k : Int) = (a.dims.set a.resizeIndex k).map Int.ofNat := by
    rw [List.map_set]; rfl
  have ep : (ArrM.of a).perm = a.perm := rfl
  have eb : (ArrM.of a).buf = a.buf := rfl
  have er : (ArrM.of a).resizeIndex = a.resizeIndex := rfl
  have el : (ArrM.of a).dims.length = a.dims.length := by simp [ArrM.of]
  have ed : (ArrM.of a).dims.getD a.resizeIndex 0 = (a.dims.getD a.resizeIndex 0 : Int) := getD_map_ofNat _ _
  have es : (ArrM.of a).strides.getD a.resizeIndex 0 = (a.strides.getD a.resizeIndex 0 : Int) := getD_map_ofNat _ _
  have hsz : a.size = a.dims.prod := multiplyAll_eq _
  have hsz2 : ArrayN.size { a with dims := a.dims.set a.resizeIndex k, strides := calculateStrides a.perm (a.dims.set a.resizeIndex k) } =
      (a.dims.set a.resizeIndex k).prod := multiplyAll_eq _
  simp only [e0, ep, eb, er, el, ed, es]
  rw [size_of t hb a hf, bind_ok, calculateStridesM_ok t hb hpn hn, bind_ok, multiplyAllM_ok t hb _ hn.1, bind_ok, hsz, hsz2]
  have hst : a.strides.getD a.resizeIndex 0 = st := by rw [h.strides]; exact e1s
  by_cases hfirst : a.dims.length = 1 ∨ a.perm.getD 0 0 = a.resizeIndex
  · rw [if_pos hfirst, if_pos hfirst, toOffset_ok hf.prod.2, bind_ok, toOffset_ok hn.prod.2, bind_ok]
    cases bufferManipulation.resize c a.buf a.dims.prod (a.dims.set a.resizeIndex k).prod v <;> rfl
  rw [if_neg hfirst, if_neg hfirst]
  by_cases hsame : (a.dims.set a.resizeIndex k).prod = a.dims.prod
  · rw [if_pos (by rw [hsame]), if_pos hsame]; rfl
  rw [if_neg (by omega), if_neg hsame, hst]
  have hpr := hf.prod
  have hpr2 := hn.prod
  rw [e1] at hsame hpr ⊢
  rw [e2] at hsame hpr2 ⊢
  generalize hm : a.dims.getD a.resizeIndex 0 = m at *
  have hstpos : 0 < st := by
    rcases Nat.eq_zero_or_pos st with h0 | h0
    · exact absurd (by rw [h0]; simp) hsame
    · exact h0
  have hNpos : 0 < N := by
    rcases Nat.eq_zero_or_pos N with h0 | h0
    · exact absurd (by rw [h0]; simp) hsame
    · exact h0
  have hmk : k ≠ m := fun h0 => hsame (by rw [h0])
  have hmm : (m : Int) ≤ t.max := by rw [← hm]; exact hf.mem _
  rw [lt_exact t t hb hb (rep_of_nonneg t (by omega) hmm) hr (Or.inr ⟨by omega, by omega⟩)]
  by_cases hgt : m < k
  · rw [if_pos (by simpa using hgt), if_pos hgt, grow_of t hb (hs.resolve_right (by omega)) c a.buf st m k N v hgt hstpos hNpos hpr2.1 hpr2.2]
    cases bufferManipulation.reserve c a.buf (st * m * N) (st * k * N) with
    | error e => rfl
    | ok b =>
      simp only [bind_ok]
      cases ArrayN.growLoop c (st * (k - m)) (st * m) ((st * k * N - st * m * N) / (st * (k - m))) v b <;> rfl
  · rw [if_neg (by simpa using hgt), if_neg hgt, shrink_of t hb c a.buf st m k N (by omega) hstpos hNpos hpr.1 hpr.2]
    cases ArrayN.shrinkLoop c (st * (m - k)) (st * k) ((st * m * N - st * k * N) / (st * (m - k))) (st * k * N) a.buf <;> rfl

theorem resizeOne_of (t : IntTy) (hb : 1 ≤ t.bits) (c : Cfg) (a : ArrayN T) (h : Wf a) (hf : Fits t a.dims)
    (n : IntTy × Int) (v : T) (hr : Representable t n.2) (hn : Fits t (a.dims.set a.resizeIndex n.2.toNat))
    (hs : t.signed = true ∨ n.2 ≤ (a.dims.getD a.resizeIndex 0 : Nat)) :
    (ArrM.of a).resizeOne t c n v = (a.resizeDefaultDimension c n.2 v).map ArrM.of := by
  unfold ArrM.resizeOne
  rw [cast_of_representable t hb _ hr]
  exact resizeDefaultDimension_of t hb c a h hf n.2 v hr hn hs

/-- With an unsigned index type the growing loop never reaches its end. -/
theorem growLoop_unsigned (t : IntTy) (hb : 1 ≤ t.bits) (hs : t.signed = false) (c : Cfg) (add shift : Int) (v : T) :
    ∀ (fuel : Nat) (i : Int) (b b' : Buf T), Representable t i → ArrM.growLoop t c add shift v fuel i b ≠ .ok b'
  | 0, _, _, _, _ => by intro h; cases h
  | fuel + 1, i, b, b', hi => by
    intro h
    unfold ArrM.growLoop at h
    have hi0 : 0 ≤ i := by
      have := hi.1
      unfold IntTy.min at this
      rw [hs] at this
      simpa using this
    have : lt t int i 0 = false := by rw [lt_zero t hb hi]; simpa using hi0
    rw [this, if_neg (by decide)] at h
    obtain ⟨_, _, h⟩ := bind_eq_ok.mp h
    obtain ⟨_, _, h⟩ := bind_eq_ok.mp h
    obtain ⟨_, _, h⟩ := bind_eq_ok.mp h
    obtain ⟨_, _, h⟩ := bind_eq_ok.mp h
    obtain ⟨_, _, h⟩ := bind_eq_ok.mp h
    obtain ⟨_, _, h⟩ := bind_eq_ok.mp h
    obtain ⟨_, _, h⟩ := bind_eq_ok.mp h
    obtain ⟨b1, _, h⟩ := bind_eq_ok.mp h
    obtain ⟨i', _, h⟩ := bind_eq_ok.mp h
    refine growLoop_unsigned t hb hs c add shift v fuel _ b1 b' ?_ h
    have hp := two_pow_pos t.bits
    unfold Representable IntTy.min IntTy.max IntTy.cast
    simp only [hs, Bool.false_eq_true, if_false, false_and]
    have := Int.emod_nonneg i' (Int.ne_of_gt hp)
    have := Int.emod_lt_of_pos i' hp
    omega

end LvArray

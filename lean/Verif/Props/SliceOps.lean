import Verif.Props.Indexing

/-!
# C06, C39, C45: iteration over slices, copies between slices, type-punned views
-/

namespace LvArray.Props

open indexing Spec

variable {σ T : Type}

/-! ## The enumeration used as specification -/

theorem mem_enumerate {dims : List Nat} {idx : List Int} : idx ∈ enumerate dims ↔ InBounds dims idx := by
  induction dims generalizing idx with
  | nil => cases idx <;> simp [enumerate, InBounds]
  | cons d ds ih =>
    simp only [enumerate, List.mem_flatMap, List.mem_range, List.mem_map]
    constructor
    · rintro ⟨i, hi, is, his, rfl⟩
      exact ⟨⟨by omega, by omega⟩, ih.mp his⟩
    · intro h
      cases idx with
      | nil => simp [InBounds] at h
      | cons i is =>
        obtain ⟨⟨h0, h1⟩, h2⟩ := h
        exact ⟨i.toNat, by omega, is, ih.mpr h2, by congr 1; omega⟩

theorem enumerate_sorted (dims : List Nat) : (enumerate dims).Pairwise (· < ·) := by
  induction dims with
  | nil => simp [enumerate]
  | cons d ds ih =>
    rw [enumerate, List.pairwise_flatMap]
    constructor
    · intro i _
      rw [List.pairwise_map]
      exact ih.imp (fun h => List.cons_lt_cons_iff.mpr (.inr ⟨rfl, h⟩))
    · have : (List.range d).Pairwise (· < ·) := List.pairwise_lt_range
      refine this.imp (fun {i j} hij => ?_)
      intro x hx y hy
      obtain ⟨a, _, rfl⟩ := List.mem_map.mp hx
      obtain ⟨b, _, rfl⟩ := List.mem_map.mp hy
      exact List.cons_lt_cons_iff.mpr (.inl (by omega))

theorem enumerate_nodup (dims : List Nat) : (enumerate dims).Nodup :=
  (enumerate_sorted dims).imp (fun h => by rintro rfl; exact List.lt_irrefl _ h)

/-! ## Iteration -/

/-- Running `g` over a list of multi-indices, left to right. -/
def visit (g : List Int → σ → R σ) : List (List Int) → σ → R σ
  | [], st => .ok st
  | idx :: rest, st => g idx st >>= visit g rest

theorem visit_append (g : List Int → σ → R σ) (a b : List (List Int)) (st : σ) :
    visit g (a ++ b) st = (visit g a st >>= visit g b) := by
  induction a generalizing st with
  | nil => rfl
  | cons x xs ih =>
    rw [List.cons_append, visit, visit]
    cases g x st with
    | error e => rfl
    | ok st' => exact ih st'

theorem visit_map (g : List Int → σ → R σ) (h : List Int → List Int) (a : List (List Int)) (st : σ) :
    visit g (a.map h) st = visit (fun i => g (h i)) a st := by
  induction a generalizing st with
  | nil => rfl
  | cons x xs ih =>
    rw [List.map_cons, visit, visit]
    cases g (h x) st with
    | error e => rfl
    | ok st' => exact ih st'

theorem visit_congr {g g' : List Int → σ → R σ} {l : List (List Int)} (h : ∀ i ∈ l, g i = g' i) (st : σ) :
    visit g l st = visit g' l st := by
  induction l generalizing st with
  | nil => rfl
  | cons x xs ih =>
    rw [visit, visit, h x (by simp)]
    cases g' x st with
    | error e => rfl
    | ok st' => exact ih (fun i hi => h i (by simp [hi])) st'

theorem forUp_visit (f : Nat → σ → R σ) (E : List (List Int)) (g : Nat → List Int → σ → R σ) (n lo : Nat) (st : σ)
    (h : ∀ i, lo ≤ i → i < lo + n → ∀ st, f i st = visit (g i) E st) (G : List Int → σ → R σ)
    (hG : ∀ (i : Nat) idx st, G ((i : Int) :: idx) st = g i idx st) :
    forUp n lo f st = visit G ((List.range' lo n).flatMap (fun (i : Nat) => E.map (fun idx => (i : Int) :: idx))) st := by
  induction n generalizing lo st with
  | zero => rfl
  | succ n ih =>
    rw [forUp, List.range'_succ, List.flatMap_cons, visit_append, h lo (Nat.le_refl _) (by omega), visit_map]
    have : visit (fun i => G ((lo : Int) :: i)) E st = visit (g lo) E st :=
      visit_congr (fun i _ => funext fun st => hG lo i st) st
    rw [this]
    cases visit (g lo) E st with
    | error e => rfl
    | ok st' => exact ih (lo + 1) st' (fun i h1 h2 => h i (by omega) (by omega))

/-- The slice reached by one in-bounds subscript. -/
theorem at_ok (c : Cfg) (s : Slice) {d : Nat} {ds : List Nat} (hd : s.dims = d :: ds)
    (hs : s.strides.length = s.dims.length) (i : Nat) (hi : i < d) :
    ∃ t, s.at_ c i = .ok t ∧ t.dims = ds ∧ t.strides.length = t.dims.length ∧
      ∀ idx, idx.length = ds.length → t.call c idx = s.call c ((i : Int) :: idx) := by
  have h1 := Slice.checkBounds_in c s i (by rw [hd]; simp; omega)
  refine ⟨_, by rw [Slice.at_, h1]; rfl, by simp [hd], ?_, fun idx hidx => ?_⟩
  · rw [hd] at hs ⊢; simp at hs ⊢; omega
  · have := Slice.chain_call c s [(i : Int)] idx (by rw [hd]; simp; omega) hs
    rw [Slice.chain, Slice.at_, h1] at this
    exact this

theorem forValuesInSliceWithIndices_eq (c : Cfg) (f : Int → List Int → σ → R σ) (n : Nat) (s : Slice)
    (hn : s.dims.length = n) (hs : s.strides.length = s.dims.length) (pre : List Int) (st : σ) :
    forValuesInSliceWithIndices c f n s pre st =
      visit (fun idx st => s.call c idx >>= fun a => f a (pre ++ idx) st) (enumerate s.dims) st := by
  induction n generalizing s pre st with
  | zero =>
    have hd : s.dims = [] := List.eq_nil_of_length_eq_zero hn
    rw [forValuesInSliceWithIndices, hd, enumerate, visit]
    rw [slice_call_ok c s (idx := []) (by rw [hd]; trivial)]
    have hg : getLinearIndex s.usd s.strides [] = 0 := by cases s.strides <;> rfl
    simp only [bind_ok, hg, Int.add_zero, List.append_nil]
    cases f s.data pre st with
    | error e => rfl
    | ok st' => rfl
  | succ n ih =>
    obtain ⟨d, ds, hd⟩ : ∃ d ds, s.dims = d :: ds := by
      cases h : s.dims with
      | nil => rw [h] at hn; simp at hn
      | cons d ds => exact ⟨d, ds, rfl⟩
    rw [forValuesInSliceWithIndices]
    have hdh : s.dims.headD 0 = d := by rw [hd]; rfl
    rw [hdh]
    rw [forUp_visit _ (enumerate ds) (fun i idx st => s.call c ((i : Int) :: idx) >>= fun a => f a (pre ++ (i : Int) :: idx) st)
      d 0 st ?_ (fun idx st => s.call c idx >>= fun a => f a (pre ++ idx) st) (fun i idx st => rfl), hd, enumerate,
      List.range_eq_range']
    intro i _ hi st
    obtain ⟨t, ht, htd, hts, htc⟩ := at_ok c s hd hs i (by omega)
    rw [ht]
    simp only [bind_ok]
    rw [ih t (by rw [htd]; rw [hd] at hn; simpa using hn) hts, htd]
    refine visit_congr (fun idx hidx => funext fun st => ?_) st
    rw [htc idx (InBounds.length (mem_enumerate.mp hidx))]
    simp

theorem forValuesInSlice_eq_withIndices (c : Cfg) (f : Int → σ → R σ) (n : Nat) (s : Slice) (pre : List Int) (st : σ) :
    forValuesInSlice c f n s st = forValuesInSliceWithIndices c (fun a _ st => f a st) n s pre st := by
  induction n generalizing s pre st with
  | zero => rfl
  | succ n ih =>
    rw [forValuesInSlice, forValuesInSliceWithIndices]
    congr 1
    funext i st
    cases s.at_ c i with
    | error e => rfl
    | ok t => exact ih t _ st

/-- **C06, iteration.** For every slice of every array (any permutation, any fixed leading indices) and every callback,
`forValuesInSlice` and `forValuesInSliceWithIndices` call the callback once per multi-index of the slice, in
lexicographic order of the multi-index, with the element at that multi-index (and the multi-index itself). -/
theorem C06_iteration (c : Cfg) (p dims : List Nat) (hv : typeManipulation.isValidPermutation p = true)
    (hl : p.length = dims.length) (pre : List Int) (s : Slice) (hs : (layout p dims).chain c pre = .ok s) :
    ((enumerate s.dims).Pairwise (· < ·) ∧ ∀ idx, idx ∈ enumerate s.dims ↔ InBounds s.dims idx) ∧
    (∀ (f : Int → σ → R σ) (st : σ), forValuesInSlice c f s.dims.length s st =
      visit (fun idx st => s.call c idx >>= fun a => f a st) (enumerate s.dims) st) ∧
    (∀ (f : Int → List Int → σ → R σ) (st : σ), forValuesInSliceWithIndices c f s.dims.length s [] st =
      visit (fun idx st => s.call c idx >>= fun a => f a idx st) (enumerate s.dims) st) := by
  have hp := isPermutation_of_valid hv hl
  obtain ⟨h1, h2, _⟩ := Slice.chain_shape hs
  have hlen : s.strides.length = s.dims.length := by
    rw [h1, h2, List.length_drop, List.length_drop]
    show (calculateStrides p dims).length - _ = dims.length - _
    rw [(calculateStrides_spec hp).1]
  refine ⟨⟨enumerate_sorted _, fun _ => mem_enumerate⟩, fun f st => ?_, fun f st => ?_⟩
  · rw [forValuesInSlice_eq_withIndices c f _ s [], forValuesInSliceWithIndices_eq c _ _ s rfl hlen]
  · exact forValuesInSliceWithIndices_eq c f _ s rfl hlen [] st

/-- Visiting a column major 2 x 3 array records the addresses in lexicographic order of the index pairs. -/
example : forValuesInSlice ⟨true, true, false⟩ (fun a (st : List Int) => .ok (st ++ [a])) 2 (layout [1, 0] [2, 3]) [] =
    .ok [0, 2, 4, 1, 3, 5] := by decide

/-- Different multi-indices of `s` refer to different elements. -/
def Distinct (c : Cfg) (s : Slice) : Prop :=
  ∀ i j, InBounds s.dims i → InBounds s.dims j → s.call c i = s.call c j → i = j

/-- Slices of arrays are `Distinct`. -/
theorem chain_distinct (c : Cfg) (p dims : List Nat) (hv : typeManipulation.isValidPermutation p = true)
    (hl : p.length = dims.length) (pre : List Int) (hpre : InBounds (dims.take pre.length) pre)
    {s : Slice} (hs : (layout p dims).chain c pre = .ok s) : Distinct c s := by
  have hp := isPermutation_of_valid hv hl
  have hd : s.dims = dims.drop pre.length := (Slice.chain_shape hs).1
  intro i j hi hj h
  rw [hd] at hi hj
  have hll : pre.length ≤ dims.length := by
    have := InBounds.length hpre
    rw [List.length_take] at this; omega
  have key : ∀ i, InBounds (dims.drop pre.length) i → s.call c i = (layout p dims).call c (pre ++ i) := by
    intro i hi
    have := (C03_chained_subscript c p dims hv hl pre i
      (by have := InBounds.length hi; rw [List.length_drop] at this; omega)).1
    rw [hs] at this; exact this
  rw [key i hi, key j hj] at h
  have := (C01_bijection c p dims hv hl).2.2.1 (pre ++ i) (pre ++ j)
    (by have := InBounds.append hpre hi; rwa [List.take_append_drop] at this)
    (by have := InBounds.append hpre hj; rwa [List.take_append_drop] at this) h
  exact List.append_cancel_left this

theorem forUp_check_ok {n lo : Nat} {f : Nat → Unit → R Unit} (h : ∀ i, lo ≤ i → i < lo + n → f i () = .ok ()) :
    forUp n lo f () = .ok () := forUp_eq (fun _ => ()) n lo rfl h

theorem forUp_check_inv {n lo : Nat} {f : Nat → Unit → R Unit} (h : forUp n lo f () = .ok ()) :
    ∀ i, lo ≤ i → i < lo + n → f i () = .ok () := by
  induction n generalizing lo with
  | zero => intro i h1 h2; omega
  | succ n ih =>
    rw [forUp] at h
    cases hf : f lo () with
    | error e => rw [hf] at h; cases h
    | ok u =>
      rw [hf] at h
      intro i h1 h2
      by_cases he : i = lo
      · rw [he, hf]
      · exact ih h i (by omega) (by omega)

theorem forUp_check_abort {n lo : Nat} {f : Nat → Unit → R Unit} (hf : ∀ i, f i () = .ok () ∨ f i () = .error .abort) :
    forUp n lo f () = .ok () ∨ forUp n lo f () = .error .abort := by
  induction n generalizing lo with
  | zero => exact .inl rfl
  | succ n ih =>
    rw [forUp]
    rcases hf lo with h | h
    · rw [h]; exact ih
    · rw [h]; exact .inr rfl

theorem errorIf_ne {a b : Nat} : errorIf (a != b) = .ok () ↔ a = b := by
  by_cases h : a = b
  · subst h; simp [errorIf]
  · simp [errorIf, h]

/-- One pass over all multi-indices of `dst`, adding `g idx` to the element at `idx`. -/
theorem visit_add [Add T] (A : List Int → Int) (g : List Int → T) (L : List (List Int)) (hnd : L.Nodup)
    (hA : ∀ i ∈ L, ∀ j ∈ L, A i = A j → i = j) (m : Store T) :
    ∃ m', visit (fun idx m => .ok (m.set (A idx) (m (A idx) + g idx))) L m = .ok m' ∧
      (∀ i ∈ L, m' (A i) = m (A i) + g i) ∧ (∀ b, (∀ i ∈ L, A i ≠ b) → m' b = m b) := by
  induction L generalizing m with
  | nil => exact ⟨m, rfl, by simp, fun _ _ => rfl⟩
  | cons x xs ih =>
    rw [List.nodup_cons] at hnd
    obtain ⟨m', h1, h2, h3⟩ := ih hnd.2 (fun i hi j hj => hA i (by simp [hi]) j (by simp [hj]))
      (m.set (A x) (m (A x) + g x))
    refine ⟨m', h1, ?_, ?_⟩
    · intro i hi
      rcases List.mem_cons.mp hi with rfl | hi
      · rw [h3 (A i) (fun j hj he => hnd.1 (hA j (by simp [hj]) i (by simp) he ▸ hj))]
        simp [Store.set]
      · rw [h2 i hi]
        have : A i ≠ A x := fun he => hnd.1 (hA i (by simp [hi]) x (by simp) he ▸ hi)
        simp [Store.set, this]
    · intro b hb
      rw [h3 b (fun i hi => hb i (by simp [hi]))]
      have := hb x (by simp)
      simp [Store.set, Ne.symm this]

/-- **C06, reduction.** `sumOverFirstDimension( src, dst )` with matching shapes adds to each element of `dst`, in
increasing order of the first index, all the elements of `src` with the same remaining indices, and changes nothing
else; with non-matching shapes it aborts.  (The order is stated because no algebraic law of `+` is assumed.) -/
theorem C06_sumOverFirstDimension [Add T] (c : Cfg) (src dst : Slice) (srcMem dstMem : Store T) (d : Nat) (ds : List Nat)
    (hsd : src.dims = d :: ds) (hss : src.strides.length = src.dims.length) (hdd : dst.dims.length = ds.length)
    (hdist : Distinct c dst) :
    (dst.dims = ds → ∃ m', sumOverFirstDimension c src srcMem dst dstMem = .ok m' ∧
      (∀ idx, InBounds ds idx → ∀ a, dst.call c idx = .ok a → ∃ vals : List T,
        m' a = vals.foldl (· + ·) (dstMem a) ∧ vals.length = d ∧
        ∀ i < d, ∃ b, src.call c ((i : Int) :: idx) = .ok b ∧ vals[i]? = some (srcMem b)) ∧
      (∀ b, (∀ idx, InBounds ds idx → dst.call c idx ≠ .ok b) → m' b = dstMem b)) ∧
    (dst.dims ≠ ds → sumOverFirstDimension c src srcMem dst dstMem = .error .abort) := by
  constructor
  · intro hd
    rw [sumOverFirstDimension, forUp_check_ok (fun i h1 h2 => by
      rw [errorIf_ne, hsd, hd]
      obtain ⟨k, rfl⟩ : ∃ k, i = k + 1 := ⟨i - 1, by omega⟩
      simp)]
    simp only [bind_ok]
    rw [forValuesInSliceWithIndices_eq c _ _ src rfl hss, hsd, enumerate]
    -- addresses
    let A : List Int → Int := fun idx => dst.data + getLinearIndex dst.usd dst.strides idx
    let S : List Int → Int := fun idx => src.data + getLinearIndex src.usd src.strides idx
    have hA : ∀ idx, InBounds ds idx → dst.call c idx = .ok (A idx) := fun idx h =>
      slice_call_ok c dst (by rw [hd]; exact h)
    have hS : ∀ idx, InBounds (d :: ds) idx → src.call c idx = .ok (S idx) := fun idx h =>
      slice_call_ok c src (by rw [hsd]; exact h)
    have hAinj : ∀ i ∈ enumerate ds, ∀ j ∈ enumerate ds, A i = A j → i = j := by
      intro i hi j hj h
      have hi' := mem_enumerate.mp hi
      have hj' := mem_enumerate.mp hj
      exact hdist i j (by rw [hd]; exact hi') (by rw [hd]; exact hj') (by rw [hA i hi', hA j hj', h])
    have key : ∀ k ≤ d, ∃ m', visit (fun idx m => src.call c idx >>= fun a => do
          let x ← dst.call c ([] ++ idx).tail
          .ok (Store.set m x (m x + srcMem a)))
          ((List.range k).flatMap (fun (i : Nat) => (enumerate ds).map (fun is => (i : Int) :: is))) dstMem = .ok m' ∧
        (∀ idx, InBounds ds idx → m' (A idx) =
          ((List.range k).map (fun (i : Nat) => srcMem (S ((i : Int) :: idx)))).foldl (· + ·) (dstMem (A idx))) ∧
        (∀ b, (∀ idx, InBounds ds idx → A idx ≠ b) → m' b = dstMem b) := by
      intro k hk
      induction k with
      | zero => exact ⟨dstMem, rfl, by simp, fun _ _ => rfl⟩
      | succ k ih =>
        obtain ⟨m1, h1, h2, h3⟩ := ih (by omega)
        obtain ⟨m2, g1, g2, g3⟩ := visit_add A (fun idx => srcMem (S ((k : Int) :: idx))) (enumerate ds)
          (enumerate_nodup ds) hAinj m1
        refine ⟨m2, ?_, ?_, ?_⟩
        · rw [List.range_succ, List.flatMap_append, visit_append, h1]
          simp only [List.flatMap_cons, List.flatMap_nil, List.append_nil, bind_ok]
          rw [visit_map]
          rw [← g1]
          refine visit_congr (fun idx hidx => funext fun m => ?_) m1
          have hb := mem_enumerate.mp hidx
          rw [hS ((k : Int) :: idx) ⟨⟨by omega, by omega⟩, hb⟩]
          simp only [bind_ok, List.nil_append, List.tail_cons, hA idx hb]
        · intro idx hidx
          rw [g2 idx (mem_enumerate.mpr hidx), h2 idx hidx, List.range_succ, List.map_append, List.foldl_append]
          rfl
        · intro b hb
          rw [g3 b (fun i hi => hb i (mem_enumerate.mp hi)), h3 b hb]
    obtain ⟨m', h1, h2, h3⟩ := key d (Nat.le_refl _)
    refine ⟨m', h1, fun idx hidx a ha => ?_, fun b hb => h3 b (fun idx hidx he => hb idx hidx (by rw [hA idx hidx, he]))⟩
    rw [hA idx hidx] at ha; cases ha
    refine ⟨_, h2 idx hidx, by simp, fun i hi => ⟨_, hS _ ⟨⟨by omega, by omega⟩, hidx⟩, by simp [hi]⟩⟩
  · intro hd
    have hne : ∃ i, 1 ≤ i ∧ i < 1 + ds.length ∧ src.dims.getD i 0 ≠ dst.dims.getD (i - 1) 0 := by
      by_contra hcon
      apply hd
      apply List.ext_getElem hdd
      intro k h1 h2
      by_contra hk
      apply hcon
      refine ⟨k + 1, by omega, by omega, ?_⟩
      rw [hsd]
      simp only [List.getD_eq_getElem?_getD, List.getElem?_cons_succ, Nat.add_sub_cancel,
        List.getElem?_eq_getElem h1, List.getElem?_eq_getElem h2, Option.getD_some]
      exact fun he => hk he.symm
    obtain ⟨i, h1, h2, h3⟩ := hne
    rw [sumOverFirstDimension]
    rcases forUp_check_abort (n := src.dims.length - 1) (lo := 1)
      (f := fun i (_ : Unit) => errorIf (src.dims.getD i 0 != dst.dims.getD (i - 1) 0))
      (fun i => by unfold errorIf; split <;> simp) with h | h
    · exact absurd (errorIf_ne.mp (forUp_check_inv h i h1 (by rw [hsd]; simpa using h2))) h3
    · rw [h]; rfl

example : (do let m ← sumOverFirstDimension ⟨true, true, false⟩ (layout [0, 1] [2, 3]) (fun a => a.toNat)
                (layout [0] [3]) (fun _ => 100)
              .ok [m 0, m 1, m 2, m 3]) = (.ok [103, 105, 107, 100] : R (List Nat)) := by decide

/-! ## Copies -/

theorem forUp_errorIf_strides {n : Nat} {a b : List Nat} (ha : a.length = n) (hb : b.length = n) :
    forUp n 0 (fun i (_ : Unit) => errorIf (a.getD i 0 != b.getD i 0)) () = .ok () ↔ a = b := by
  constructor
  · intro h
    apply List.ext_getElem (by omega)
    intro i h1 h2
    have := errorIf_ne.mp (forUp_check_inv h i (by omega) (by omega))
    simpa [List.getD_eq_getElem?_getD, List.getElem?_eq_getElem h1, List.getElem?_eq_getElem h2] using this
  · rintro rfl
    exact forUp_check_ok (fun i _ _ => by simp [errorIf])

/-- **C39 (partial).** `memcpy( dst, src )` between slices of two arrays never misbehaves: it aborts, or it changes
exactly the elements of `dst`; and when the slices have the same shape it sets `dst( i... )` to `src( i... )` for every
multi-index.  Missing from the full statement: slices of different shapes are not always rejected, see
`C39_shape_mismatch_accepted`. -/
theorem C39_memcpy_partial (c : Cfg) (p q dimsD dimsS : List Nat)
    (hv : typeManipulation.isValidPermutation p = true) (hl : p.length = dimsD.length)
    (hv' : typeManipulation.isValidPermutation q = true) (hl' : q.length = dimsS.length)
    (preD preS : List Int) (hD : InBounds (dimsD.take preD.length) preD) (hS : InBounds (dimsS.take preS.length) preS)
    (hltD : preD.length < dimsD.length) (hltS : preS.length < dimsS.length) (dstMem srcMem : Store T)
    (hrank : dimsD.length - preD.length = dimsS.length - preS.length) :
    memcpyViews c (layout p dimsD) dstMem preD (layout q dimsS) srcMem preS = .error .abort ∨
    ∃ m', memcpyViews c (layout p dimsD) dstMem preD (layout q dimsS) srcMem preS = .ok m' ∧
      (∀ b, (∀ idx, InBounds (dimsD.drop preD.length) idx → (layout p dimsD).call c (preD ++ idx) ≠ .ok b) →
        m' b = dstMem b) ∧
      (dimsD.drop preD.length = dimsS.drop preS.length →
        ∀ idx, InBounds (dimsD.drop preD.length) idx → ∃ a b, (layout p dimsD).call c (preD ++ idx) = .ok a ∧
          (layout q dimsS).call c (preS ++ idx) = .ok b ∧ m' a = srcMem b) := by
  have hp := isPermutation_of_valid hv hl
  have hq := isPermutation_of_valid hv' hl'
  obtain ⟨d, hd, hcd, hnd⟩ := C05_contiguous_sound c p dimsD hv hl preD hD hltD
  obtain ⟨s, hs, hcs, hns⟩ := C05_contiguous_sound c q dimsS hv' hl' preS hS hltS
  obtain ⟨d1, d2, d3⟩ := Slice.chain_shape hd
  obtain ⟨s1, s2, s3⟩ := Slice.chain_shape hs
  have d1 : d.dims = dimsD.drop preD.length := d1
  have s1 : s.dims = dimsS.drop preS.length := s1
  have hdl : d.strides.length = d.dims.length := by
    rw [d1, d2, List.length_drop, List.length_drop]
    show (calculateStrides p dimsD).length - _ = _
    rw [(calculateStrides_spec hp).1]
  have hsl : s.strides.length = s.dims.length := by
    rw [s1, s2, List.length_drop, List.length_drop]
    show (calculateStrides q dimsS).length - _ = _
    rw [(calculateStrides_spec hq).1]
  have hrk : d.dims.length = s.dims.length := by rw [d1, s1, List.length_drop, List.length_drop]; exact hrank
  have calld : ∀ idx, InBounds (dimsD.drop preD.length) idx → (layout p dimsD).call c (preD ++ idx) = d.call c idx := by
    intro idx h
    have := (C03_chained_subscript c p dimsD hv hl preD idx
      (by have := InBounds.length h; rw [List.length_drop] at this; omega)).1
    rw [hd] at this; exact this.symm
  have calls : ∀ idx, InBounds (dimsS.drop preS.length) idx → (layout q dimsS).call c (preS ++ idx) = s.call c idx := by
    intro idx h
    have := (C03_chained_subscript c q dimsS hv' hl' preS idx
      (by have := InBounds.length h; rw [List.length_drop] at this; omega)).1
    rw [hs] at this; exact this.symm
  rw [memcpyViews, hd, hs]
  simp only [bind_ok]
  rw [memcpySlices]
  by_cases hsz : d.size = s.size
  swap
  · left
    have : errorIf (d.size != s.size) = .error .abort := by simp [errorIf, hsz]
    rw [this]; rfl
  rw [hsz, bne_self_eq_false]
  simp only [errorIf_false, bind_ok]
  rcases forUp_check_abort (n := d.dims.length) (lo := 0)
      (f := fun i (_ : Unit) => errorIf (d.strides.getD i 0 != s.strides.getD i 0))
      (fun i => by unfold errorIf; split <;> simp) with h | h
  swap
  · left; rw [h]; rfl
  have hstr := (forUp_errorIf_strides hdl (by omega)).mp h
  rw [h]
  simp only [bind_ok]
  by_cases cd : d.isContiguous = true
  swap
  · left
    have : d.dataIfContiguous = .error .abort := (hnd (by simpa using cd)).2
    rw [this]; rfl
  by_cases cs : s.isContiguous = true
  swap
  · left
    have hs0 : s.dataIfContiguous = .error .abort := (hns (by simpa using cs)).2
    have hd0 : 0 ≤ d.usd := ((isContiguous_iff d).mp cd).1
    have : d.dataIfContiguous = .ok d.data := by simp [Slice.dataIfContiguous, cd, show ¬ d.usd < 0 by omega]
    rw [this, hs0]; rfl
  right
  have hd0 : 0 ≤ d.usd := ((isContiguous_iff d).mp cd).1
  have hs0 : 0 ≤ s.usd := ((isContiguous_iff s).mp cs).1
  have e1 : d.dataIfContiguous = .ok d.data := by simp [Slice.dataIfContiguous, cd, show ¬ d.usd < 0 by omega]
  have e2 : s.dataIfContiguous = .ok s.data := by simp [Slice.dataIfContiguous, cs, show ¬ s.usd < 0 by omega]
  rw [e1, e2]
  simp only [bind_ok]
  refine ⟨_, rfl, fun b hb => ?_, fun hdims idx hin => ?_⟩
  · rw [if_neg]
    rintro ⟨b0, b1⟩
    obtain ⟨idx, hin, hc'⟩ := ((hcd cd).1 b).mpr ⟨b0, by omega⟩
    rw [d1] at hin
    exact hb idx hin (by rw [calld idx hin]; exact hc')
  · have hin' : InBounds d.dims idx := by rw [d1]; exact hin
    have hin'' : InBounds s.dims idx := by rw [s1, ← hdims]; exact hin
    have ed := slice_call_ok c d hin'
    have es := slice_call_ok c s hin''
    have hud := d3 ▸ d2 ▸ slice_usd (p := p) (dims := dimsD) hp hltD
    have hus := s3 ▸ s2 ▸ slice_usd (p := q) (dims := dimsS) hq hltS
    have ld := getLinearIndex_eq (usd := d.usd) (strides := d.strides) (idx := idx)
      (by rw [hdl]; exact InBounds.length hin') (by rw [d2, d3]; exact slice_usd hp hltD)
    have ls := getLinearIndex_eq (usd := s.usd) (strides := s.strides) (idx := idx)
      (by rw [hsl]; exact InBounds.length hin'') (by rw [s2, s3]; exact slice_usd hq hltS)
    refine ⟨_, _, by rw [calld idx hin]; exact ed, by rw [calls idx (hdims ▸ hin)]; exact es, ?_⟩
    have hrange := ((hcd cd).1 _).mp ⟨idx, hin', ed⟩
    rw [if_pos (by omega)]
    congr 1
    rw [ld, ls, hstr]; omega

example : (do let m ← memcpyViews ⟨true, true, false⟩ (layout [0, 1, 2] [2, 3, 2]) (fun _ => 0) [1]
                (layout [0, 1] [3, 2]) (fun a => 10 + a) []
              .ok [m 5, m 6, m 7, m 11, m 12]) = (.ok [0, 10, 11, 15, 0] : R (List Int)) := by decide

/-- **C39 fails across shapes**: copying a `(1, 4, 3)` slice with permutation `(1, 0, 2)` into a `(4, 1, 3)` one with the
standard permutation is accepted (equal sizes and strides) although the shapes differ: `dst( 2, 0, 1 )` is overwritten but
`src( 2, 0, 1 )` does not exist. -/
theorem C39_shape_mismatch_accepted :
    ∃ m', memcpyViews ⟨true, true, false⟩ (layout [0, 1, 2] [4, 1, 3]) (fun _ => (0 : Int)) []
        (layout [1, 0, 2] [1, 4, 3]) (fun a => 10 + a) [] = .ok m' ∧
      (layout [0, 1, 2] [4, 1, 3]).call ⟨true, true, false⟩ [2, 0, 1] = .ok 7 ∧ m' 7 = 17 ∧
      (layout [1, 0, 2] [1, 4, 3]).call ⟨true, true, false⟩ [2, 0, 1] = .error .abort :=
  ⟨fun a => if 0 ≤ a ∧ a < 0 + 12 then 10 + (0 + (a - 0)) else 0, by rfl, by decide, by decide, by decide⟩

end LvArray.Props

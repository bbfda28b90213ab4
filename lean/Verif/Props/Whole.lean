import Verif.WholeLemmas
import Verif.Props.Indexing
/-!
# C62: whole-array assignment
-/

namespace LvArray.Props

open LvArray.Chai LvArray.Spec LvArray.Whole indexing

variable {T : Type}

/-- The position of a multi-index. -/
def boxPos (perm dims : List Nat) (idx : List Int) : Nat := (horner (reorder perm dims) (reorder perm idx)).toNat

theorem boxPos_lt {perm dims : List Nat} (hp : IsPermutation perm dims.length) {idx : List Int} (h : InBounds dims idx) :
    boxPos perm dims idx < dims.prod := by
  have hb := horner_bounds ((reorder_inBounds hp).mp h).2
  rw [reorder_prod hp] at hb
  unfold boxPos; omega

theorem address_ok {perm dims : List Nat} (hp : IsPermutation perm dims.length) (c : Cfg) {idx : List Int} (h : InBounds dims idx)
    (b : Buffer) : address c ⟨layout perm dims, b⟩ idx = .ok (boxPos perm dims idx) := by
  have hb := horner_bounds ((reorder_inBounds hp).mp h).2
  simp only [address, call_ok hp c h, bind_ok, if_pos hb.1, boxPos]

theorem boxPos_inj {perm dims : List Nat} (hp : IsPermutation perm dims.length) {i j : List Int} (hi : InBounds dims i)
    (hj : InBounds dims j) (h : boxPos perm dims i = boxPos perm dims j) : i = j := by
  have bi := horner_bounds ((reorder_inBounds hp).mp hi).2
  have bj := horner_bounds ((reorder_inBounds hp).mp hj).2
  have he : horner (reorder perm dims) (reorder perm i) = horner (reorder perm dims) (reorder perm j) := by
    unfold boxPos at h; omega
  refine (C01_bijection ⟨true, true, true⟩ perm dims ((isValidPermutation_iff perm).2 ((IsPermutation.length hp) ▸ hp)) (IsPermutation.length hp)).2.2.1 i j hi hj ?_
  rw [call_ok hp _ hi, call_ok hp _ hj, he]

theorem boxPos_surj {perm dims : List Nat} (hp : IsPermutation perm dims.length) {n : Nat} (hn : n < dims.prod) :
    ∃ idx, InBounds dims idx ∧ boxPos perm dims idx = n := by
  obtain ⟨idx, h, e⟩ := (C01_bijection ⟨true, true, true⟩ perm dims ((isValidPermutation_iff perm).2 ((IsPermutation.length hp) ▸ hp)) (IsPermutation.length hp)).2.2.2
    (n : Int) (by omega) (by omega)
  rw [call_ok hp _ h] at e
  refine ⟨idx, h, ?_⟩
  simp only [boxPos, Except.ok.inj e, Int.toNat_natCast]

/-- The box is the one stored in the array. -/
structure BoxIn (a : PlacedBox T) (m : Arr T) : Prop where
  cap : m.cap = a.dims.prod
  current : m.current = a.current
  touched : m.touched = a.touched
  perm : IsPermutation a.perm a.dims.length
  ne : a.dims ≠ []
  value : ∀ idx, InBounds a.dims idx → m.data (boxPos a.perm a.dims idx) = some (a.value idx)

/-- The state of the model and the boxes. -/
structure RepBoxes (st : Whole.State T) (w : PlacedBoxes T) (A : List (Arr T)) : Prop where
  keeps : Keeps st.heap A
  length : A.length = w.boxes.length
  box : ∀ (k : Nat) a m, w.boxes[k]? = some a → A[k]? = some m → BoxIn a m
  views : st.views.length = w.views.length
  view : ∀ (v k : Nat) p c, w.views[v]? = some (k, p, c) → ∃ a m b, w.boxes[k]? = some a ∧ A[k]? = some m ∧
    st.views[v]? = some ⟨layout a.perm a.dims, b⟩ ∧ BufOf m.id m.cap b p c

/-- One array is changed. -/
theorem RepBoxes.change {st : Whole.State T} {w : PlacedBoxes T} {A : List (Arr T)} (hr : RepBoxes st w A) {k : Nat} {a a' : PlacedBox T} {m m' : Arr T}
    (ha : w.boxes[k]? = some a) (hm : A[k]? = some m) (hd : a'.dims = a.dims) (hp : a'.perm = a.perm) (hid : m'.id = m.id)
    (hc : m'.cap = m.cap) (hb : BoxIn a' m') {h' : Heap (Data T)} (hk : Keeps h' (A.set k m')) :
    RepBoxes { st with heap := h' } { w with boxes := w.boxes.set k a' } (A.set k m') := by
  have hal := (List.getElem?_eq_some_iff.1 ha).1
  have hml := (List.getElem?_eq_some_iff.1 hm).1
  refine ⟨hk, by simp [hr.length], fun l b n hb' hn => ?_, hr.views, fun v l p c hv => ?_⟩
  · by_cases hl : l = k
    · subst hl
      simp only [List.getElem?_set_self hal] at hb'
      rw [List.getElem?_set_self hml] at hn
      cases hb'; cases hn
      exact hb
    · simp only [List.getElem?_set_ne (Ne.symm hl)] at hb'
      rw [List.getElem?_set_ne (Ne.symm hl)] at hn
      exact hr.box l b n hb' hn
  · obtain ⟨b, n, f, h1, h2, h3, h4⟩ := hr.view v l p c hv
    by_cases hl : l = k
    · subst hl
      rw [ha] at h1; rw [hm] at h2
      cases h1; cases h2
      exact ⟨a', m', f, List.getElem?_set_self hal, List.getElem?_set_self hml, by rw [hd, hp]; exact h3, by rw [hid, hc]; exact h4⟩
    · exact ⟨b, n, f, by simp only [List.getElem?_set_ne (Ne.symm hl)]; exact h1, by rw [List.getElem?_set_ne (Ne.symm hl)]; exact h2, h3, h4⟩

/-- A view is replaced by one of the same array. -/
theorem RepBoxes.reView {st : Whole.State T} {w : PlacedBoxes T} {A : List (Arr T)} (hr : RepBoxes st w A) {v k : Nat} {a : PlacedBox T} {m : Arr T}
    {b : Buffer} {p : Space} {c : Bool} (ha : w.boxes[k]? = some a) (hm : A[k]? = some m) (hb : BufOf m.id m.cap b p c) :
    RepBoxes { st with views := st.views.set v ⟨layout a.perm a.dims, b⟩ } { w with views := w.views.set v (k, p, c) } A := by
  refine ⟨hr.keeps, hr.length, hr.box, by simp [hr.views], fun u l q d hu => ?_⟩
  by_cases huv : u = v
  · subst huv
    simp only at hu
    have hl : u < w.views.length := by
      have := (List.getElem?_eq_some_iff.1 hu).1
      simpa using this
    rw [List.getElem?_set_self hl] at hu
    cases hu
    exact ⟨a, m, b, ha, hm, List.getElem?_set_self (by rw [hr.views]; exact hl), hb⟩
  · simp only [List.getElem?_set_ne (Ne.symm huv)] at hu ⊢
    exact hr.view u l q d hu

/-- A view is added. -/
theorem RepBoxes.addView {st : Whole.State T} {w : PlacedBoxes T} {A : List (Arr T)} (hr : RepBoxes st w A) {k : Nat} {a : PlacedBox T} {m : Arr T}
    {b : Buffer} {p : Space} {c : Bool} (ha : w.boxes[k]? = some a) (hm : A[k]? = some m) (hb : BufOf m.id m.cap b p c) :
    RepBoxes { st with views := st.views ++ [⟨layout a.perm a.dims, b⟩] } { w with views := w.views ++ [(k, p, c)] } A := by
  refine ⟨hr.keeps, hr.length, hr.box, by simp [hr.views], fun u l q d hu => ?_⟩
  by_cases hul : u < w.views.length
  · simp only [List.getElem?_append_left hul] at hu
    simp only [List.getElem?_append_left (show u < st.views.length by rw [hr.views]; exact hul)]
    exact hr.view u l q d hu
  · have hlt := (List.getElem?_eq_some_iff.1 hu).1
    simp at hlt
    have : u = w.views.length := by omega
    subst this
    simp at hu
    obtain ⟨rfl, rfl, rfl⟩ := hu
    exact ⟨a, m, b, ha, hm, by simp [← hr.views], hb⟩

theorem viewAt_whole {st : Whole.State T} {v : Nat} {b : View} (h : st.views[v]? = some b) : Whole.viewAt st v = .ok b := by
  simp [Whole.viewAt, h]

theorem BoxIn.bring {a : PlacedBox T} {m : Arr T} (h : BoxIn a m) (s : Space) (touch : Bool) : BoxIn (a.bring s touch) (m.bring s touch) := by
  refine ⟨h.cap, rfl, ?_, h.perm, h.ne, h.value⟩
  simp only [Arr.bring, PlacedBox.bring, h.touched, h.current]

/-- All values are replaced. -/
theorem BoxIn.values {a : PlacedBox T} {m : Arr T} (h : BoxIn a m) {f : List Int → T} {d : Data T}
    (hd : ∀ idx, InBounds a.dims idx → d (boxPos a.perm a.dims idx) = some (f idx)) :
    BoxIn { a with value := f } { m with data := d } := ⟨h.cap, h.current, h.touched, h.perm, h.ne, hd⟩

/-- The strides are the distances between neighbours. -/
theorem strides_distance {perm dims : List Nat} (hp : IsPermutation perm dims.length) {k : Nat} (hk : k < dims.length) :
    (calculateStrides perm dims)[k]? = some (distance perm dims k) := by
  obtain ⟨hl, hs⟩ := calculateStrides_spec hp
  have hmem : k ∈ perm := (IsPermutation.mem hp).2 hk
  have hi : perm.idxOf k < perm.length := List.idxOf_lt_length_iff.2 hmem
  have := hs (perm.idxOf k) hi
  rw [List.getD_eq_getElem?_getD, List.getD_eq_getElem?_getD, List.getElem?_eq_getElem hi, Option.getD_some, List.getElem_idxOf hi,
    List.getElem?_eq_getElem (by rw [hl]; exact hk), Option.getD_some] at this
  rw [List.getElem?_eq_getElem (by rw [hl]; exact hk), this]
  rfl

theorem sameLayout_iff {a b : PlacedBox T} (ha : IsPermutation a.perm a.dims.length) (hb : IsPermutation b.perm b.dims.length) :
    SameLayout a b ↔ a.dims = b.dims ∧ calculateStrides a.perm a.dims = calculateStrides b.perm b.dims := by
  unfold SameLayout
  constructor
  · rintro ⟨h1, h2⟩
    refine ⟨h1, List.ext_getElem? fun k => ?_⟩
    by_cases hk : k < a.dims.length
    · rw [strides_distance ha hk, strides_distance hb (h1 ▸ hk), h2 k hk]
    · rw [List.getElem?_eq_none (by rw [(calculateStrides_spec ha).1]; omega),
        List.getElem?_eq_none (by rw [(calculateStrides_spec hb).1, ← h1]; omega)]
  · rintro ⟨h1, h2⟩
    refine ⟨h1, fun k hk => ?_⟩
    have := strides_distance ha hk
    rw [h2, strides_distance hb (h1 ▸ hk)] at this
    exact (Option.some.inj this).symm

theorem usd_eq {p q : List Nat} (h : p.getLast? = q.getLast?) :
    typeManipulation.getStrideOneDimension p = typeManipulation.getStrideOneDimension q := by
  simp only [typeManipulation.getStrideOneDimension, List.getD_eq_getElem?_getD, ← List.getLast?_eq_getElem?, h]

theorem boxPos_same {a b : PlacedBox T} (ha : IsPermutation a.perm a.dims.length) (hb : IsPermutation b.perm b.dims.length)
    (hd : a.dims = b.dims) (hs : calculateStrides a.perm a.dims = calculateStrides b.perm b.dims)
    (hl : a.perm.getLast? = b.perm.getLast?) {idx : List Int} (hi : InBounds a.dims idx) :
    boxPos a.perm a.dims idx = boxPos b.perm b.dims idx := by
  unfold boxPos
  rw [← linearIndex_eq_horner ha (InBounds.length hi), ← linearIndex_eq_horner hb (InBounds.length (hd ▸ hi)), hs, usd_eq hl]

theorem keeps_add {h h' : Heap (Data T)} {A : List (Arr T)} (hk : Keeps h A) {m' : Arr T} (hl : h.length ≤ m'.id)
    (hg : ∀ i, i < h.length → h'.get i = h.get i) {r : Record (Data T)} (hr : h'.get m'.id = some r)
    (hh : 0 < m'.cap → Holds r m'.data m'.current m'.touched) : Keeps h' (A ++ [m']) := by
  have hlt : ∀ (k : Nat) a, A[k]? = some a → a.id < h.length := fun k a ha => by
    obtain ⟨r, hr, -⟩ := hk.held k a ha
    refine Nat.lt_of_not_le fun hn => ?_
    simp [Heap.get, List.getElem?_eq_none hn] at hr
  have cases' : ∀ (k : Nat) a, (A ++ [m'])[k]? = some a → A[k]? = some a ∨ (k = A.length ∧ a = m') := fun k a ha => by
    by_cases hkl : k < A.length
    · left; rwa [List.getElem?_append_left hkl] at ha
    · have := (List.getElem?_eq_some_iff.1 ha).1
      simp at this
      have : k = A.length := by omega
      subst this
      simp at ha
      exact Or.inr ⟨rfl, ha.symm⟩
  refine ⟨fun k a ha => ?_, fun k l a b ha hb e => ?_⟩
  · rcases cases' k a ha with h1 | ⟨-, rfl⟩
    · obtain ⟨r, h2, h3⟩ := hk.held k a h1
      exact ⟨r, by rw [hg _ (hlt k a h1)]; exact h2, h3⟩
    · exact ⟨r, hr, hh⟩
  · rcases cases' k a ha with h1 | ⟨h1, rfl⟩ <;> rcases cases' l b hb with h2 | ⟨h2, rfl⟩
    · exact hk.apart k l a b h1 h2 e
    · have := hlt k a h1; omega
    · have := hlt l b h2; omega
    · omega

theorem move_none' (h : Heap (Data T)) (b : Buffer) (touch : Bool) : Chai.move (fun _ => none) h b none touch = .ok (h, b) := move_none _ h b touch

theorem RepBoxes.keeps_set {st : Whole.State T} {w : PlacedBoxes T} {A : List (Arr T)} (hr : RepBoxes st w A) {k : Nat} {a : PlacedBox T}
    (ha : w.boxes[k]? = some a) : ∃ m, A[k]? = some m ∧ BoxIn a m := by
  have hl := (List.getElem?_eq_some_iff.1 ha).1
  have hm := List.getElem?_eq_getElem (l := A) (i := k) (by rw [hr.length]; exact hl)
  exact ⟨_, hm, hr.box k a _ ha hm⟩

/-- A buffer is moved. -/
theorem RepBoxes.moved {st : Whole.State T} {w : PlacedBoxes T} {A : List (Arr T)} (hr : RepBoxes st w A) {k : Nat} {a : PlacedBox T} {m : Arr T}
    (ha : w.boxes[k]? = some a) (hm : A[k]? = some m) {b : Buffer} {p : Space} {c : Bool} (hb : BufOf m.id m.cap b p c) (s : Space)
    (touch : Bool) :
    ∃ h' b', Chai.move (fun _ => none) st.heap b (some s) touch = .ok (h', b') ∧
      RepBoxes { st with heap := h' } { w with boxes := w.boxes.set k (a.bring s (touch && !c)) } (A.set k (m.bring s (touch && !c))) ∧
      BufOf m.id m.cap b' s c := by
  obtain ⟨h', b', e, hk, hb'⟩ := hr.keeps.move hm hb s touch
  exact ⟨h', b', e, hr.change ha hm (a' := a.bring s (touch && !c)) (m' := m.bring s (touch && !c)) rfl rfl rfl rfl ((hr.box k a m ha hm).bring s _) hk, hb'⟩

theorem RepBoxes.setValues {st : Whole.State T} {w : PlacedBoxes T} {A : List (Arr T)} (hr : RepBoxes st w A) {k : Nat} {a : PlacedBox T} {m : Arr T}
    (ha : w.boxes[k]? = some a) (hm : A[k]? = some m) {b : Buffer} {p : Space} (hb : BufOf m.id m.cap b p false) (P : Policy) (x : T) :
    ∃ h' A', Whole.setValues st.heap ⟨layout a.perm a.dims, b⟩ P x = .ok h' ∧
      RepBoxes { st with heap := h' } { w with boxes := w.boxes.set k { a.bring P.space true with value := fun _ => x } } A' := by
  have hal := (List.getElem?_eq_some_iff.1 ha).1
  have hml := (List.getElem?_eq_some_iff.1 hm).1
  obtain ⟨h1, b1, e1, hr1, hb1⟩ := hr.moved ha hm hb P.space true
  have hin := hr.box k a m ha hm
  have hm1 : (A.set k (m.bring P.space (true && !false)))[k]? = some (m.bring P.space (true && !false)) := List.getElem?_set_self hml
  obtain ⟨h2, d, e2, hk2, hd⟩ := hr1.keeps.setLoop (a := m.bring P.space (true && !false)) hm1 (b := b1) hb1 (by simp [Arr.bring]) P x
  refine ⟨h2, A.set k { m.bring P.space true with data := d }, ?_, ?_⟩
  · simp only [Whole.setValues, copyConstruct, move_none', bind_ok, e1, size_eq]
    rw [← hin.cap]
    exact e2
  · have := hr1.change (a := a.bring P.space true) (a' := { a.bring P.space true with value := fun _ => x })
      (m' := { m.bring P.space true with data := d }) (List.getElem?_set_self hal) hm1 rfl rfl rfl rfl
      ((hin.bring P.space true).values fun idx hi => hd _ (by
        show _ < m.cap
        rw [hin.cap]; exact boxPos_lt hin.perm hi)) hk2
    simpa only [List.set_set] using this

theorem RepBoxes.setValuesFrom {st : Whole.State T} {w : PlacedBoxes T} {A : List (Arr T)} (hr : RepBoxes st w A) {k l : Nat} {a a2 : PlacedBox T}
    {m m2 : Arr T} (ha : w.boxes[k]? = some a) (hm : A[k]? = some m) (ha2 : w.boxes[l]? = some a2) (hm2 : A[l]? = some m2)
    {b b2 : Buffer} {p p2 : Space} {c2 : Bool} (hb : BufOf m.id m.cap b p false) (hb2 : BufOf m2.id m2.cap b2 p2 c2)
    (hs : SameLayout a a2) (hlast : a.perm.getLast? = a2.perm.getLast?) (P : Policy) :
    ∃ h' A', Whole.setValuesFrom st.heap ⟨layout a.perm a.dims, b⟩ ⟨layout a2.perm a2.dims, b2⟩ P = .ok h' ∧
      RepBoxes { st with heap := h' } 
        { w with boxes := (w.boxes.set l (a2.bring P.space false)).set k { a.bring P.space true with value := a2.value } } A' := by
  have hal := (List.getElem?_eq_some_iff.1 ha).1
  have hml := (List.getElem?_eq_some_iff.1 hm).1
  have hal2 := (List.getElem?_eq_some_iff.1 ha2).1
  have hml2 := (List.getElem?_eq_some_iff.1 hm2).1
  have hin := hr.box k a m ha hm
  have hin2 := hr.box l a2 m2 ha2 hm2
  obtain ⟨hd1, hd2⟩ := (sameLayout_iff hin.perm hin2.perm).1 hs
  obtain ⟨h1, b1, e1, hr1, hb1⟩ := hr.moved ha hm hb P.space true
  simp only [Bool.not_false, Bool.and_true] at hr1
  have hcc : BufOf m2.id m2.cap (toConst b2) p2 true := ⟨hb2.record, hb2.slots, rfl, hb2.pointer⟩
  have hcap : m2.cap = m.cap := by rw [hin.cap, hin2.cap, hd1]
  have hpre : errorIf (decide ((layout a.perm a.dims).dims ≠ (layout a2.perm a2.dims).dims ∨
      (layout a.perm a.dims).strides ≠ (layout a2.perm a2.dims).strides)) = .ok () := by
    rw [decide_eq_false (by simp only [layout]; exact fun h => h.elim (fun h => h hd1) fun h => h hd2)]; rfl
  -- what the boxes and arrays are after both views were captured
  obtain ⟨f, hf⟩ : ∃ f : Nat → T, ∀ j, j < m.cap → m2.data j = some (f j) := by
    refine ⟨fun j => (m2.data j).getD (a2.value []), fun j hj => ?_⟩
    rw [← hcap, hin2.cap] at hj
    obtain ⟨idx, hi, rfl⟩ := boxPos_surj hin2.perm hj
    simp only [hin2.value idx hi, Option.getD_some]
  have hvalue : ∀ idx, InBounds a.dims idx → f (boxPos a.perm a.dims idx) = a2.value idx := fun idx hi => by
    have h1 := hf _ (by rw [hin.cap]; exact boxPos_lt hin.perm hi)
    rw [boxPos_same hin.perm hin2.perm hd1 hd2 hlast hi, hin2.value idx (hd1 ▸ hi)] at h1
    rw [boxPos_same hin.perm hin2.perm hd1 hd2 hlast hi]
    exact (Option.some.inj h1).symm
  by_cases hlk : l = k
  · subst hlk
    rw [ha] at ha2; rw [hm] at hm2
    cases ha2; cases hm2
    obtain ⟨h2, b3, e2, hr2, hb3⟩ := hr1.moved (a := a.bring P.space true) (m := m.bring P.space true) (List.getElem?_set_self hal)
      (List.getElem?_set_self hml) (b := toConst b2) hcc P.space true
    simp only [Bool.not_true, Bool.and_false, List.set_set] at hr2
    have hbb : ∀ m : Arr T, (m.bring P.space true).bring P.space false = m.bring P.space true := fun m => by
      simp [Arr.bring]
    have hbb' : ∀ m : PlacedBox T, (m.bring P.space true).bring P.space false = m.bring P.space true := fun m => by
      simp [PlacedBox.bring]
    rw [hbb, hbb'] at hr2
    obtain ⟨h3, d, e3, hk3, hd⟩ := hr2.keeps.copyLoop (a := m.bring P.space true) (a2 := m.bring P.space true) (l := l)
      (List.getElem?_set_self hml) (List.getElem?_set_self hml) (b := b1) hb1 (by simp [Arr.bring]) (b2 := b3) hb3 rfl rfl (f := f) hf P
    refine ⟨h3, A.set l { m.bring P.space true with data := d }, ?_, ?_⟩
    · simp only [Whole.setValuesFrom, hpre, copyConstruct, move_none', bind_ok, e1, e2, size_eq]
      rw [← hin.cap]
      exact e3
    · have := hr2.change (a := a.bring P.space true) (a' := { a.bring P.space true with value := a.value })
        (m' := { m.bring P.space true with data := d }) (List.getElem?_set_self hal) (List.getElem?_set_self hml) rfl rfl rfl rfl
        ((hin.bring P.space true).values fun idx hi => by
          rw [hd _ (by
            show _ < m.cap
            rw [hin.cap]; exact boxPos_lt hin.perm hi)]
          exact congrArg some (hvalue idx hi)) hk3
      simpa only [List.set_set] using this
  · obtain ⟨h2, b3, e2, hr2, hb3⟩ := hr1.moved (a := a2) (m := m2) (k := l)
      (by simp only [List.getElem?_set_ne (Ne.symm hlk)]; exact ha2)
      (by simp only [List.getElem?_set_ne (Ne.symm hlk)]; exact hm2) (b := toConst b2) hcc P.space true
    simp only [Bool.not_true, Bool.and_false] at hr2
    have hmk : ((A.set k (m.bring P.space true)).set l (m2.bring P.space false))[k]? = some (m.bring P.space true) := by
      rw [List.getElem?_set_ne hlk, List.getElem?_set_self hml]
    have hak : ((w.boxes.set k (a.bring P.space true)).set l (a2.bring P.space false))[k]? = some (a.bring P.space true) := by
      rw [List.getElem?_set_ne hlk, List.getElem?_set_self hal]
    obtain ⟨h3, d, e3, hk3, hd⟩ := hr2.keeps.copyLoop (a := m.bring P.space true) (a2 := m2.bring P.space false) (l := l)
      hmk (List.getElem?_set_self (by simpa using hml2)) (b := b1) hb1 (by simp [Arr.bring]) (b2 := b3) hb3 hcap rfl (f := f) hf P
    refine ⟨h3, ((A.set k (m.bring P.space true)).set l (m2.bring P.space false)).set k { m.bring P.space true with data := d }, ?_, ?_⟩
    · simp only [Whole.setValuesFrom, hpre, copyConstruct, move_none', bind_ok, e1, e2, size_eq]
      rw [← hin.cap]
      exact e3
    · have := hr2.change (a := a.bring P.space true) (a' := { a.bring P.space true with value := a2.value })
        (m' := { m.bring P.space true with data := d }) hak hmk rfl rfl rfl rfl
        ((hin.bring P.space true).values fun idx hi => by
          rw [hd _ (by
            show _ < m.cap
            rw [hin.cap]; exact boxPos_lt hin.perm hi)]
          exact congrArg some (hvalue idx hi)) hk3
      have hc : ((w.boxes.set k (a.bring P.space true)).set l (a2.bring P.space false)).set k { a.bring P.space true with value := a2.value } =
          (w.boxes.set l (a2.bring P.space false)).set k { a.bring P.space true with value := a2.value } := by
        rw [List.set_comm _ _ (Ne.symm hlk), List.set_set]
      rw [← hc]
      exact this

theorem RepBoxes.zero {st : Whole.State T} {w : PlacedBoxes T} {A : List (Arr T)} (hr : RepBoxes st w A) {k : Nat} {a : PlacedBox T} {m : Arr T}
    (ha : w.boxes[k]? = some a) (hm : A[k]? = some m) {b : Buffer} {p : Space} (hb : BufOf m.id m.cap b p false) (z : T) :
    ∃ h' b' A' m', Whole.zero z st.heap ⟨layout a.perm a.dims, b⟩ = .ok (h', ⟨layout a.perm a.dims, b'⟩) ∧ A'[k]? = some m' ∧
      RepBoxes { st with heap := h' } { w with boxes := w.boxes.set k { a.bring a.current true with value := fun _ => z } } A' ∧
      BufOf m'.id m'.cap b' a.current false := by
  have hal := (List.getElem?_eq_some_iff.1 ha).1
  have hml := (List.getElem?_eq_some_iff.1 hm).1
  have hin := hr.box k a m ha hm
  by_cases hz : a.dims.prod = 0
  · have hmc : m.cap = 0 := by rw [hin.cap, hz]
    refine ⟨st.heap, b, A.set k { m.bring a.current true with data := fun _ => some z }, { m.bring a.current true with data := fun _ => some z },
      ?_, List.getElem?_set_self hml, ?_, hb.record, hb.slots, hb.isConst, fun h => absurd hmc (Nat.ne_of_gt h)⟩
    · simp [Whole.zero, size_eq, hz]
    · exact hr.change ha hm (a' := { a.bring a.current true with value := fun _ => z })
        (m' := { m.bring a.current true with data := fun _ => some z }) rfl rfl rfl rfl ((hin.bring a.current true).values fun idx hi => rfl) (hr.keeps.empty hm rfl hmc)
  · have hpos : 0 < m.cap := by rw [hin.cap]; omega
    obtain ⟨r, hrr, hh⟩ := hr.keeps.held k m hm
    have hlast : getPreviousSpace st.heap b = .ok (some a.current) := by
      simp only [getPreviousSpace, hb.record, hrr, (hh hpos).last, hin.current]
    obtain ⟨h1, b1, e1, hr1, hb1⟩ := hr.moved ha hm hb a.current true
    have hm1 : (A.set k (m.bring a.current (true && !false)))[k]? = some (m.bring a.current (true && !false)) := List.getElem?_set_self hml
    obtain ⟨h2, d, e2, hk2, hd⟩ := hr1.keeps.fill (a := m.bring a.current (true && !false)) hm1 (b := b1) hb1 (by simp [Arr.bring]) z m.cap
      (Nat.le_refl _)
    refine ⟨h2, b1, A.set k { m.bring a.current true with data := d }, { m.bring a.current true with data := d }, ?_,
      List.getElem?_set_self hml, ?_, hb1⟩
    · have : (layout a.perm a.dims).size > 0 := by rw [size_eq]; omega
      simp only [Whole.zero, this, if_true, hlast, bind_ok, e1, memset, hb1.pointer hpos]
      rw [size_eq, ← hin.cap]
      have e2' : Whole.fill b1 a.current z m.cap h1 = .ok h2 := e2
      rw [e2', bind_ok]
    · have := hr1.change (a := a.bring a.current true) (a' := { a.bring a.current true with value := fun _ => z })
        (m' := { m.bring a.current true with data := d }) (List.getElem?_set_self hal) hm1 rfl rfl rfl rfl
        ((hin.bring a.current true).values fun idx hi => hd _ (by rw [hin.cap]; exact boxPos_lt hin.perm hi)) hk2
      simpa only [List.set_set] using this

theorem RepBoxes.newArray {st : Whole.State T} {w : PlacedBoxes T} {A : List (Arr T)} (hr : RepBoxes st w A) {perm dims : List Nat}
    (hp : IsPermutation perm dims.length) (hn : dims ≠ []) (x : T) :
    ∃ h' v A', Whole.newArray st.heap perm dims x = .ok (h', v) ∧
      RepBoxes { heap := h', views := st.views ++ [v] }
        { boxes := w.boxes ++ [{ dims := dims, perm := perm, value := fun _ => x, current := .host, touched := true }]
          views := w.views ++ [(w.boxes.length, .host, false)] } A' := by
  have key : ∃ h' b m', Whole.newArray st.heap perm dims x = .ok (h', ⟨layout perm dims, b⟩) ∧ Keeps h' (A ++ [m']) ∧
      BoxIn { dims := dims, perm := perm, value := fun _ => x, current := .host, touched := true } m' ∧
      BufOf m'.id m'.cap b .host false := by
    by_cases hz : dims.prod = 0
    · refine ⟨(create st.heap).1, (create (C := Data T) st.heap).2, { id := st.heap.length, cap := 0, data := fun _ => some x, current := .host, touched := true },
        by simp [Whole.newArray, size_eq, hz], ?_, ⟨hz.symm, rfl, rfl, hp, hn, fun _ _ => rfl⟩, rfl, rfl, rfl, fun h => by cases h⟩
      refine keeps_add hr.keeps (Nat.le_refl _) (fun i hi => ?_) (r := { copy := fun _ => none, touched := fun _ => false, last := none }) ?_
        (fun h => by cases h)
      · simp [create, Heap.get, List.getElem?_append_left hi]
      · simp [create, Heap.get]
    · have hsz : (layout perm dims).size > 0 := by rw [size_eq]; omega
      obtain ⟨m0, hm0⟩ : ∃ m0 : Arr T, m0 = { id := st.heap.length + 1, cap := dims.prod, data := fun _ => none, current := .host, touched := true } :=
        ⟨_, rfl⟩
      obtain ⟨h1, hh1⟩ : ∃ h1 : Heap (Data T), h1 = (st.heap ++ [none]) ++
        [some { copy := put (fun _ => none) .host (some fun _ => none), touched := put (fun _ => false) .host true, last := some .host }] := ⟨_, rfl⟩
      have hk1 : Keeps h1 (A ++ [m0]) := by
        refine keeps_add hr.keeps (by rw [hm0]; simp) (fun i hi => ?_)
          (r := { copy := put (fun _ => none) .host (some fun _ => none), touched := put (fun _ => false) .host true, last := some .host }) ?_ ?_
        · rw [hh1]
          simp only [Heap.get, List.append_assoc, List.getElem?_append_left hi]
        · rw [hh1, hm0]
          simp [Heap.get]
        · intro _
          rw [hm0]
          exact ⟨rfl, rfl, rfl, fun s hs => put_ne (fun _ => false) true hs, (fun e => by cases e)⟩
      obtain ⟨b, hb⟩ : ∃ b : Buffer, b = { pointer := some .host, cap := dims.prod, record := some (st.heap.length + 1), isConst := false } := ⟨_, rfl⟩
      have hbo : BufOf m0.id m0.cap b .host false := by rw [hm0, hb]; exact ⟨rfl, rfl, rfl, fun _ => rfl⟩
      have hget : (A ++ [m0])[A.length]? = some m0 := by simp
      obtain ⟨h2, d, e2, hk2, hd⟩ := hk1.fill hget (b := b) (c := false) (by rw [show m0.current = .host by rw [hm0]]; exact hbo)
        (by rw [hm0]) x dims.prod (by rw [hm0])
      refine ⟨h2, b, { m0 with data := d }, ?_, ?_, ⟨by rw [hm0], by rw [hm0], by rw [hm0], hp, hn, fun idx hi => hd _ (boxPos_lt hp hi)⟩, hbo⟩
      · have er : reallocate (create st.heap).1 (create (C := Data T) st.heap).2 0 .host (layout perm dims).size = .ok (h1, b) := by
          simp only [reallocate, create]
          rw [show Heap.get (st.heap ++ [some { copy := fun _ => none, touched := fun _ => false, last := none }]) st.heap.length =
            some { copy := fun _ => none, touched := fun _ => false, last := none } by simp [Heap.get]]
          simp only [overlap, Nat.lt_irrefl, gt_iff_lt, if_false, bind_ok, hh1, hb, size_eq]
          simp
        have e2' : Whole.fill b .host x dims.prod h1 = .ok h2 := by
          have := e2
          rwa [show m0.current = .host by rw [hm0]] at this
        simp only [Whole.newArray, hsz, if_true, er, bind_ok]
        rw [size_eq, e2', bind_ok]
      · simpa using hk2
  obtain ⟨h', b, m', e, hk, hin, hb⟩ := key
  refine ⟨h', _, A ++ [m'], e, hk, by simp [hr.length], fun k a m hka hkm => ?_, by simp [hr.views], fun v k p c hv => ?_⟩
  · by_cases hkl : k < A.length
    · rw [List.getElem?_append_left hkl] at hkm
      simp only [List.getElem?_append_left (show k < w.boxes.length by rw [← hr.length]; exact hkl)] at hka
      exact hr.box k a m hka hkm
    · have := (List.getElem?_eq_some_iff.1 hkm).1
      simp at this
      have : k = A.length := by omega
      subst this
      simp [hr.length] at hka
      simp at hkm
      subst hka hkm
      exact hin
  · by_cases hvl : v < w.views.length
    · simp only [List.getElem?_append_left hvl] at hv
      obtain ⟨a, m, f, h1, h2, h3, h4⟩ := hr.view v k p c hv
      refine ⟨a, m, f, ?_, ?_, ?_, h4⟩
      · rw [List.getElem?_append_left (List.getElem?_eq_some_iff.1 h1).1]; exact h1
      · rw [List.getElem?_append_left (List.getElem?_eq_some_iff.1 h2).1]; exact h2
      · rw [List.getElem?_append_left (List.getElem?_eq_some_iff.1 h3).1]; exact h3
    · have := (List.getElem?_eq_some_iff.1 hv).1
      simp at this
      have : v = w.views.length := by omega
      subst this
      simp at hv
      obtain ⟨rfl, rfl, rfl⟩ := hv
      exact ⟨_, m', b, List.getElem?_concat_length, by simp [← hr.length], by simp [← hr.views], hb⟩

/-- One step that keeps the rules. -/
theorem boxes_step (c : Cfg) (z : T) {st : Whole.State T} {w : PlacedBoxes T} {A : List (Arr T)} (hr : RepBoxes st w A) (op : Whole.Op T) :
    (boxesStep z w op = some .stopped → Whole.step c z st op = .error .abort) ∧
    ∀ w' out, boxesStep z w op = some (.went w' out) → ∃ st' A', Whole.step c z st op = .ok (st', out) ∧ RepBoxes st' w' A' := by
  cases op with
  | newArray perm dims x =>
    simp only [boxesStep]
    split
    · next h =>
      refine ⟨(fun e => by cases e), fun w' out e => ?_⟩
      cases e
      obtain ⟨h', v, A', e, hr'⟩ := hr.newArray h.1 h.2 x
      exact ⟨_, A', by simp only [Whole.step, e, bind_ok], hr'⟩
    · exact ⟨(fun e => by cases e), (fun w' out e => by cases e)⟩
  | move v space touch =>
    rcases hv : w.views[v]? with _ | ⟨k, p, cc⟩
    · simp [boxesStep, hv]
    obtain ⟨a, m, b, ha, hm, hb, hbo⟩ := hr.view v k p cc hv
    cases space with
    | none =>
      simp only [boxesStep, hv, ha, Option.bind_eq_bind, Option.bind_some]
      refine ⟨(fun e => by cases e), fun w' out e => ?_⟩
      cases e
      refine ⟨st, A, ?_, hr⟩
      obtain ⟨hl, e⟩ := List.getElem?_eq_some_iff.1 hb
      simp only [Whole.step, viewAt_whole hb, bind_ok, move_none']
      rw [← e, List.set_getElem_self]
    | some s =>
      simp only [boxesStep, hv, ha, Option.bind_eq_bind, Option.bind_some]
      refine ⟨(fun e => by cases e), fun w' out e => ?_⟩
      cases e
      obtain ⟨h', b', e, hr', hb'⟩ := hr.moved ha hm hbo s touch
      exact ⟨_, _, by simp only [Whole.step, viewAt_whole hb, bind_ok, e]; rfl,
        hr'.reView (a := a.bring s (touch && !cc)) (m := m.bring s (touch && !cc))
          (List.getElem?_set_self (List.getElem?_eq_some_iff.1 ha).1) (List.getElem?_set_self (List.getElem?_eq_some_iff.1 hm).1) hb'⟩
  | capture v space =>
    rcases hv : w.views[v]? with _ | ⟨k, p, cc⟩
    · simp [boxesStep, hv]
    obtain ⟨a, m, b, ha, hm, hb, hbo⟩ := hr.view v k p cc hv
    cases space with
    | none =>
      simp only [boxesStep, hv, ha, Option.bind_eq_bind, Option.bind_some]
      refine ⟨(fun e => by cases e), fun w' out e => ?_⟩
      cases e
      exact ⟨_, A, by simp only [Whole.step, copyConstruct, viewAt_whole hb, bind_ok, move_none'], hr.addView ha hm hbo⟩
    | some s =>
      simp only [boxesStep, hv, ha, Option.bind_eq_bind, Option.bind_some]
      refine ⟨(fun e => by cases e), fun w' out e => ?_⟩
      cases e
      obtain ⟨h', b', e, hr', hb'⟩ := hr.moved ha hm hbo s true
      simp only [Bool.true_and] at hr'
      exact ⟨_, _, by simp only [Whole.step, copyConstruct, viewAt_whole hb, bind_ok, e]; rfl,
        hr'.addView (a := a.bring s (!cc)) (m := m.bring s (!cc))
          (List.getElem?_set_self (List.getElem?_eq_some_iff.1 ha).1) (List.getElem?_set_self (List.getElem?_eq_some_iff.1 hm).1) hb'⟩
  | toViewConst v =>
    rcases hv : w.views[v]? with _ | ⟨k, p, cc⟩
    · simp [boxesStep, hv]
    obtain ⟨a, m, b, ha, hm, hb, hbo⟩ := hr.view v k p cc hv
    simp only [boxesStep, hv, Option.bind_eq_bind, Option.bind_some]
    refine ⟨(fun e => by cases e), fun w' out e => ?_⟩
    cases e
    exact ⟨_, A, by simp only [Whole.step, viewAt_whole hb, bind_ok],
      hr.addView ha hm (b := toConst b) ⟨hbo.record, hbo.slots, rfl, hbo.pointer⟩⟩
  | write v s idx x =>
    rcases hv : w.views[v]? with _ | ⟨k, p, cc⟩
    · simp [boxesStep, hv]
    obtain ⟨a, m, b, ha, hm, hb, hbo⟩ := hr.view v k p cc hv
    simp only [boxesStep, hv, ha, Option.bind_eq_bind, Option.bind_some]
    split
    · next h =>
      obtain ⟨rfl, rfl, rfl, ht, hi⟩ := h
      refine ⟨(fun e => by cases e), fun w' out e => ?_⟩
      cases e
      have hin := hr.box k a m ha hm
      obtain ⟨h', e, hk⟩ := hr.keeps.write hm (b := b) (by rw [hin.current]; exact hbo) (by rw [hin.touched]; exact ht)
        (by rw [hin.cap]; exact boxPos_lt hin.perm hi) x
      rw [hin.current] at e
      refine ⟨_, _, by simp only [Whole.step, viewAt_whole hb, bind_ok, address_ok hin.perm c hi, e],
        hr.change ha hm (a' := { a with value := fun j => if j = idx then x else a.value j })
          (m' := { m with data := fun j => if j = boxPos a.perm a.dims idx then some x else m.data j }) rfl rfl rfl rfl
          (hin.values fun j hj => ?_) hk⟩
      by_cases hji : j = idx
      · simp [hji]
      · have : boxPos a.perm a.dims j ≠ boxPos a.perm a.dims idx := fun e => hji (boxPos_inj hin.perm hj hi e)
        simp only [hji, this, if_false]
        exact hin.value j hj
    · exact ⟨(fun e => by cases e), (fun w' out e => by cases e)⟩
  | read v s idx =>
    rcases hv : w.views[v]? with _ | ⟨k, p, cc⟩
    · simp [boxesStep, hv]
    obtain ⟨a, m, b, ha, hm, hb, hbo⟩ := hr.view v k p cc hv
    simp only [boxesStep, hv, ha, Option.bind_eq_bind, Option.bind_some]
    split
    · next h =>
      obtain ⟨rfl, rfl, hi⟩ := h
      refine ⟨(fun e => by cases e), fun w' out e => ?_⟩
      cases e
      have hin := hr.box k a m ha hm
      have e := hr.keeps.read hm (b := b) (c := cc) (by rw [hin.current]; exact hbo)
        (by rw [hin.cap]; exact boxPos_lt hin.perm hi) (hin.value idx hi)
      rw [hin.current] at e
      exact ⟨st, A, by simp only [Whole.step, viewAt_whole hb, bind_ok, address_ok hin.perm c hi, e], hr⟩
    · exact ⟨(fun e => by cases e), (fun w' out e => by cases e)⟩
  | setValues v P x =>
    rcases hv : w.views[v]? with _ | ⟨k, p, cc⟩
    · simp [boxesStep, hv]
    obtain ⟨a, m, b, ha, hm, hb, hbo⟩ := hr.view v k p cc hv
    simp only [boxesStep, hv, ha, Option.bind_eq_bind, Option.bind_some]
    split
    · next h =>
      subst h
      refine ⟨(fun e => by cases e), fun w' out e => ?_⟩
      cases e
      obtain ⟨h', A', e, hr'⟩ := hr.setValues ha hm hbo P x
      exact ⟨_, A', by simp only [Whole.step, viewAt_whole hb, bind_ok, e], hr'⟩
    · exact ⟨(fun e => by cases e), (fun w' out e => by cases e)⟩
  | setValuesFrom v u P =>
    rcases hv : w.views[v]? with _ | ⟨k, p, cc⟩
    · simp [boxesStep, hv]
    rcases hu : w.views[u]? with _ | ⟨l, p2, c2⟩
    · simp [boxesStep, hv, hu]
    obtain ⟨a, m, b, ha, hm, hb, hbo⟩ := hr.view v k p cc hv
    obtain ⟨a2, m2, b2, ha2, hm2, hb2, hbo2⟩ := hr.view u l p2 c2 hu
    simp only [boxesStep, hv, hu, ha, ha2, Option.bind_eq_bind, Option.bind_some]
    split
    · next h =>
      obtain ⟨rfl, hlen, hlast⟩ := h
      split
      · next hs =>
        refine ⟨(fun e => by cases e), fun w' out e => ?_⟩
        cases e
        obtain ⟨h', A', e, hr'⟩ := hr.setValuesFrom ha hm ha2 hm2 hbo hbo2 hs hlast P
        exact ⟨_, A', by simp only [Whole.step, viewAt_whole hb, viewAt_whole hb2, bind_ok, e], hr'⟩
      · next hs =>
        refine ⟨fun _ => ?_, (fun w' out e => by cases e)⟩
        have hd : (layout a.perm a.dims).dims ≠ (layout a2.perm a2.dims).dims ∨
            (layout a.perm a.dims).strides ≠ (layout a2.perm a2.dims).strides := by
          refine Classical.byContradiction fun hn => hs ((sameLayout_iff (hr.box k a m ha hm).perm (hr.box l a2 m2 ha2 hm2).perm).2 ?_)
          exact ⟨Classical.byContradiction fun h => hn (Or.inl h), Classical.byContradiction fun h => hn (Or.inr h)⟩
        simp only [Whole.step, viewAt_whole hb, viewAt_whole hb2, bind_ok, Whole.setValuesFrom, decide_eq_true hd, errorIf_true]
        rfl
    · exact ⟨(fun e => by cases e), (fun w' out e => by cases e)⟩
  | zero v =>
    rcases hv : w.views[v]? with _ | ⟨k, p, cc⟩
    · simp [boxesStep, hv]
    obtain ⟨a, m, b, ha, hm, hb, hbo⟩ := hr.view v k p cc hv
    simp only [boxesStep, hv, ha, Option.bind_eq_bind, Option.bind_some]
    split
    · next h =>
      subst h
      refine ⟨(fun e => by cases e), fun w' out e => ?_⟩
      cases e
      obtain ⟨h', b', A', m', e, hm', hr', hb'⟩ := hr.zero ha hm hbo z
      exact ⟨_, A', by simp only [Whole.step, viewAt_whole hb, bind_ok, e]; rfl,
        hr'.reView (a := { a.bring a.current true with value := fun _ => z })
          (List.getElem?_set_self (List.getElem?_eq_some_iff.1 ha).1) hm' hb'⟩
    · exact ⟨(fun e => by cases e), (fun w' out e => by cases e)⟩

theorem boxes_run (c : Cfg) (z : T) (ops : List (Whole.Op T)) : ∀ {st : Whole.State T} {w : PlacedBoxes T} {A : List (Arr T)}, RepBoxes st w A →
    ∀ outs stopped, boxesRun z w ops = some (outs, stopped) →
    if stopped then Whole.run c z st ops = .error .abort else ∃ st', Whole.run c z st ops = .ok (st', outs) := by
  induction ops with
  | nil =>
    intro st w A hr outs stopped h
    cases h
    exact ⟨st, rfl⟩
  | cons op ops ih =>
    intro st w A hr outs stopped h
    obtain ⟨hstop, hgo⟩ := boxes_step c z hr op
    simp only [boxesRun, Option.bind_eq_bind] at h
    rcases hs : boxesStep z w op with _ | (_ | ⟨w', out⟩)
    · rw [hs] at h; cases h
    · rw [hs] at h
      cases h
      simp only [if_true, Whole.run, hstop hs]
      rfl
    · rw [hs] at h
      simp only [Option.bind_some] at h
      obtain ⟨st', A', e, hr'⟩ := hgo w' out hs
      rcases ho : boxesRun z w' ops with _ | ⟨outs', b⟩
      · rw [ho] at h; cases h
      · rw [ho] at h
        cases h
        have := ih hr' _ _ ho
        cases b
        · obtain ⟨st2, e2⟩ := this
          exact ⟨st2, by simp only [Whole.run, e, bind_ok, e2]⟩
        · simp only [if_true] at this ⊢
          simp only [Whole.run, e, bind_ok, this]
          rfl

/-- **C62.** Arrays of any shape and permutation are created, moved between host and device, captured by kernels, converted to read-only
views, written and read by multi-index, and assigned as a whole by `setValues( value )`, `setValues( view )` and `zero()`, the loops
being run by any number of threads in any order on either side.  If the history keeps the rules, then every value read is the one a
box of values without memory spaces has at that multi-index; the only calls that stop the program are those of `setValues( view )` with a
view whose dimensions or strides differ, and they do. -/
theorem C62_whole_assignment (c : Cfg) (z : T) (ops : List (Whole.Op T)) (outs : List T) (stopped : Bool)
    (h : boxesRun z { boxes := [], views := [] } ops = some (outs, stopped)) :
    if stopped then Whole.run c z (Whole.start T) ops = .error .abort else ∃ st', Whole.run c z (Whole.start T) ops = .ok (st', outs) := by
  refine boxes_run c z ops (A := []) ?_ outs stopped h
  refine ⟨⟨(fun k a ha => by cases ha), (fun k l a b ha => by cases ha)⟩, rfl, (fun k a m ha => by cases ha), rfl, (fun v k p c hv => by cases hv)⟩

/-- Two threads, one for the even and one for the odd iterations. -/
def evenOdd (space : Space) (order : List Nat) : Policy where
  space := space
  split := fun n => [(List.range n).filter fun i => i % 2 == 0, (List.range n).filter fun i => !(i % 2 == 0)]
  once := fun n => by
    simp only [List.flatten_cons, List.flatten_nil, List.append_nil]
    exact List.filter_append_perm _ _
  order := order

/-- Two arrays of shape 2 × 3 in column major order; the first is assigned on the device, the second copied from it on the host and then
changed; the first is not affected. -/
example : boxesRun 0 { boxes := [], views := [] } [.newArray [1, 0] [2, 3] 0, .newArray [1, 0] [2, 3] 1, .setValues 0 (evenOdd .device [1, 0, 1]) 7,
    .capture 0 (some .device), .write 2 .device [1, 2] 8, .toViewConst 0, .setValuesFrom 1 3 (evenOdd .host [1, 1, 0, 1, 0]),
    .read 1 .host [1, 2], .read 1 .host [0, 2], .zero 0, .read 0 .host [1, 2], .read 1 .host [1, 2]] = some ([8, 7, 0, 8], false) := by
  decide +kernel

/-- Row major and column major arrays of the same shape cannot be assigned to each other, unless all strides happen to agree. -/
example : boxesRun (0 : Nat) { boxes := [], views := [] } [.newArray [1, 0, 2] [2, 3, 4] 0, .newArray [0, 1, 2] [2, 3, 4] 1,
      .setValuesFrom 0 1 (evenOdd .host [])] = some ([], true) ∧
    boxesRun (0 : Nat) { boxes := [], views := [] } [.newArray [1, 0, 2] [1, 1, 4] 0, .newArray [0, 1, 2] [1, 1, 4] 5,
      .setValuesFrom 0 1 (evenOdd .host []), .read 0 .host [0, 0, 3]] = some ([5], false) := by decide +kernel

/-- **C62 (the view itself stays behind).** The note on `setValues` says that the view is moved to the space of the policy.  Only the
array is: the view on which `setValues` was called still refers to the memory of the space it was in, and the host reads the old value. -/
theorem C62_view_stays_behind :
    (Whole.run ⟨true, true, true⟩ 0 (Whole.start Nat) [.newArray [0] [2] 5, .setValues 0 (evenOdd .device []) 7, .read 0 .host [1]]).map Prod.snd =
      .ok [5] ∧
    (Whole.run ⟨true, true, true⟩ 0 (Whole.start Nat) [.newArray [0] [2] 5, .setValues 0 (evenOdd .device []) 7, .move 0 (some .host) false,
      .read 0 .host [1]]).map Prod.snd = .ok [7] := by decide +kernel

end LvArray.Props

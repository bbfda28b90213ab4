import Verif.MachineAoALemmas
import Verif.Props.Machine

/-!
# C66: arrays of arrays in the integer types of the code

`t` is the `INDEX_TYPE` of the container, any integer type of any width.  `AoA.mkM t`, `AoA.runM t` run the constructor and a
history with every offset, size, capacity and number of arrays computed and stored in `t`; `vvRun` (C21) and `vvcRun` (C23)
say what `std::vector< std::vector< T > >` holds after the history and what the capacities are.
-/

namespace LvArray.Props

open IntTy Spec Layout

variable {T : Type} [Inhabited T]

/-- The number of arrays plus one (the number of offsets) and the sum of the capacities are values of the index type (and of
`std::ptrdiff_t`, which no object in memory can exceed). -/
def RowsFit (t : IntTy) (L : List (List T × Nat)) : Prop :=
  Bounded t (L.length + 1) ∧ Bounded t (L.map Prod.snd).sum

/-- The capacities asked for are values of the index type. -/
def RequestFits (t : IntTy) : AoAOp T → Prop
  | .reserve n => Bounded t (n + 1)
  | .reserveValues n => Bounded t n
  | _ => True

/-- The operation does not lower the capacity of an existing array by moving the arrays behind it. -/
def KeepsCapacities (L : List (List T × Nat)) : AoAOp T → Prop
  | .eraseArray i => ∀ r, L[i]? = some r → r.2 = 0
  | .setCapacityOfArray i n => ∀ r, L[i]? = some r → r.2 ≤ n
  | _ => True

/-- Everything that occurs in the history fits the index type, and an unsigned index type is not used to lower a capacity. -/
def HistoryFits (t : IntTy) : List (List T × Nat) → List (AoAOp T) → Prop
  | L, [] => RowsFit t L
  | L, op :: ops => RowsFit t L ∧ RequestFits t op ∧ (t.signed = true ∨ KeepsCapacities L op) ∧
      ∀ L', vvcStep L op = some L' → HistoryFits t L' ops

theorem HistoryFits.head {t : IntTy} {L : List (List T × Nat)} {ops : List (AoAOp T)} (h : HistoryFits t L ops) : RowsFit t L := by
  cases ops with
  | nil => exact h
  | cons op ops => exact h.1

/-- One legal operation. -/
theorem stepM_of {t : IntTy} (hb : 1 ≤ t.bits) {c : Cfg} {a : AoA T} {L L' : Layout T} (h : AGood a L) (op : AoAOp T)
    (hs : vvcStep L op = some L') (hf : RowsFit t L) (hf' : RowsFit t L') (hr : RequestFits t op)
    (hk : t.signed = true ∨ KeepsCapacities L op) : a.stepM t c op = a.step c op := by
  have htot : ∀ L : Layout T, (L.map Prod.snd).sum = total L := fun L => caps_sum L
  obtain ⟨hl, ht⟩ := hf
  obtain ⟨hl', ht'⟩ := hf'
  rw [htot] at ht ht'
  cases op with
  | resize n d =>
    simp only [vvcStep, Option.some.injEq] at hs
    subst hs
    have hn : Bounded t (n + 1) := by
      refine hl'.le ?_
      simp only [List.length_append, List.length_take, List.length_replicate]
      omega
    refine resizeM_of hb h.weak hl hn (fun hle => ht'.le ?_)
    rw [List.take_of_length_le hle, total_append]
    have : total (List.replicate (n - L.length) (([] : List T), d)) = (n - L.length) * d := by
      rw [← htot]; simp
    omega
  | reserve n => exact reserveM_of hb h n hr hl
  | reserveValues n => exact reserveValuesM_of n hr
  | compress => exact compressM_of hb h ht.1
  | appendArraySize n =>
    simp only [vvcStep, Option.some.injEq] at hs
    subst hs
    have hn : Bounded t (L.length + 1) := hl
    show a.appendArraySizeM t c n = a.appendArraySize c n
    unfold AoA.appendArraySizeM AoA.appendArraySize
    rw [appendRowM_of hb h hl]
    obtain ⟨s', h1, h2, h3⟩ := h.appendRow (c := c)
    rw [h1, bind_ok, bind_ok, h2, minus_ok t hb (by omega) hl.1, bind_ok, Nat.add_sub_cancel]
    refine resizeArrayM_of (A := L) (B := []) hb h3 n default (ht'.le ?_) (ht'.le ?_) <;>
      (simp only [total_append, total_cons]; omega)
  | appendArray vs =>
    have : Spec.grown 0 vs.length = AGood.grownTo ([] : List T) 0 vs.length := by
      unfold Spec.grown AGood.grownTo; simp
    simp only [vvcStep, Option.some.injEq, this] at hs
    subst hs
    show a.appendArrayM t c vs = a.appendArray c vs
    unfold AoA.appendArrayM AoA.appendArray
    rw [appendRowM_of hb h hl]
    obtain ⟨s', h1, h2, h3⟩ := h.appendRow (c := c)
    rw [h1, bind_ok, bind_ok, h2, minus_ok t hb (by omega) hl.1, bind_ok, Nat.add_sub_cancel]
    refine appendToArrayM_of (A := L) (B := []) hb h3 vs (ht'.le ?_) (ht'.le ?_) <;>
      (simp only [total_append, total_cons]; omega)
  | insertArray i vs =>
    have : Spec.grown 0 vs.length = AGood.grownTo ([] : List T) 0 vs.length := by
      unfold Spec.grown AGood.grownTo; simp
    simp only [vvcStep, this] at hs
    split at hs
    · rename_i hi
      cases hs
      have hlen : (L.take i).length = i := by simp; omega
      have hg : AGood a (L.take i ++ L.drop i) := by rw [List.take_append_drop]; exact h
      show a.insertArrayM t c i vs = a.insertArray c i vs
      unfold AoA.insertArrayM AoA.insertArray
      have e := insertRowM_of (c := c) hb hg (by rw [List.take_append_drop]; exact hl)
      obtain ⟨s', h1, h3⟩ := hg.insertRow (c := c)
      rw [hlen] at e h1
      rw [e, h1, bind_ok, bind_ok]
      have := appendToArrayM_of (A := L.take i) (B := L.drop i) (c := c) hb h3 vs
        (ht'.le (by simp only [total_append, total_cons]; omega)) (ht'.le (by simp only [total_append, total_cons]; omega))
      rw [hlen] at this
      exact this
    · cases hs
  | eraseArray i =>
    simp only [vvcStep] at hs
    split at hs
    · rename_i hi
      obtain ⟨A, xs, cap, B, rfl, rfl, _⟩ := split1 hi
      exact eraseArrayM_of hb h (hk.imp_right (fun hk => hk (xs, cap) (by simp))) hl ht
    · cases hs
  | emplaceBack i v =>
    simp only [vvcStep] at hs
    obtain ⟨A, xs, cap, B, rfl, rfl, _, rfl⟩ := onRowC_some hs
    have hnew : Bounded t (total (A ++ (xs, AGood.grownTo xs cap 1) :: B)) :=
      ht'.le (by simp only [total_append, total_cons, grown_eq]; omega)
    exact grow_then hb h 1 ht hnew (fun a' ha' => viewEmplaceBackM_of hb ha' hnew.1 v (AGood.le_grownTo xs cap 1))
  | appendToArray i vs =>
    simp only [vvcStep] at hs
    obtain ⟨A, xs, cap, B, rfl, rfl, _, rfl⟩ := onRowC_some hs
    exact appendToArrayM_of hb h vs ht (ht'.le (by simp only [total_append, total_cons, grown_eq]; omega))
  | emplace i j v =>
    simp only [vvcStep] at hs
    obtain ⟨A, xs, cap, B, rfl, rfl, hj, rfl⟩ := onRowC_some hs
    have hnew : Bounded t (total (A ++ (xs, AGood.grownTo xs cap 1) :: B)) :=
      ht'.le (by simp only [total_append, total_cons, grown_eq]; omega)
    exact grow_then hb h 1 ht hnew (fun a' ha' => viewEmplaceM_of hb ha' hnew.1 j v (AGood.le_grownTo xs cap 1))
  | insertIntoArray i j vs =>
    simp only [vvcStep] at hs
    obtain ⟨A, xs, cap, B, rfl, rfl, hj, rfl⟩ := onRowC_some hs
    exact insertIntoArrayM_of hb h j vs ht (ht'.le (by simp only [total_append, total_cons, grown_eq]; omega))
  | eraseFromArray i j n =>
    simp only [vvcStep] at hs
    obtain ⟨A, xs, cap, B, rfl, rfl, hj, rfl⟩ := onRowC_some hs
    simp only [decide_eq_true_eq] at hj
    exact eraseFromArrayM_of hb h ht.1 j n (by omega)
  | resizeArray i n v =>
    simp only [vvcStep] at hs
    obtain ⟨A, xs, cap, B, rfl, rfl, _, rfl⟩ := onRowC_some hs
    exact resizeArrayM_of hb h n v ht (ht'.le (by simp only [total_append, total_cons]; omega))
  | clearArray i =>
    simp only [vvcStep] at hs
    obtain ⟨A, xs, cap, B, rfl, rfl, _, rfl⟩ := onRowC_some hs
    exact resizeArrayM_of hb h 0 default ht (ht'.le (by simp only [total_append, total_cons]; omega))
  | setCapacityOfArray i n =>
    simp only [vvcStep] at hs
    obtain ⟨A, xs, cap, B, rfl, rfl, _, rfl⟩ := onRowC_some hs
    have hnew : Bounded t (total (A ++ (xs, n) :: B)) := ht'.le (by simp only [total_append, total_cons]; omega)
    exact setCapacity_of t hb c h n (hk.imp_right (fun hk => hk (xs, cap) (by simp))) ht.1 hnew.1 ht.2 hnew.2
  | set i j v => rfl
  | resizeFromCapacities cs =>
    simp only [vvcStep, Option.some.injEq] at hs
    subst hs
    have e : total (cs.map fun n => (([] : List T), n)) = cs.sum := by
      rw [← htot]; simp [Function.comp_def]
    rw [e] at ht'
    exact resizeFromCapacitiesM_of hb h.weak cs hl (by simpa using hl') ht'

theorem runM_of {t : IntTy} (hb : 1 ≤ t.bits) {c : Cfg} : ∀ (ops : List (AoAOp T)) (a : AoA T) (L L' : Layout T),
    (c.debug = true → ∀ op ∈ ops, op.nonEmptyInsert) → AGood a L → vvcRun L ops = some L' → HistoryFits t L ops →
    a.runM t c ops = a.run c ops
  | [], _, _, _, _, _, _, _ => rfl
  | op :: ops, a, L, L', hd, h, hL, hf => by
    obtain ⟨hf1, hf2, hf3, hf4⟩ := hf
    have hL : (vvcStep L op >>= fun L => vvcRun L ops) = some L' := hL
    cases hst : vvcStep L op with
    | none => rw [hst] at hL; cases hL
    | some M =>
      rw [hst] at hL
      have hM := hf4 M hst
      show (a.stepM t c op >>= fun a => AoA.runM t c a ops) = (a.step c op >>= fun a => AoA.run c a ops)
      rw [stepM_of hb h op hst hf1 hM.head hf2 hf3]
      rcases step_exact c h op hst (fun hdb => hd hdb op (by simp)) with ⟨_, a', h1, h2, _⟩ | ⟨_, h1⟩
      · rw [h1, bind_ok, bind_ok]
        exact runM_of hb ops a' M L' (fun hdb op' hop' => hd hdb op' (by simp [hop'])) h2 hL hM
      · rw [h1]; rfl

theorem mkM_of {t : IntTy} (hb : 1 ≤ t.bits) (c : Cfg) (n d : Nat) (hf : RowsFit t (List.replicate n (([] : List T), d))) :
    (AoA.mkM t c n d : R (AoA T)) = AoA.mk' c n d := by
  obtain ⟨h1, h2⟩ := hf
  simp only [List.length_replicate, List.map_replicate, List.sum_replicate_nat] at h1 h2
  refine resizeM_of hb AWeak.fresh (h1.le (by simp)) h1 (fun _ => ?_)
  simpa using h2

/-- **C66 (partial: histories that leave the range of the index type, and lowering capacities with an unsigned index type, are
excluded).** For every index type and every legal history of an array of arrays of trivially copyable values in which the
number of arrays and the total capacity stay in the range of the index type: the constructor and all operations succeed, and
at the end the accessors report exactly what `std::vector< std::vector< T > >` holds. -/
theorem C66_vector_of_vectors_partial (t : IntTy) (hb : 1 ≤ t.bits) (c : Cfg) (ht : c.trivial = true) (n d : Nat)
    (ops : List (AoAOp T)) (hd : NoEmptyInsert c ops) (rows : List (List T)) (h : vvRun (List.replicate n []) ops = some rows)
    (hf : HistoryFits t (List.replicate n ([], d)) ops) :
    ∃ a a', AoA.mkM t c n d = .ok a ∧ AoA.runM t c a ops = .ok a' ∧ Shows c a' rows := by
  obtain ⟨a, a', h1, h2, h3⟩ := C21_vector_of_vectors c ht n d ops hd rows h
  obtain ⟨a1, h4, hg⟩ := mk_good (T := T) c n d
  rw [h1] at h4; cases h4
  obtain ⟨L, h5, -⟩ := vvcRun_of_vvRun (L := List.replicate n ([], d)) (ops := ops) (rows := rows) (by simpa using h)
  exact ⟨a, a', by rw [mkM_of hb c n d hf.head]; exact h1, by rw [runM_of hb ops a _ L hd hg h5 hf]; exact h2, h3⟩

/-- **C66 (partial as above), all element types.** Whatever the element type, such a history has the same outcome, in every
byte, as the same history with unbounded integers; the other theorems about arrays of arrays (C21-C25, C49) therefore hold
for the code with that index type. -/
theorem C66_histories_partial (t : IntTy) (hb : 1 ≤ t.bits) (c : Cfg) (n d : Nat) (ops : List (AoAOp T))
    (hd : NoEmptyInsert c ops) (rows : List (List T)) (h : vvRun (List.replicate n []) ops = some rows)
    (hf : HistoryFits t (List.replicate n ([], d)) ops) :
    (AoA.mkM t c n d >>= fun a => AoA.runM t c a ops) = (AoA.mk' c n d >>= fun a => AoA.run c a ops) := by
  obtain ⟨a, h1, hg⟩ := mk_good (T := T) c n d
  obtain ⟨L, h5, -⟩ := vvcRun_of_vvRun (L := List.replicate n ([], d)) (ops := ops) (rows := rows) (by simpa using h)
  rw [mkM_of hb c n d hf.head, h1, bind_ok, bind_ok, runM_of hb ops a _ L hd hg h5 hf]

/-! ## What is not rejected -/

theorem mul_wraps (t : IntTy) (hw : 32 ≤ t.bits) (hs : t.signed = false) {p q : Nat} (hp : (p : Int) ≤ t.max)
    (hq : (q : Int) ≤ t.max) : mul t t (p : Int) (q : Int) = .ok (((p * q % 2 ^ t.bits : Nat)) : Int) := by
  have hb : 1 ≤ t.bits := by omega
  unfold IntTy.mul
  rw [common_wide t hw, cast_nat t hb hp, cast_nat t hb hq]
  unfold IntTy.fit
  rw [if_neg (by simp [hs])]
  unfold IntTy.cast
  simp only [hs, Bool.false_eq_true, false_and, if_false]
  push_cast
  rfl

theorem unsigned_max (t : IntTy) (hs : t.signed = false) : t.max = ((2 ^ t.bits : Nat) : Int) - 1 := by
  unfold IntTy.max
  rw [hs]
  push_cast
  simp

theorem minus_wraps (t : IntTy) (hw : 32 ≤ t.bits) (hs : t.signed = false) (i d : Nat) (hd : d < 2 ^ t.bits) :
    t.minus ((i + 1) * d % 2 ^ t.bits) (i * d % 2 ^ t.bits) = .ok d := by
  have hb : 1 ≤ t.bits := by omega
  have hpos : 0 < 2 ^ t.bits := Nat.two_pow_pos _
  have hm := unsigned_max t hs
  have l1 : (i + 1) * d % 2 ^ t.bits < 2 ^ t.bits := Nat.mod_lt _ hpos
  have l2 : i * d % 2 ^ t.bits < 2 ^ t.bits := Nat.mod_lt _ hpos
  unfold IntTy.minus IntTy.subTo IntTy.sub
  rw [common_wide t hw, cast_nat t hb (by omega), cast_nat t hb (by omega)]
  unfold IntTy.fit
  rw [if_neg (by simp [hs]), bind_ok]
  have key : t.cast ((((i + 1) * d % 2 ^ t.bits : Nat) : Int) - ((i * d % 2 ^ t.bits : Nat) : Int)) = (d : Int) := by
    unfold IntTy.cast
    simp only [hs, Bool.false_eq_true, false_and, if_false]
    push_cast
    rw [← Int.sub_emod, show ((i : Int) + 1) * d - i * d = d by rw [Int.add_mul]; omega]
    exact Int.emod_eq_of_lt (by omega) (by exact_mod_cast hd)
  rw [key, cast_nat t hb (by omega), bind_ok, toIndex_ok]

/-- **C66, disagreement, unsigned types.** With an unsigned index type of at least the width of `int`, constructing `n` arrays
of capacity `d` succeeds and every array claims the capacity `d`, but room is allocated for `n * d` modulo `2 ^ bits` values
only. -/
theorem C66_unsigned_wraps (t : IntTy) (hw : 32 ≤ t.bits) (hs : t.signed = false) (c : Cfg) (n d : Nat) (hd0 : 0 < d)
    (hn : Bounded t (n + 1)) (hd : (d : Int) ≤ t.max) (hp : ((n * d % 2 ^ t.bits : Nat) : Int) ≤ ptrdiff.max) :
    ∃ a : AoA T, AoA.mkM t c n d = .ok a ∧ a.shape.numArrays = n ∧
      (∀ i, i < n → a.shape.capacityOfArrayM t c i = .ok d) ∧ a.values.cap = n * d % 2 ^ t.bits := by
  have hb : 1 ≤ t.bits := by omega
  have hpos : 0 < 2 ^ t.bits := Nat.two_pow_pos _
  have hm := unsigned_max t hs
  have hz32 : (1 : Nat) ≤ int.bits := by decide
  have hempty : RepM (Buf.empty : Buf Nat) [] := ⟨⟨rfl, Nat.le_refl _⟩, rfl⟩
  obtain ⟨o, ho, hro⟩ := hempty.resize c.ix (n := 0) rfl (n + 1) 0
  obtain ⟨z, hz, hrz⟩ := hempty.resize c.ix (n := 0) rfl n 0
  simp only [List.take_nil, List.nil_append, List.length_nil, Nat.sub_zero] at hro hrz
  obtain ⟨o', ho', hro'⟩ := spread_zeros (c := c) hb (fun i => i * d % 2 ^ t.bits) (by simp) hro
  have hspread : Shape.spreadOffsetsM t c { numArrays := 0, offsets := o, sizes := z } n 0 d =
      .ok { numArrays := 0, offsets := o', sizes := z } := by
    rw [spreadOffsetsM_with hb (fun i => i * d % 2 ^ t.bits) hn (Nat.zero_le _)]
    · show (forUp n 1 _ o >>= _) = _
      rw [ho', bind_ok]
    · intro i k1 k2
      have bi : (i : Int) ≤ t.max := (hn.le (by omega : i ≤ n + 1)).1
      have l2 : i * d % 2 ^ t.bits < 2 ^ t.bits := Nat.mod_lt _ hpos
      rw [mul_wraps t hw hs bi hd, bind_ok, common_wide t hw]
      have : add t t ((0 : Nat) : Int) ((i * d % 2 ^ t.bits : Nat) : Int) = .ok ((i * d % 2 ^ t.bits : Nat) : Int) := by
        rw [add_ok t t hb hb (rep_of_nonneg t (by omega) (by omega)) (rep_of_nonneg t (by omega) (by omega)) (by omega) (by omega)
          (by omega)]
        congr 1
        omega
      rw [this, bind_ok, cast_nat t hb (by omega), toIndex_ok]
  have hget : ∀ i, i ≤ n → o'.read i = .ok (i * d % 2 ^ t.bits) := by
    intro i hi
    exact hro'.read (by simp [show i < n + 1 by omega])
  have hres := bufferManipulation.reserve_rep c (b := (Buf.empty : Buf T)) (xs := []) ⟨rfl, Nat.le_refl _⟩ (n * d % 2 ^ t.bits) (.inl rfl)
  refine ⟨{ shape := { numArrays := n, offsets := o', sizes := z },
            values := { (Buf.empty : Buf T) with
              cap := max (Buf.empty : Buf T).cap (n * d % 2 ^ t.bits),
              moves := (Buf.empty : Buf T).moves + (Buf.empty : Buf T).growMoves 0 (n * d % 2 ^ t.bits) } },
    ?_, rfl, ?_, ?_⟩
  · unfold AoA.mkM AoA.resizeM
    rw [if_neg (by simp)]
    have hadd : Shape.addRowsM t c { numArrays := 0, offsets := Buf.empty, sizes := Buf.empty } n d =
        .ok { numArrays := 0, offsets := o', sizes := z } := by
      unfold Shape.addRowsM Shape.lastOffset Shape.offsetsSizeM
      simp only [if_true, bind_ok, succOffset_ok t hb hn, ho, hz, hd0, hspread]
    rw [hadd, bind_ok]
    unfold Shape.addRowsReserveM
    rw [if_pos hd0]
    have h0 := hget 0 (by omega)
    rw [Nat.zero_mul, Nat.zero_mod] at h0
    simp only [hget n (by omega), h0, bind_ok, toOffset_ok hp]
    have hres' : bufferManipulation.reserve c (Buf.empty : Buf T) 0 (n * d % 2 ^ t.bits) = _ := hres
    rw [hres', bind_ok]
    rfl
  · intro i hi
    unfold Shape.capacityOfArrayM Shape.checkBounds
    have : decide (n ≤ i) = false := by simpa using hi
    simp only [this, Bool.and_false, errorIf_false, bind_ok, hget i (by omega), hget (i + 1) (by omega)]
    exact minus_wraps t hw hs i d (by have : (d : Int) < ((2 ^ t.bits : Nat) : Int) := by omega
                                      exact_mod_cast this)
  · show max 0 _ = _
    omega

/-- **C66, disagreement, signed types.** With a signed index type of at least the width of `int`, constructing arrays whose
total capacity exceeds the maximum of the index type overflows. -/
theorem C66_signed_overflow (t : IntTy) (hw : 32 ≤ t.bits) (hs : t.signed = true) (c : Cfg) (n d : Nat)
    (hn : Bounded t (n + 1)) (hd : (d : Int) ≤ t.max) (h : t.max < ((n * d : Nat) : Int)) :
    (AoA.mkM t c n d : R (AoA T)) = .error (.ub .overflow) := by
  have hb : 1 ≤ t.bits := by omega
  have hd0 : 0 < d := by
    rcases Nat.eq_zero_or_pos d with rfl | h0
    · have := hn.1
      simp at h; omega
    · exact h0
  have hempty : RepM (Buf.empty : Buf Nat) [] := ⟨⟨rfl, Nat.le_refl _⟩, rfl⟩
  obtain ⟨o, ho, hro⟩ := hempty.resize c.ix (n := 0) rfl (n + 1) 0
  obtain ⟨z, hz, hrz⟩ := hempty.resize c.ix (n := 0) rfl n 0
  simp only [List.take_nil, List.nil_append, List.length_nil, Nat.sub_zero] at hro hrz
  have hbody : ∀ i, i ≤ n → (((i * d : Nat) : Int) ≤ t.max ∧ (mul t t i d >>= fun p => add t (common t t) (0 : Nat) p >>= fun q =>
      toIndex (t.cast q)) = .ok (i * d)) ∨ (t.max < ((i * d : Nat) : Int) ∧ mul t t i d = .error (.ub .overflow)) := by
    intro i hi
    have bi : (i : Int) ≤ t.max := (hn.le (by omega : i ≤ n + 1)).1
    by_cases hle : ((i * d : Nat) : Int) ≤ t.max
    · refine .inl ⟨hle, ?_⟩
      rw [mul_ok t t hb hb (rep_of_nonneg t (by omega) bi) (rep_of_nonneg t (by omega) hd) (by omega) (by omega)
        (by rw [← Int.natCast_mul]; exact hle), bind_ok, common_wide t hw, ← Int.natCast_mul,
        add_ok t t hb hb (rep_of_nonneg t (by omega) (by omega)) (rep_of_nonneg t (by omega) hle) (by omega) (by omega) (by omega),
        bind_ok, show ((0 : Nat) : Int) + ((i * d : Nat) : Int) = ((i * d : Nat) : Int) by omega, cast_nat t hb hle, toIndex_ok]
    · refine .inr ⟨by omega, ?_⟩
      unfold IntTy.mul
      rw [common_wide t hw, cast_nat t hb bi, cast_nat t hb hd]
      unfold IntTy.fit
      rw [if_pos hs, if_neg]
      rw [← Int.natCast_mul]
      omega
  have hspread : Shape.spreadOffsetsM t c { numArrays := 0, offsets := o, sizes := z } n 0 d = .error (.ub .overflow) := by
    rw [spreadOffsetsM_count hb hn (Nat.zero_le _)]
    have hn0 : n ≠ 0 := by
      rintro rfl
      have := hn.1
      simp at h; omega
    have := forUp_fails (e := .ub .overflow) (f := fun i (o : Buf Nat) => do
        let p ← mul t t i d
        let q ← add t (common t t) (0 : Nat) p
        let x ← toIndex (t.cast q)
        Buf.write c.ix o (0 + i) x)
      (fun _ b => ∃ xs : List Nat, RepM b xs ∧ xs.length = n + 1) n 1 n o ⟨_, hro, by simp⟩
      (by
        rintro i b k1 k2 ⟨xs, hr, hl⟩
        rcases hbody i (by omega) with ⟨-, h1⟩ | ⟨-, h1⟩
        · left
          obtain ⟨b', hw, hr'⟩ := hr.write c.ix (i := 0 + i) (by omega) (i * d)
          refine ⟨b', ?_, _, hr', by simpa using hl⟩
          obtain ⟨p, h2, h3⟩ := bind_eq_ok.mp h1
          obtain ⟨q, h4, h5⟩ := bind_eq_ok.mp h3
          simp only [h2, bind_ok, h4, h5, hw]
        · right
          simp only [h1]; rfl)
      (by omega) (by omega)
      (by
        rintro b -
        rcases hbody n (by omega) with ⟨h1, -⟩ | ⟨-, h1⟩
        · omega
        · simp only [h1]; rfl)
    show (forUp n 1 _ o >>= _) = _
    rw [this]; rfl
  unfold AoA.mkM AoA.resizeM
  rw [if_neg (by simp)]
  have hadd : Shape.addRowsM t c { numArrays := 0, offsets := Buf.empty, sizes := Buf.empty } n d = .error (.ub .overflow) := by
    unfold Shape.addRowsM Shape.lastOffset Shape.offsetsSizeM
    simp only [if_true, bind_ok, succOffset_ok t hb hn, ho, hz, hd0, hspread]
  rw [hadd]; rfl

theorem wide_max (t : IntTy) (hw : 32 ≤ t.bits) (hs : t.signed = true) : (2147483647 : Int) ≤ t.max := by
  unfold IntTy.max
  rw [hs, if_pos rfl]
  have : (2 : Int) ^ 31 ≤ 2 ^ (t.bits - 1) := by
    have := Nat.pow_le_pow_right (n := 2) (by decide) (show 31 ≤ t.bits - 1 by omega)
    exact_mod_cast this
  omega

/-- **C66, disagreement, growth.** With a signed index type of at least the width of `int`, adding a value to a full array
whose doubled size exceeds the maximum of the index type overflows, although the new size does not. -/
theorem C66_growth_overflow (t : IntTy) (hw : 32 ≤ t.bits) (hs : t.signed = true) (c : Cfg) {a : AoA T}
    {A B : List (List T × Nat)} {xs : List T} {cap : Nat} (h : Reach c a (A ++ (xs, cap) :: B)) (hfull : xs.length = cap)
    (hf : (((A ++ (xs, cap) :: B).map Prod.snd).sum : Int) ≤ t.max) (h1 : ((xs.length + 1 : Nat) : Int) ≤ t.max)
    (h2 : t.max < ((2 * (xs.length + 1) : Nat) : Int)) (v : T) :
    a.emplaceBackM t c A.length v = .error (.ub .overflow) := by
  have hb : 1 ≤ t.bits := by omega
  have hg := reach_good h
  have hs0 : a.shape.sizeOfArray c A.length = .ok xs.length := hg.shape.sizeOfAt rfl
  have hm : mul int t 2 ((xs.length + 1 : Nat) : Int) = .error (.ub .overflow) := by
    have hc : common int t = t := by
      have hp : t.promote = t := by
        unfold IntTy.promote
        exact if_neg (by omega)
      have hi : int.promote = int := by decide
      unfold IntTy.common
      simp only [hp, hi]
      rw [show int.signed = true from rfl, hs, if_pos rfl]
      split
      · rfl
      · rename_i hlt
        have : t.bits = 32 := by
          have : int.bits = 32 := rfl
          omega
        show (⟨32, true⟩ : IntTy) = t
        rw [← this, ← hs]
    unfold IntTy.mul
    rw [hc, cast_nat t hb h1, show (2 : Int) = ((2 : Nat) : Int) from rfl, cast_nat t hb (Int.le_trans (by decide) (wide_max t hw hs))]
    unfold IntTy.fit
    rw [if_pos hs, if_neg]
    rw [← Int.natCast_mul]
    omega
  unfold AoA.emplaceBackM AoA.dynamicallyGrowArrayM
  rw [hs0, bind_ok, plus_ok t hb h1, bind_ok, capacityM_of t hb c hg.shape (by rw [show total _ = _ from (caps_sum _).symm]; exact hf), bind_ok]
  unfold AoA.growIfM
  rw [if_pos (by simp; omega), hm]
  rfl

/-- A witness: three arrays of capacity 2^31 with 32 bit unsigned indices.  The first and the third start at the same
address: a value added to the third replaces the value of the first. -/
theorem C66_overlap_witness :
    (do let a : AoA Nat ← AoA.mkM uint32 checked 3 (2 ^ 31)
        let a ← a.runM uint32 checked [.emplaceBack 0 5, .emplaceBack 2 6]
        a.get checked 0 0) = .ok 6 := by rfl

/-- A witness: two arrays, `{ 1 }` and `{ 2, 3 }`, with 64 bit unsigned indices; after `eraseArray( 0 )` the remaining array
starts with 3 and has lost its other value; with signed indices it is `{ 2, 3 }`. -/
theorem C66_erase_witness :
    let ops : List (AoAOp Nat) := [.resizeArray 0 1 1, .resizeArray 1 2 2, .set 1 1 3, .eraseArray 0]
    (do let a ← AoA.mkM uint64 checked 2 0; let a ← a.runM uint64 checked ops; a.get checked 0 0) = .ok 3 ∧
    (do let a ← AoA.mkM uint64 checked 2 0; let a ← a.runM uint64 checked ops; a.get checked 0 1) = .error (.ub .rawRead) ∧
    (do let a ← AoA.mkM ptrdiff checked 2 0; let a ← a.runM ptrdiff checked ops; a.get checked 0 0) = .ok 2 ∧
    (do let a ← AoA.mkM ptrdiff checked 2 0; let a ← a.runM ptrdiff checked ops; a.get checked 0 1) = .ok 3 := by
  refine ⟨?_, ?_, ?_, ?_⟩ <;> rfl

/-! ## The hypotheses are met -/

instance (t : IntTy) (x : Nat) : Decidable (Bounded t x) := inferInstanceAs (Decidable (_ ∧ _))
instance (t : IntTy) (L : List (List T × Nat)) : Decidable (RowsFit t L) := inferInstanceAs (Decidable (_ ∧ _))
instance (t : IntTy) (op : AoAOp T) : Decidable (RequestFits t op) := by
  cases op <;> unfold RequestFits <;> infer_instance

/-- `KeepsCapacities` as a computation. -/
def keepsCapacities (L : List (List T × Nat)) : AoAOp T → Bool
  | .eraseArray i => match L[i]? with | some r => decide (r.2 = 0) | none => true
  | .setCapacityOfArray i n => match L[i]? with | some r => decide (r.2 ≤ n) | none => true
  | _ => true

theorem keepsCapacities_sound (L : List (List T × Nat)) (op : AoAOp T) (h : keepsCapacities L op = true) : KeepsCapacities L op := by
  cases op <;> simp only [KeepsCapacities]
  all_goals
    intro r hr
    simp only [keepsCapacities, hr, decide_eq_true_eq] at h
    exact h

/-- `HistoryFits` as a computation. -/
def historyFits (t : IntTy) : List (List T × Nat) → List (AoAOp T) → Bool
  | L, [] => decide (RowsFit t L)
  | L, op :: ops => decide (RowsFit t L) && decide (RequestFits t op) && (t.signed || keepsCapacities L op) &&
      (match vvcStep L op with
       | some L' => historyFits t L' ops
       | none => true)

theorem historyFits_sound (t : IntTy) : ∀ (ops : List (AoAOp T)) (L : List (List T × Nat)),
    historyFits t L ops = true → HistoryFits t L ops
  | [], L, h => by
    unfold historyFits at h
    show RowsFit t L
    exact of_decide_eq_true h
  | op :: ops, L, h => by
    unfold historyFits at h
    simp only [Bool.and_eq_true, Bool.or_eq_true, decide_eq_true_eq] at h
    refine ⟨h.1.1.1, h.1.1.2, h.1.2.imp_right (keepsCapacities_sound L op), fun L' hL' => ?_⟩
    have h2 := h.2
    rw [hL'] at h2
    exact historyFits_sound t ops L' h2

/-- A history of arrays of arrays with one byte indices that uses every operation. -/
def smallHistory : List (AoAOp Nat) :=
  [.emplaceBack 0 5, .appendToArray 1 [6, 7, 8], .emplace 1 0 4, .insertIntoArray 1 2 [1, 2], .eraseFromArray 1 0 2,
   .appendArray [9, 9], .insertArray 1 [3], .appendArraySize 4, .set 4 3 2, .setCapacityOfArray 0 10, .setCapacityOfArray 2 1,
   .resizeArray 3 7 1, .eraseArray 0, .compress, .clearArray 1, .reserve 20, .reserveValues 100, .resize 2 3, .resize 6 9,
   .emplaceBack 5 1]

example : vvRun [[], []] smallHistory = some [[3], [], [], [], [], [1]] := by decide +kernel
example : HistoryFits schar (List.replicate 2 ([], 3)) smallHistory := historyFits_sound _ _ _ (by decide +kernel)
example : NoEmptyInsert checked smallHistory := by
  intro _ op hop
  simp only [smallHistory, List.mem_cons, List.not_mem_nil, or_false] at hop
  rcases hop with h | h | h | h | h | h | h | h | h | h | h | h | h | h | h | h | h | h | h | h <;> subst h <;>
    simp [AoAOp.nonEmptyInsert]
example : HistoryFits uint64 (List.replicate 2 ([], 3)) (smallHistory.take 10) := historyFits_sound _ _ _ (by decide +kernel)

/-- With one byte indices three arrays of capacity 42 fit, three arrays of capacity 43 do not. -/
example : RowsFit schar (List.replicate 3 (([] : List Nat), 42)) ∧ ¬ RowsFit schar (List.replicate 3 (([] : List Nat), 43)) := by
  decide +kernel

example : ∃ a : AoA Nat, AoA.mkM uint32 checked 2 (2 ^ 31) = .ok a ∧ a.shape.numArrays = 2 ∧
    (∀ i, i < 2 → a.shape.capacityOfArrayM uint32 checked i = .ok (2 ^ 31)) ∧ a.values.cap = 0 :=
  C66_unsigned_wraps uint32 (by decide) rfl checked 2 (2 ^ 31) (by decide) (by decide) (by decide) (by decide)

example : (AoA.mkM int checked 2 (2 ^ 30) : R (AoA Nat)) = .error (.ub .overflow) :=
  C66_signed_overflow int (by decide) rfl checked 2 (2 ^ 30) (by decide) (by decide) (by decide)

/-- One array with `n` values that is full. -/
theorem full_array (n : Nat) (h1 : ((n + 1 : Nat) : Int) ≤ int.max) (h2 : int.max < ((2 * (n + 1) : Nat) : Int)) :
    ∃ a : AoA Nat, Reach checked a [(List.replicate n 7, n)] ∧ a.emplaceBackM int checked 0 8 = .error (.ub .overflow) := by
  obtain ⟨a0, h3, hg⟩ := mk_good (T := Nat) checked 1 0
  have hs : vvcRun (List.replicate 1 (([] : List Nat), 0)) [.resizeArray 0 n 7] = some [(List.replicate n 7, n)] := by
    simp [vvcRun, vvcStep, onRowC]
  obtain ⟨a, h4, -⟩ := run_trivial checked rfl _ (by simp [AoAOp.nonEmptyInsert]) hg hs
  have hr : Reach checked a [(List.replicate n 7, n)] :=
    ⟨1, 0, _, a0, by unfold NoEmptyInsert; simp [AoAOp.nonEmptyInsert], h3, h4, hs⟩
  refine ⟨a, hr, ?_⟩
  refine C66_growth_overflow int (by decide) rfl checked (A := []) (B := []) hr ?_ ?_ ?_ ?_ 8
  · rw [List.length_replicate]
  · simp; omega
  · rw [List.length_replicate]; exact h1
  · rw [List.length_replicate]; exact h2

example : ((2 ^ 30 + 1 : Nat) : Int) ≤ int.max ∧ int.max < ((2 * (2 ^ 30 + 1) : Nat) : Int) := by decide

/-! ### Counts never leave the index type -/

theorem plus_le {t : IntTy} (hb : 1 ≤ t.bits) {x y z : Nat} (h : t.plus x y = .ok z) : (z : Int) ≤ t.max := by
  simp only [plus, addTo] at h
  obtain ⟨p, hp, h⟩ := LvArray.bind_eq_ok.1 h
  obtain ⟨q, -, hq⟩ := LvArray.bind_eq_ok.1 hp
  cases hq
  have hle : t.cast q ≤ t.max := by
    have hpos : (0 : Int) < (2 : Int) ^ t.bits := Int.pow_pos (by decide)
    have h1 := Int.emod_lt_of_pos q hpos
    have h0 := Int.emod_nonneg q (Int.ne_of_gt hpos)
    have hpow : (2 : Int) ^ t.bits = 2 * (2 : Int) ^ (t.bits - 1) := by
      rw [← Int.pow_succ']
      congr 1
      omega
    simp only [IntTy.cast, IntTy.max]
    split <;> split <;> simp_all <;> omega
  unfold toIndex at h
  split at h
  · cases h
  · cases h
    omega

/-- **C66.** For every index type and every state, an operation that adds an array or values to an array either fails or leaves a number
of arrays, or a size, that is a value of the index type. -/
theorem C66_counts_in_range (t : IntTy) (hb : 1 ≤ t.bits) (c : Cfg) (a : AoA T) (i j : Nat) (v : T) (vs : List T) :
    (∀ s, a.shape.appendRowM t c = .ok s → (s.numArrays : Int) ≤ t.max) ∧
    (∀ s, a.shape.insertRowM t c i = .ok s → (s.numArrays : Int) ≤ t.max) ∧
    (∀ a', a.viewEmplaceBackM t c i v = .ok a' → ∃ n, a'.shape.sizes.read i = .ok n ∧ (n : Int) ≤ t.max) ∧
    (∀ a', a.viewAppendToArrayM t c i vs = .ok a' → ∃ n, a'.shape.sizes.read i = .ok n ∧ (n : Int) ≤ t.max) ∧
    (∀ a', a.viewEmplaceM t c i j v = .ok a' → ∃ n, a'.shape.sizes.read i = .ok n ∧ (n : Int) ≤ t.max) ∧
    (∀ a', a.viewInsertIntoArrayM t c i j vs = .ok a' → ∃ n, a'.shape.sizes.read i = .ok n ∧ (n : Int) ≤ t.max) := by
  have hset : ∀ {s s' : Shape} {n : Nat}, s.setSize c i n = .ok s' → s'.sizes.read i = .ok n := by
    intro s s' n h
    simp only [Shape.setSize] at h
    obtain ⟨z, hz, h⟩ := LvArray.bind_eq_ok.1 h
    cases h
    exact write_read hz
  refine ⟨fun s h => ?_, fun s h => ?_, fun a' h => ?_, fun a' h => ?_, fun a' h => ?_, fun a' h => ?_⟩
  · simp only [Shape.appendRowM] at h
    obtain ⟨_, -, h⟩ := LvArray.bind_eq_ok.1 h
    obtain ⟨_, -, h⟩ := LvArray.bind_eq_ok.1 h
    obtain ⟨_, -, h⟩ := LvArray.bind_eq_ok.1 h
    obtain ⟨_, -, h⟩ := LvArray.bind_eq_ok.1 h
    obtain ⟨n, hn, h⟩ := LvArray.bind_eq_ok.1 h
    cases h
    exact plus_le hb hn
  · simp only [Shape.insertRowM] at h
    obtain ⟨_, -, h⟩ := LvArray.bind_eq_ok.1 h
    obtain ⟨_, -, h⟩ := LvArray.bind_eq_ok.1 h
    obtain ⟨_, -, h⟩ := LvArray.bind_eq_ok.1 h
    obtain ⟨_, -, h⟩ := LvArray.bind_eq_ok.1 h
    obtain ⟨_, -, h⟩ := LvArray.bind_eq_ok.1 h
    obtain ⟨_, -, h⟩ := LvArray.bind_eq_ok.1 h
    obtain ⟨n, hn, h⟩ := LvArray.bind_eq_ok.1 h
    cases h
    exact plus_le hb hn
  · simp only [AoA.viewEmplaceBackM] at h
    obtain ⟨_, -, h⟩ := LvArray.bind_eq_ok.1 h
    obtain ⟨_, -, h⟩ := LvArray.bind_eq_ok.1 h
    obtain ⟨_, -, h⟩ := LvArray.bind_eq_ok.1 h
    obtain ⟨_, -, h⟩ := LvArray.bind_eq_ok.1 h
    obtain ⟨_, -, h⟩ := LvArray.bind_eq_ok.1 h
    obtain ⟨n, hn, h⟩ := LvArray.bind_eq_ok.1 h
    obtain ⟨s, hs, h⟩ := LvArray.bind_eq_ok.1 h
    cases h
    exact ⟨n, hset hs, plus_le hb hn⟩
  · simp only [AoA.viewAppendToArrayM] at h
    obtain ⟨_, -, h⟩ := LvArray.bind_eq_ok.1 h
    obtain ⟨_, -, h⟩ := LvArray.bind_eq_ok.1 h
    obtain ⟨_, -, h⟩ := LvArray.bind_eq_ok.1 h
    obtain ⟨_, -, h⟩ := LvArray.bind_eq_ok.1 h
    obtain ⟨_, -, h⟩ := LvArray.bind_eq_ok.1 h
    obtain ⟨_, -, h⟩ := LvArray.bind_eq_ok.1 h
    obtain ⟨n, hn, h⟩ := LvArray.bind_eq_ok.1 h
    obtain ⟨s, hs, h⟩ := LvArray.bind_eq_ok.1 h
    cases h
    exact ⟨n, hset hs, plus_le hb hn⟩
  · simp only [AoA.viewEmplaceM] at h
    obtain ⟨_, -, h⟩ := LvArray.bind_eq_ok.1 h
    obtain ⟨_, -, h⟩ := LvArray.bind_eq_ok.1 h
    obtain ⟨_, -, h⟩ := LvArray.bind_eq_ok.1 h
    obtain ⟨_, -, h⟩ := LvArray.bind_eq_ok.1 h
    obtain ⟨_, -, h⟩ := LvArray.bind_eq_ok.1 h
    obtain ⟨n, hn, h⟩ := LvArray.bind_eq_ok.1 h
    obtain ⟨s, hs, h⟩ := LvArray.bind_eq_ok.1 h
    cases h
    exact ⟨n, hset hs, plus_le hb hn⟩
  · simp only [AoA.viewInsertIntoArrayM] at h
    obtain ⟨_, -, h⟩ := LvArray.bind_eq_ok.1 h
    obtain ⟨_, -, h⟩ := LvArray.bind_eq_ok.1 h
    obtain ⟨_, -, h⟩ := LvArray.bind_eq_ok.1 h
    obtain ⟨_, -, h⟩ := LvArray.bind_eq_ok.1 h
    obtain ⟨_, -, h⟩ := LvArray.bind_eq_ok.1 h
    obtain ⟨_, -, h⟩ := LvArray.bind_eq_ok.1 h
    obtain ⟨n, hn, h⟩ := LvArray.bind_eq_ok.1 h
    obtain ⟨s, hs, h⟩ := LvArray.bind_eq_ok.1 h
    cases h
    exact ⟨n, hset hs, plus_le hb hn⟩

/-- The operations succeed: `n` arrays of an `ArrayOfArrays< int, std::int8_t >`, and one more. -/
example : ((AoA.mkM { bits := 8, signed := true } checked 3 2 >>= fun a : AoA Nat => a.emplaceBackM { bits := 8, signed := true } checked 1 7 >>=
    fun a => a.shape.appendRowM { bits := 8, signed := true } checked).map (·.numArrays)) = .ok 4 := rfl

end LvArray.Props

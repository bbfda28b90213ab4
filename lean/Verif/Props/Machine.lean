import Verif.MachineRows
import Verif.Props.ArrayOfArrays

/-!
# C56, C57: index arithmetic in the integer types of the code

`t` is the `INDEX_TYPE` of the container, any integer type of any width.  An index, a length or a new dimension is a pair of
an integer type and a value of it (`Typed`), because the functions take their arguments in the type the caller has.
`Fits t dims` says that the product of the non-zero lengths is a value of `t` (and of `std::ptrdiff_t`, which no array that
exists in memory can exceed).  `ArrM.of a` is the array `a` with its lengths and strides stored in an `INDEX_TYPE`.
-/

namespace LvArray.Props

open indexing IntTy Spec Layout

variable {T : Type}

/-! ## C56: exactness -/

/-- **C56, sizes and positions.** For every index type, permutation and shape that fits: `size()` is the number of elements,
every in-bounds index, given in any mixture of integer types, is mapped to a position below that number, and two different
indices are mapped to different positions. -/
theorem C56_positions (t : IntTy) (hb : 1 ≤ t.bits) (c : Cfg) (a : ArrayN T) (h : Wf a) (hf : Fits t a.dims) :
    (ArrM.of a).size t = .ok ((a.dims.prod : Nat) : Int) ∧
    (∀ idx : List (IntTy × Int), (∀ i ∈ idx, Typed i) → InBounds a.dims (idx.map Prod.snd) →
      ∃ m : Nat, (ArrM.of a).position t c idx = .ok (m : Int) ∧ m < a.dims.prod) ∧
    (∀ idx jdx : List (IntTy × Int), (∀ i ∈ idx, Typed i) → (∀ i ∈ jdx, Typed i) → InBounds a.dims (idx.map Prod.snd) →
      InBounds a.dims (jdx.map Prod.snd) → (ArrM.of a).position t c idx = (ArrM.of a).position t c jdx →
      idx.map Prod.snd = jdx.map Prod.snd) := by
  obtain ⟨-, hrange, hinj, -⟩ := C01_bijection c a.perm a.dims h.perm h.len
  have hl : ∀ idx : List (IntTy × Int), InBounds a.dims (idx.map Prod.snd) → idx.length = a.dims.length :=
    fun idx hi => by simpa using InBounds.length hi
  refine ⟨?_, fun idx ht hi => ?_, fun idx jdx ht hu hi hj he => ?_⟩
  · rw [size_of t hb a hf, Wf.size]
  · rw [position_of t hb c a h hf idx ht (hl idx hi) (Or.inr hi), h.view]
    obtain ⟨m, hm, h0, h1⟩ := hrange _ hi
    exact ⟨m.toNat, by rw [hm]; congr 1; omega, by omega⟩
  · rw [position_of t hb c a h hf idx ht (hl idx hi) (Or.inr hi), position_of t hb c a h hf jdx hu (hl jdx hj) (Or.inr hj),
      h.view] at he
    exact hinj _ _ hi hj he

/-- **C56, bounds checks.** With bounds checking, `a( idx... )` aborts for every index outside the shape, whatever mixture of
signed and unsigned types of any width the indices have. -/
theorem C56_bounds_check (t : IntTy) (hb : 1 ≤ t.bits) (c : Cfg) (hc : c.boundsCheck = true) (a : ArrayN T) (h : Wf a)
    (hf : Fits t a.dims) (idx : List (IntTy × Int)) (hi : ∀ i ∈ idx, Typed i) (hl : idx.length = a.dims.length)
    (ho : ¬ InBounds a.dims (idx.map Prod.snd)) : (ArrM.of a).get t c idx = .error .abort := by
  have hp := position_of t hb c a h hf idx hi hl (Or.inl hc)
  have hv : invalidIndices a.dims (idx.map Prod.snd) = true := by
    cases he : invalidIndices a.dims (idx.map Prod.snd) with
    | true => rfl
    | false => exact absurd ((invalidIndices_iff a.dims _ (by simpa using hl)).mp he) ho
  have : a.view.call c (idx.map Prod.snd) = .error .abort := by
    unfold Slice.call
    have e : a.view.dims = a.dims := rfl
    rw [if_pos hc, e]
    unfold checkIndices
    rw [hv, errorIf_true, bind_err]
  unfold ArrM.get
  rw [hp, this, bind_err]

/-- A call on an array with arguments in integer types of the caller's choice. -/
inductive MachineCall (T : Type) where
  | resize (dims : List (IntTy × Int))
  | resizeDimension (pairs : List (Nat × IntTy × Int))
  | resizeOne (n : IntTy × Int)
  | resizeDefault (n : IntTy × Int) (v : T)
  | clear
  | assign (idx : List (IntTy × Int)) (v : T)

/-- The call with mathematical integers as arguments. -/
def MachineCall.plain : MachineCall T → ArrayCall T
  | .resize dims => .resize (dims.map Prod.snd)
  | .resizeDimension pairs => .resizeDimension (pairs.map (fun q => (q.1, q.2.2)))
  | .resizeOne n => .resizeOne n.2
  | .resizeDefault n v => .resizeDefault n.2 v
  | .clear => .clear
  | .assign idx v => .assign (idx.map Prod.snd) v

/-- Performing the call with `INDEX_TYPE` equal to `t`; `d` is `T()`. -/
def MachineCall.run (t : IntTy) (c : Cfg) (d : T) (a : ArrM T) : MachineCall T → R (ArrM T)
  | .resize dims => a.resize t c dims d
  | .resizeDimension pairs => a.resizeDimension t c pairs d
  | .resizeOne n => a.resizeOne t c n d
  | .resizeDefault n v => a.resizeOne t c n v
  | .clear => a.clear t c d
  -- a call with the wrong number of indices does not compile
  | .assign idx v => if idx.length = a.dims.length then a.set t c idx v else .error .abort

/-- A new length for the default dimension: its value can be stored in the index type, the new shape fits, and the index type
is signed or the dimension does not grow. -/
def GoodLength (t : IntTy) (a : ArrayN T) (n : IntTy × Int) : Prop :=
  Representable t n.2 ∧ Fits t (a.dims.set a.resizeIndex n.2.toNat) ∧
    (t.signed = true ∨ n.2 ≤ (a.dims.getD a.resizeIndex 0 : Nat))

/-- The arguments are values of their types and the requested shape fits.  Negative lengths are allowed if the index type is
signed. -/
def MachineCall.Good (t : IntTy) (a : ArrayN T) : MachineCall T → Prop
  | .resize dims => (∀ d ∈ dims, Typed d) ∧ (t.signed = true ∨ ∀ d ∈ dims, 0 ≤ d.2) ∧
      Fits t (dims.map (fun d => d.2.toNat))
  | .resizeDimension pairs => (∀ q ∈ pairs, Typed q.2) ∧ (t.signed = true ∨ ∀ q ∈ pairs, 0 ≤ q.2.2) ∧
      (∀ q ∈ pairs, q.2.2 ≤ t.max) ∧ Fits t (pairs.foldl (fun ds q => ds.set q.1 q.2.2.toNat) a.dims)
  | .resizeOne n => GoodLength t a n
  | .resizeDefault n _ => GoodLength t a n
  | .clear => True
  | .assign idx _ => ∀ i ∈ idx, Typed i

/-- Every shape that occurs in the history fits the index type. -/
def ShapesFit (t : IntTy) (c : Cfg) (d : T) : ArrayN T → List (MachineCall T) → Prop
  | a, [] => Fits t a.dims
  | a, f :: fs => Fits t a.dims ∧ f.Good t a ∧ ∀ a', f.plain.run c d a = .ok a' → ShapesFit t c d a' fs

theorem call_of (t : IntTy) (hb : 1 ≤ t.bits) (c : Cfg) (hc : c.boundsCheck = true) (d : T) (a : ArrayN T) (h : Wf a)
    (hf : Fits t a.dims) (f : MachineCall T) (hg : f.Good t a) :
    f.run t c d (ArrM.of a) = (f.plain.run c d a).map ArrM.of := by
  cases f with
  | resize dims => exact resize_of t hb c a h hf dims d hg.1 hg.2.1 hg.2.2
  | resizeDimension pairs => exact resizeDimension_of t hb c a h hf pairs d hg.1 hg.2.1 hg.2.2.1 hg.2.2.2
  | resizeOne n => exact resizeOne_of t hb c a h hf n d hg.1 hg.2.1 hg.2.2
  | resizeDefault n v => exact resizeOne_of t hb c a h hf n v hg.1 hg.2.1 hg.2.2
  | clear => exact clear_of t hb c a h hf d
  | assign idx v =>
    show (if idx.length = (ArrM.of a).dims.length then _ else _) =
      (if (idx.map Prod.snd).length = a.dims.length then _ else _ : R (ArrayN T)).map ArrM.of
    have e0 : (ArrM.of a).dims.length = a.dims.length := by simp [ArrM.of]
    rw [e0, List.length_map]
    by_cases hl : idx.length = a.dims.length
    · rw [if_pos hl, if_pos hl]
      exact set_of t hb c a h hf idx v hg hl (Or.inl hc)
    · rw [if_neg hl, if_neg hl]; rfl

/-- **C56, histories (partial: shapes that do not fit, and growing the default dimension with an unsigned index type, are
excluded).** For every index type, every permutation and every sequence of resizes of all kinds, clears and
assignments in which every shape fits: computing lengths, strides, sizes, positions and loop counters in the index type gives
exactly the array, or the abort, that mathematical integers give.  All theorems about arrays with mathematical integers
(C01-C06, C10-C14) therefore hold for the code with that index type on such histories. -/
theorem C56_histories_partial (t : IntTy) (hb : 1 ≤ t.bits) (c : Cfg) (hc : c.boundsCheck = true) (d : T) :
    ∀ (calls : List (MachineCall T)) (a : ArrayN T), Wf a → ShapesFit t c d a calls →
      calls.foldlM (MachineCall.run t c d) (ArrM.of a) =
        ((calls.map MachineCall.plain).foldlM (ArrayCall.run c d) a).map ArrM.of
  | [], a, _, _ => rfl
  | f :: fs, a, h, hs => by
    obtain ⟨hf, hg, hrest⟩ := hs
    rw [List.foldlM_cons, List.map_cons, List.foldlM_cons, call_of t hb c hc d a h hf f hg]
    rcases call_keeps_wf c hc d a h f.plain with he | ⟨a', he, hw, -⟩
    · have he' : ArrayCall.run c d a f.plain = .error .abort := he
      rw [he']; rfl
    · have he' : ArrayCall.run c d a f.plain = .ok a' := he
      rw [he']
      exact C56_histories_partial t hb c hc d fs a' hw (hrest a' he)

/-- **C56, reading.** What a read returns after such a history is what it returns with mathematical integers. -/
theorem C56_reads (t : IntTy) (hb : 1 ≤ t.bits) (c : Cfg) (hc : c.boundsCheck = true) (a : ArrayN T) (h : Wf a)
    (hf : Fits t a.dims) (idx : List (IntTy × Int)) (hi : ∀ i ∈ idx, Typed i) (hl : idx.length = a.dims.length) :
    (ArrM.of a).get t c idx = a.get c (idx.map Prod.snd) :=
  get_of t hb c a h hf idx hi hl (Or.inl hc)

/-- **C56, lengths that do not fit (partial: the product of the lengths is not checked, see below).** A single length that is not a value of the index type makes `resize( dims... )` abort
when it is converted (negative lengths: for signed index types). -/
theorem C56_length_rejected_partial (t : IntTy) (hb : 1 ≤ t.bits) (d : IntTy × Int) (hd : Typed d) (hs : t.signed = true ∨ 0 ≤ d.2)
    (hbad : d.2 < 0 ∨ t.max < d.2) : ArrM.newDimension t d = .error .abort := by
  rw [newDimension_eq t hb d hd hs, if_neg (by omega)]

/-! ## C56: what is not rejected -/

/-- `std::uint32_t`, `std::uint64_t`, `signed char`. -/
def uint32 : IntTy := { bits := 32, signed := false }
def uint64 : IntTy := { bits := 64, signed := false }
def schar : IntTy := { bits := 8, signed := true }

theorem common_wide (t : IntTy) (hw : 32 ≤ t.bits) : common t t = t := by
  have hp : t.promote = t := by
    unfold IntTy.promote
    exact if_neg (by omega)
  unfold IntTy.common
  simp only [hp, if_true, Nat.lt_irrefl, if_false]

/-- **C56, disagreement, signed types.** For every signed index type of at least the width of `int`: asking for a `p` by `q`
array whose lengths are values of the type but whose number of elements is not does not abort; the multiplication overflows,
which is undefined behaviour. -/
theorem C56_signed_overflow (t : IntTy) (hw : 32 ≤ t.bits) (hs : t.signed = true) (p q : Nat) (hp : (p : Int) ≤ t.max)
    (hq : (q : Int) ≤ t.max) (hbig : t.max < ((p * q : Nat) : Int)) :
    multiplyAllM t [(p : Int), (q : Int)] = .error (.ub .overflow) := by
  have hb : 1 ≤ t.bits := by omega
  show (t.mulTo (p : Int) (q : Int)) = _
  unfold IntTy.mulTo IntTy.mul
  rw [common_wide t hw, cast_nat t hb hp, cast_nat t hb hq]
  unfold IntTy.fit
  rw [if_pos hs, if_neg, bind_err]
  rw [← Int.natCast_mul]
  omega

/-- **C56, disagreement, unsigned types.** For unsigned index types the number of elements silently wraps around. -/
theorem C56_unsigned_wraps (t : IntTy) (hw : 32 ≤ t.bits) (hs : t.signed = false) (p q : Nat) (hp : (p : Int) ≤ t.max)
    (hq : (q : Int) ≤ t.max) :
    multiplyAllM t [(p : Int), (q : Int)] = .ok (((p * q % 2 ^ t.bits : Nat)) : Int) := by
  have hb : 1 ≤ t.bits := by omega
  show (t.mulTo (p : Int) (q : Int)) = _
  unfold IntTy.mulTo IntTy.mul
  rw [common_wide t hw, cast_nat t hb hp, cast_nat t hb hq]
  unfold IntTy.fit
  rw [if_neg (by simp [hs]), bind_ok]
  unfold IntTy.cast
  simp only [hs, Bool.false_eq_true, false_and, if_false]
  rw [Int.emod_emod_of_dvd _ (Int.dvd_refl _)]
  push_cast
  rfl

/-- The default constructed two and three dimensional arrays. -/
def empty2 : ArrM Nat := ArrM.of (ArrayN.init Nat [0, 1])
def empty3 : ArrM Nat := ArrM.of (ArrayN.init Nat [0, 1, 2])

/-- All checks are on. -/
def checked : Cfg := { trivial := true, boundsCheck := true, debug := true }

/-- **C56, disagreement.** With a 32 bit unsigned index type `resize( 65536, 65536 )` succeeds, `size()` is 0, and `a( 0, 0 )`
passes the bounds check and accesses memory outside the allocation. -/
theorem C56_unsigned_access :
    (do let a ← empty2.resize uint32 checked [(int, 65536), (int, 65536)] 0
        a.size uint32) = .ok 0 ∧
    (do let a ← empty2.resize uint32 checked [(int, 65536), (int, 65536)] 0
        a.get uint32 checked [(int, 0), (int, 0)]) = .error (.ub .outOfBounds) := by
  constructor <;> rfl

/-- **C56, disagreement.** With `int` as index type `resize( 65536, 65536 )` and even `resize( 0, 65536, 65536 )`, which asks
for no element at all, overflow. -/
theorem C56_int_overflow :
    (empty2.resize int checked [(int, 65536), (int, 65536)] 0).map (fun a => a.dims) = .error (.ub .overflow) ∧
    (empty3.resize int checked [(int, 0), (int, 65536), (int, 65536)] 0).map (fun a => a.dims) =
      .error (.ub .overflow) := by
  constructor <;> rfl

theorem cast_periodic (t : IntTy) (i k : Int) : t.cast (i + k * 2 ^ t.bits) = t.cast i := by
  unfold IntTy.cast
  rw [Int.add_mul_emod_self_right]

/-- **C56, disagreement.** `operator[]` takes an `INDEX_TYPE`: an index of a wider type that differs from `i` by a multiple of
`2 ^ bits` is converted to `i` before the bounds check, so it is accepted wherever `i` is; `a( i )` with the same argument
aborts. -/
theorem C56_bracket_narrows (t ty : IntTy) (c : Cfg) (a : ArrM T) (i k : Int) :
    a.bracket t c (ty, i + k * 2 ^ t.bits) = a.bracket t c (ty, i) := by
  unfold ArrM.bracket
  rw [cast_periodic]

/-- **C56, disagreement.** The same holds for the new length in `resize( n )` of an array with two or more dimensions and in
`resizeDefault( n, v )`, where `resize( dims... )` would abort. -/
theorem C56_resize_narrows (t ty : IntTy) (c : Cfg) (a : ArrM T) (n k : Int) (v : T) :
    a.resizeOne t c (ty, n + k * 2 ^ t.bits) v = a.resizeOne t c (ty, n) v := by
  unfold ArrM.resizeOne
  rw [cast_periodic]

/-- One dimensional array with `int` indices holding 7, 8. -/
def two : ArrM Nat := { buf := { (Buf.empty : Buf Nat) with cap := 2, cell := cellsOf [7, 8] }, perm := [0], dims := [2], strides := [1], resizeIndex := 0 }

/-- A witness: element 4294967297 of an array of two elements. -/
theorem C56_bracket_witness :
    two.bracket int checked (ptrdiff, 4294967297) = .ok 8 ∧
    two.get int checked [(ptrdiff, 4294967297)] = .error .abort := by
  constructor <;> rfl

/-! ## C57: which integer types can be used -/

/-- **C57 (partial), growing an array.** With an unsigned index type, the single parameter resize of a dimension that is not
the outermost in memory never returns when it has to add elements: for every array, every larger length, every value. -/
theorem C57_unsigned_growth_never_returns (t : IntTy) (hb : 1 ≤ t.bits) (hs : t.signed = false) (c : Cfg) (a : ArrayN T)
    (h : Wf a) (hf : Fits t a.dims) (n : Nat) (v : T) (hn : Fits t (a.dims.set a.resizeIndex n))
    (hinner : a.perm.getD 0 0 ≠ a.resizeIndex) (hnd : a.dims.length ≠ 1) (hgrow : a.dims.prod < (a.dims.set a.resizeIndex n).prod)
    (a' : ArrM T) : (ArrM.of a).resizeDefaultDimension t c n v ≠ .ok a' := by
  intro hok
  have hp := h.isPerm
  have hpn : IsPermutation a.perm (a.dims.set a.resizeIndex n).length := by simpa using hp
  obtain ⟨outer, inner, N, st, hN1, hsplit⟩ := address_split hp h.index
  have e1 := (hsplit (a.dims.getD a.resizeIndex 0)).2.1
  have e2 := (hsplit n).2.1
  rw [set_self] at e1
  have hlt : a.dims.getD a.resizeIndex 0 < n := by
    refine Decidable.byContradiction fun hle => ?_
    have m1 : st * n * N ≤ st * a.dims.getD a.resizeIndex 0 * N :=
      Nat.mul_le_mul_right _ (Nat.mul_le_mul_left _ (Nat.le_of_not_lt hle))
    omega
  have hset : (a.dims.set a.resizeIndex n).getD a.resizeIndex 0 = n := by
    simp [List.getD_eq_getElem?_getD, h.index]
  have hnmax : (n : Int) ≤ t.max := by
    have := hn.mem a.resizeIndex
    rwa [hset] at this
  have hr : Representable t (n : Int) := rep_of_nonneg t (by omega) hnmax
  have hmr : Representable t ((a.dims.getD a.resizeIndex 0 : Nat) : Int) := rep_of_nonneg t (by omega) (hf.mem _)
  unfold ArrM.resizeDefaultDimension at hok
  rw [lt_zero t hb hr, show decide ((n : Int) < 0) = false by simp, errorIf_false, bind_ok] at hok
  have e0 : (ArrM.of a).dims.set a.resizeIndex (n : Int) = (a.dims.set a.resizeIndex n).map Int.ofNat := by
    rw [List.map_set]; rfl
  have ep : (ArrM.of a).perm = a.perm := rfl
  have er : (ArrM.of a).resizeIndex = a.resizeIndex := rfl
  have el : (ArrM.of a).dims.length = a.dims.length := by simp [ArrM.of]
  have ed : (ArrM.of a).dims.getD a.resizeIndex 0 = (a.dims.getD a.resizeIndex 0 : Int) := getD_map_ofNat _ _
  simp only [e0, ep, er, el, ed] at hok
  rw [size_of t hb a hf, bind_ok, calculateStridesM_ok t hb hpn hn, bind_ok, multiplyAllM_ok t hb _ hn.1, bind_ok,
    if_neg (by simp only [not_or]; exact ⟨hnd, hinner⟩), Wf.size, if_neg (by omega),
    lt_exact t t hb hb hmr hr (Or.inr ⟨by omega, by omega⟩), if_pos (by simpa using hlt)] at hok
  obtain ⟨b, hgr, -⟩ := bind_eq_ok.mp hok
  unfold ArrM.grow at hgr
  obtain ⟨_, _, hgr⟩ := bind_eq_ok.mp hgr
  obtain ⟨_, _, hgr⟩ := bind_eq_ok.mp hgr
  obtain ⟨_, _, hgr⟩ := bind_eq_ok.mp hgr
  obtain ⟨_, _, hgr⟩ := bind_eq_ok.mp hgr
  obtain ⟨_, _, hgr⟩ := bind_eq_ok.mp hgr
  obtain ⟨_, _, hgr⟩ := bind_eq_ok.mp hgr
  obtain ⟨_, _, hgr⟩ := bind_eq_ok.mp hgr
  obtain ⟨_, _, hgr⟩ := bind_eq_ok.mp hgr
  obtain ⟨last, _, hgr⟩ := bind_eq_ok.mp hgr
  refine growLoop_unsigned t hb hs c _ _ v _ _ _ _ ?_ hgr
  have hp2 := two_pow_pos t.bits
  unfold Representable IntTy.min IntTy.max IntTy.cast
  simp only [hs, Bool.false_eq_true, if_false, false_and]
  have := Int.emod_nonneg last (Int.ne_of_gt hp2)
  have := Int.emod_lt_of_pos last hp2
  omega

/-- A witness: growing the second dimension of a 2 by 1 array with 32 bit unsigned indices accesses memory outside the
allocation, with 64 bit unsigned indices it forms an offset that is not a `std::ptrdiff_t`; with `int` it is an ordinary
resize. -/
def grown (t : IntTy) : R (ArrM Nat) := do
  let a ← empty2.resize t checked [(int, 2), (int, 1)] 5
  ArrM.resizeOne t checked { a with resizeIndex := 1 } (int, 3) 6

theorem C57_growth_witness :
    (grown uint64).map (fun a => a.dims) = .error (.ub .overflow) ∧ (grown uint32).map (fun a => a.dims) = .error (.ub .outOfBounds) ∧
    (do let a ← grown int; a.get int checked [(int, 1), (int, 0)]) = .ok 5 ∧
    (do let a ← grown int; a.get int checked [(int, 1), (int, 2)]) = .ok 6 := by
  refine ⟨?_, ?_, ?_, ?_⟩ <;> rfl

/-- **C57 (partial), capacities of inner arrays.** With a signed index type `setCapacityOfArray` computes exactly what it
computes with mathematical integers (what that is: C23), as long as the old and the new total capacity are values of the
type. -/
theorem C57_signed_capacity_partial [Inhabited T] (t : IntTy) (hb : 1 ≤ t.bits) (hs : t.signed = true) (c : Cfg) {a : AoA T}
    {A B : List (List T × Nat)} {xs : List T} {cap : Nat} (h : Reach c a (A ++ (xs, cap) :: B)) (n : Nat)
    (hold : (((A ++ (xs, cap) :: B).map Prod.snd).sum : Int) ≤ t.max)
    (hnew : (((A ++ (xs, n) :: B).map Prod.snd).sum : Int) ≤ t.max)
    (hold2 : (((A ++ (xs, cap) :: B).map Prod.snd).sum : Int) ≤ ptrdiff.max)
    (hnew2 : (((A ++ (xs, n) :: B).map Prod.snd).sum : Int) ≤ ptrdiff.max) :
    a.setCapacityOfArrayM t c A.length n = a.setCapacityOfArray c A.length n := by
  have e : ∀ L : List (List T × Nat), (L.map Prod.snd).sum = total L := fun L => caps_sum L
  exact setCapacity_of t hb c (reach_good h) n (.inl hs) (by rw [← e]; exact hold) (by rw [← e]; exact hnew)
    (by rw [← e]; exact hold2) (by rw [← e]; exact hnew2)

/-- **C57, disagreement.** With an unsigned index type, whenever `setCapacityOfArray( i, n )` with a capacity below the number
of values of the array returns at all, the array still claims all its values, more than its capacity. -/
theorem C57_unsigned_capacity [Inhabited T] (t : IntTy) (hb : 1 ≤ t.bits) (hs : t.signed = false) (c : Cfg) {a a' : AoA T}
    {A B : List (List T × Nat)} {xs : List T} {cap : Nat} (h : Reach c a (A ++ (xs, cap) :: B)) (n : Nat)
    (hn : n < xs.length) (hold : (((A ++ (xs, cap) :: B).map Prod.snd).sum : Int) ≤ t.max) (hok : a.setCapacityOfArrayM t c A.length n = .ok a') :
    a'.shape.sizeOfArray c A.length = .ok xs.length ∧ n < xs.length := by
  have hg := reach_good h
  have hfits := hg.lay.fits (xs, cap) (by simp)
  obtain ⟨e1, e2⟩ := setCapacity_unsigned t hb hs c hg n (by simp only at hfits; omega)
    (by rw [show total _ = _ from (caps_sum _).symm]; exact hold) hok
  refine ⟨?_, hn⟩
  have hs0 : a.shape.sizeOfArray c A.length = .ok xs.length := hg.shape.sizeOfAt rfl
  unfold Shape.sizeOfArray Shape.checkBounds at hs0 ⊢
  rw [e1, e2]
  exact hs0

/-- Two arrays of two values each. -/
def twoRows : R (AoA Nat) := do
  let a ← AoA.mk' checked 2 2
  let a ← a.viewEmplaceBack checked 0 1
  let a ← a.viewEmplaceBack checked 0 2
  let a ← a.viewEmplaceBack checked 1 3
  a.viewEmplaceBack checked 1 4

/-- A witness: lowering the capacity of the first array to one with 64 bit unsigned indices leaves it with two values, the
second of which is now the first of the other array, whose own first value is lost. -/
theorem C57_capacity_witness :
    (do let a ← twoRows; let a ← a.setCapacityOfArrayM uint64 checked 0 1; a.shape.sizeOfArray checked 0) = .ok 2 ∧
    (do let a ← twoRows; let a ← a.setCapacityOfArrayM uint64 checked 0 1; a.shape.capacityOfArray checked 0) = .ok 1 ∧
    (do let a ← twoRows; let a ← a.setCapacityOfArrayM uint64 checked 0 1; a.get checked 1 0) = .ok 4 ∧
    (do let a ← twoRows; let a ← a.setCapacityOfArrayM ptrdiff checked 0 1; a.shape.sizeOfArray checked 0) = .ok 1 ∧
    (do let a ← twoRows; let a ← a.setCapacityOfArrayM ptrdiff checked 0 1; a.get checked 1 0) = .ok 3 := by
  refine ⟨?_, ?_, ?_, ?_, ?_⟩ <;> rfl

/-! ## The hypotheses are met -/

/-- A history of an array with one byte indices (at most 127 elements) and arguments of six different integer types. -/
def machineDemo : List (MachineCall Nat) :=
  [.resize [(uint64, 5), (schar, 4)], .assign [(uint32, 4), (ptrdiff, 3)] 9, .resizeDefault (int, 31) 7,
   .assign [(int, 31), (int, 0)] 1]

example : machineDemo.foldlM (MachineCall.run schar checked 0) empty2 |>.toOption.isNone := by decide +kernel

example : ((machineDemo.take 3).foldlM (MachineCall.run schar checked 0) empty2 >>= fun a =>
    a.get schar checked [(int, 4), (uint64, 3)]) = .ok 9 := by decide +kernel

theorem fits_of {t : IntTy} {dims : List Nat} {a b : Int} (h1 : t.max = a) (h2 : ptrdiff.max = b)
    (h : (((dims.filter (· ≠ 0)).prod : Nat) : Int) ≤ a ∧ (((dims.filter (· ≠ 0)).prod : Nat) : Int) ≤ b) : Fits t dims := by
  subst h1 h2; exact h

instance (t : IntTy) (x : Int) : Decidable (Representable t x) := inferInstanceAs (Decidable (_ ∧ _))
instance (i : IntTy × Int) : Decidable (Typed i) := inferInstanceAs (Decidable (_ ∧ _))
instance (t : IntTy) (dims : List Nat) : Decidable (Fits t dims) := inferInstanceAs (Decidable (_ ∧ _))
instance (t : IntTy) (a : ArrayN T) (n : IntTy × Int) : Decidable (GoodLength t a n) := inferInstanceAs (Decidable (_ ∧ _ ∧ _))
instance (t : IntTy) (a : ArrayN T) (f : MachineCall T) : Decidable (f.Good t a) := by
  cases f <;> unfold MachineCall.Good <;> infer_instance

/-- `ShapesFit` as a computation. -/
def shapesFit (t : IntTy) (c : Cfg) (d : T) : ArrayN T → List (MachineCall T) → Bool
  | a, [] => decide (Fits t a.dims)
  | a, f :: fs => decide (Fits t a.dims) && decide (f.Good t a) &&
      (match f.plain.run c d a with
       | .ok a' => shapesFit t c d a' fs
       | .error _ => true)

theorem shapesFit_sound (t : IntTy) (c : Cfg) (d : T) : ∀ (fs : List (MachineCall T)) (a : ArrayN T),
    shapesFit t c d a fs = true → ShapesFit t c d a fs
  | [], a, h => by
    unfold shapesFit at h
    show Fits t a.dims
    exact of_decide_eq_true h
  | f :: fs, a, h => by
    unfold shapesFit at h
    simp only [Bool.and_eq_true, decide_eq_true_eq] at h
    refine ⟨h.1.1, h.1.2, fun a' ha' => ?_⟩
    have h2 := h.2
    rw [ha'] at h2
    exact shapesFit_sound t c d fs a' h2

example : ShapesFit schar checked 0 (ArrayN.init Nat [0, 1]) machineDemo :=
  shapesFit_sound _ _ _ _ _ (by decide +kernel)

example : Wf (ArrayN.init Nat [0, 1]) := init_wf _ (by decide) (by decide)

example : multiplyAllM int [65536, 65536] = .error (.ub .overflow) :=
  C56_signed_overflow int (by decide) rfl 65536 65536 (by decide) (by decide) (by decide)

example : multiplyAllM uint64 [4294967296, 4294967297] = .ok 4294967296 :=
  C56_unsigned_wraps uint64 (by decide) rfl 4294967296 4294967297 (by decide) (by decide)

/-- The array of `C57_growth_witness` before it grows: it is reached by calls, so it is well formed. -/
def before : R (ArrayN Nat) :=
  [ArrayCall.resize [2, 1], .setIndex 1].foldlM (ArrayCall.run checked 5) (ArrayN.init Nat [0, 1])

example : ∃ a : ArrayN Nat, before = .ok a ∧ Wf a ∧ a.dims = [2, 1] ∧ a.resizeIndex = 1 ∧ a.perm.getD 0 0 ≠ a.resizeIndex ∧
    Fits uint64 a.dims ∧ Fits uint64 (a.dims.set a.resizeIndex 3) ∧ a.dims.prod < (a.dims.set a.resizeIndex 3).prod := by
  rcases call_keeps_wf checked rfl 5 _ (init_wf [0, 1] (by decide) (by decide)) (ArrayCall.resize [2, 1]) with he | ⟨a1, he1, hw1, -⟩
  · exact absurd he (by intro h; cases h)
  rcases call_keeps_wf checked rfl 5 a1 hw1 (ArrayCall.setIndex 1) with he | ⟨a2, he2, hw2, -⟩
  · cases he1; exact absurd he (by intro h; cases h)
  · cases he1; cases he2
    exact ⟨_, rfl, hw2, rfl, rfl, by decide, by decide, by decide, by decide⟩

end LvArray.Props
